import Verif.Lemmas.Life
/-!
C78: a device which was manufactured, and whose voucher was passed on to an owner, is found and onboarded by this owner.
-/
namespace Verif.Life
open Verif Verif.Voucher Verif.Store Verif.Types

section
variable {R : Whole} {c : Bool} {Bm : MfgServer.MStore} {mcfg : MfgServer.Config R.mfg} {Idm : Type} [DecidableEq Idm]
    {idOfm : List Char → Option Idm} {A : Http.Aead} {encM : MfgServer.Resp → Bytes}
    {cfg : OwnerServer.Config R.toOwnerEnv} {rcfg : RvServer.Config R.toRvEnv} {N : To0.Msgs} {encR : RvServer.Resp → Bytes}
    {encO : OwnerServer.Resp → Bytes}

/-- **C78**, first half: if a device is manufactured and its voucher transferred to an owner, then all transfers succeed, the result can
be written and read, and it is a voucher with which the device, its owner and the rendezvous server can work. -/
theorem C78_voucher (L : Laws mcfg cfg rcfg N A encM encR encO) {w : Credential.Surroundings} {args : MfgClient.Args}
    {t : Trace (MfgClient.sig R.cli)} {h : MfgServer.Hist R.mfg c Bm mcfg idOfm A encM} {s s' : Fs.Files} {path : Fs.Path}
    {cr : Credential.Cred} {dev : R.E.Pub} {v v' : Voucher R.E} {steps : List (Step R.E)} {r : Res Err Unit}
    (M : Manufactured c A Bm mcfg idOfm encM w args t h s s' path cr dev v) (X : Transferred c mcfg cfg steps v v' r) :
    r = .ok () ∧ (∃ bs, serialize v' = .ok bs ∧ deserialize c bs = .ok (v', [])) ∧
    cr.active = true ∧ cr.version = 101 ∧ cr.guid = v'.header.guid ∧ cr.guid.length = 16 ∧ cr.rvinfo = R.E.encRv mcfg.rv ∧
    v'.header.rv = mcfg.rv ∧ Device.VoucherFor R.toDevEnv c cr dev cfg.ownerPub v' ∧ To0.Accepts R.toOwnerEnv c cfg rcfg dev v' := by
  obtain ⟨⟨Inv, Has, K⟩, ⟨st, hst⟩, hrun, htalk, hz, htpm, hsm, hid, hg, hfiles, hnew, hgiven, hpath, hcr, hdev, ⟨b, now, hb, hbl, hv⟩, hhb⟩ := M
  obtain ⟨⟨o, ho, hsteps, hlast⟩, hkeys, hsome, hfew, hext, hsmall⟩ := X
  rcases MfgClient.C44_complete_partial K L.mfg st hst L.wireM L.secures.opens L.kex hrun htalk hz htpm hsm hid hg hfiles with
    ⟨hq, _⟩ | ⟨p, cr', info, der, v1, b1, h1, h2, h3, h4, h5, -, p2, p3, p4⟩
  · obtain ⟨d, hd, q, e⟩ := hnew
    exact absurd e (hq d hd q)
  rw [hpath] at h1
  cases h1
  obtain rfl : cr' = cr := by
    obtain ⟨cb, e1, e2, e3⟩ := hcr
    rw [h2] at e1
    have e1 : (if path = path then some (R.codec.enc cr') else s path) = some cb := e1
    rw [if_pos rfl] at e1
    cases e1
    rw [L.credential cr' ⟨.inr p2, p3, _, p4, by rw [p4]; exact L.rv⟩ e2] at e3
    exact Option.some.inj e3
  have hb' := h3 now
  rw [hb] at hb'
  have hb' : b = b1 := Option.some.inj (Res.ok.inj hb')
  subst hb'
  obtain ⟨g1, g2, g3, g4, g5, g6⟩ := h4 hbl
  rw [hv] at g1
  cases g1
  obtain ⟨ps, f1, f2, f3, f4⟩ := first_owner g5 g4 ho
  have hlen : v.entries.contents.length ≤ 1 := by rw [f3, f4]; split <;> omega
  obtain ⟨v2, qs, e1, e2, e3, e4⟩ := transferred L.mfg.codec g5 f1 f2 (by omega) hkeys hsteps
  rw [hext] at e1
  cases e1
  have hne : v'.entries.contents ≠ [] := by
    intro h0
    have : v'.entries.contents.length = 0 := by rw [h0]; rfl
    rcases hsome with h | h
    · rw [e4, f3, f4, if_pos h] at this; omega
    · have := List.length_pos_iff.2 h; omega
  have hown := e3.trans hlast
  obtain ⟨k1, -⟩ := certified (cfg := cfg) (rcfg := rcfg) L.mfg L.trust g3 (hdev _ (h5 hgiven))
  refine ⟨rfl, ?_, g2.active, g2.version, by rw [e2.header]; exact g2.guid, by rw [g2.guid]; exact g5.guid, ?_, by rw [e2.header]; exact g6,
    e2.voucherFor g2 hown ?_ hne (by omega) ?_, e2.accepts g2 L.mfg L.trust g3 (hdev _ (h5 hgiven)) g4.1 hown hne hsmall⟩
  · obtain ⟨bs, r1, r2⟩ := rewritable_roundtrip e2.canonical.written []
    rw [List.append_nil] at r2
    exact ⟨bs, r1, r2⟩
  · rw [g2.rv, g6]
  · intro hb hhb'
    refine hhb hb ?_
    unfold getLeaf at hhb' ⊢
    rw [← e2.others 1 (by omega)]
    exact hhb'
  · unfold OwnerServer.voucherKey at k1 ⊢
    rw [e2.chain]
    exact k1

section
open Verif.Device
variable {Br : RvServer.Backend (RvServer.Item R.toRvEnv)}
    {Idr : Type} [DecidableEq Idr] {idOfr : List Char → Option Idr}
    {kdfr : Http.Request (RvServer.server R.toRvEnv c Br rcfg Idr idOfr A encR) → Bool}
    {p hist mid hist' : RvServer.Hist R.toRvEnv c Br rcfg idOfr A encR}
    {Bo : OwnerServer.VStore (Voucher R.E)} {Ido : Type} [DecidableEq Ido] {idOfo : List Char → Option Ido} {Mo : Type} {mv : Mo → Bo.W → Bo.W}
    {σ0 : Http.St (OwnerServer.server R.toOwnerEnv c Bo cfg Ido idOfo A encO)}
    {kdfo : Http.Request (OwnerServer.server R.toOwnerEnv c Bo cfg Ido idOfo A encO) → Bool}
    {histo : List (Http.Event (OwnerServer.server R.toOwnerEnv c Bo cfg Ido idOfo A encO) Mo)}

/-- **C78**: a device is manufactured, its voucher is transferred to an owner, the owner registers it with a rendezvous server, and then
the device's client is started. The configured rendezvous information leads the owner and the device to this rendezvous server, and the
addresses in the registration lead the device to the owner's server. Then transfers and registration succeed, the device's client
succeeds, the owner's server has recorded the onboarding, and what the device did on its host is to follow precisely the owner's
instructions.

The rendezvous server's store is any that keeps registrations: a directory (`To0.dir_keeping`), or a database that has no row for the
device yet (`To0.db_keeping`).

Missing from the full statement: what is missing in C44, C59 and C73, namely that no message is longer than a server accepts (16 KiB);
and here only the first directive and the first address are looked at (see C79 for the others). -/
theorem C78_onboards_partial (L : Laws mcfg cfg rcfg N A encM encR encO) {w : Credential.Surroundings} {args : MfgClient.Args}
    {t : Trace (MfgClient.sig R.cli)} {h : MfgServer.Hist R.mfg c Bm mcfg idOfm A encM} {s s' : Fs.Files} {l : Credential.Location}
    {cr : Credential.Cred} {dev : R.E.Pub} {v v' : Voucher R.E} {steps : List (Step R.E)} {r : Res Err Unit}
    (M : Manufactured c A Bm mcfg idOfm encM w args t h s s' l.path cr dev v) (X : Transferred c mcfg cfg steps v v' r)
    -- the rendezvous information
    {io : List Rendezvous.Interp} (hio : Rendezvous.toInterpreted R.D .owner (R.directives mcfg.rv) = .ok io)
    {uo : String} {uos : List String} (huo : io.flatMap (Rendezvous.getUrls R.showIp) = uo :: uos)
    {i : Rendezvous.Interp} {is : List Rendezvous.Interp} (hid : Rendezvous.toInterpreted R.D .device (R.directives mcfg.rv) = .ok (i :: is))
    {u : String} {us : List String} (hu : clientUrls (R := R.toDevEnv) i = some (u :: us))
    -- the registration
    {t0 : Trace To0.sig} {r0 : Res To0.To0Err Nat} {free : Bytes → Br.W → Prop}
    (K : To0.Keeping (R := R.toRvEnv) (Id := Idr) c Br rcfg idOfr A encR free)
    (hfree : free cr.guid (RvServer.reached R.toRvEnv c Br rcfg idOfr A encR p).world)
    (G : Registered c A Br rcfg idOfr encR kdfr cfg N v' p hist t0 r0) (hlast : Lasts c A Br rcfg idOfr encR cfg cr.guid hist (mid ++ hist'))
    -- the device
    {w' : Credential.Surroundings} {hst : SiClient.Host} {n : Nat} {T : Trace (Device.sig R.toDevEnv)} {rd : Res DevErr Unit}
    (D : Runs c A dev s' w' hst l n T rd) (Q : Asks c A Br rcfg idOfr encR kdfr u (p ++ hist ++ mid) hist' T)
    {ou : String} (hou : ∀ x, ∃ as ous, R.decAddrs (R.encTo1 x) = some as ∧ to2Urls (R := R.toDevEnv) as = ou :: ous)
    (O : Meets c A Bo cfg idOfo encO mv σ0 kdfo ou cr.guid v' hst histo T) :
    r = .ok () ∧ r0 = .ok (min cfg.period rcfg.maxWait) ∧ rd = .ok () ∧
    Recorded (R := R.toDevEnv) (c := c) (B := Bo) (cfg := cfg) (idOf := idOfo) (A := A) (encode := encO) mv σ0 cr.guid histo ∧
    ∃ b reboot, Leg T ou b ∧
      Followed (R := R.toDevEnv) (c := c) (B := Bo) (cfg := cfg) (idOf := idOfo) (A := A) (encode := encO) cr.guid hst b histo reboot := by
  obtain ⟨rfl, -, a1, a2, a3, a4, a5, a6, a7, a8⟩ := C78_voucher L M X
  have hHonest : To0.Honest R.toOwnerEnv c N A encR cfg rcfg dev v' :=
    ⟨L.mfg.codec, L.wire0, fun d => L.digests.plain .sha384 d rfl, L.secures, L.redirects, a8, L.period⟩
  have hurls : To0.reportUrls R.toOwnerEnv v' = .ok (uo :: uos) := by
    unfold To0.reportUrls
    rw [a6, hio, Res.bind_ok, huo]
    rfl
  have hrv : rvEntries (R := R.toDevEnv) cr = .ok (i :: is) := by
    unfold rvEntries
    rw [a5, L.mfg.leaf.rv_dec _ L.rv, orErr, Res.bind_ok, hid]
    rfl
  obtain ⟨cb, hcb, -, hcred⟩ := M.credential
  have hmeet : ∀ a x, Leg T u a → Prog.Ends (getTo1d c A cr [u]) (connected (R := R.toDevEnv) u :: a) x →
      r0 = .ok (min cfg.period rcfg.maxWait) ∧ ∃ y hh, x = .ok (some y) ∧ R.E.verify cfg.ownerPub y.prot y.payload y.sig = true ∧
        y.payload = R.encTo1 hh := by
    intro a x ha hx
    have hsub := leg_sub ha
    refine To0.C73_meets_partial K (a3 ▸ hfree) hHonest L.wire1 a3 G.talk G.delivered G.awake hurls G.run (mid := mid) (hist' := hist') ?_ (.app _ _ (Q.talk a ha)) ?_ ?_ Q.awake hx
    · intro h1 rq h2 e hn
      rw [List.append_assoc, ← a3]
      exact hlast h1 rq h2 e (a3 ▸ hn)
    · intro q o ho
      rcases List.mem_cons.1 ho with ho | ho
      · cases ho
      · exact D.delivered q o (hsub _ ho)
    · intro pl o ho
      rcases List.mem_cons.1 ho with ho | ho
      · cases ho
      · exact D.signs pl o (hsub _ ho)
  obtain ⟨flag, hserve⟩ := O.serves
  have hto2 : ∀ (y : Sign1) (b b' : Trace (Device.sig R.toDevEnv)) x, R.E.verify cfg.ownerPub y.prot y.payload y.sig = true → Leg T ou (b ++ b') →
      Prog.Ends (to2 c A w' hst l cr y .new : Device.Step R.toDevEnv _) b x → ∃ bo, x = .ok bo ∧
        Recorded (R := R.toDevEnv) (c := c) (B := Bo) (cfg := cfg) (idOf := idOfo) (A := A) (encode := encO) mv σ0 cr.guid histo ∧
        Followed (R := R.toDevEnv) (c := c) (B := Bo) (cfg := cfg) (idOf := idOfo) (A := A) (encode := encO) cr.guid hst b histo bo := by
    intro y b b' x hy hb hx
    have hsub : ∀ d ∈ b, d ∈ T := fun d hd => leg_sub hb d (List.mem_append_left _ hd)
    refine C59_completes_partial (v := v') (dev := dev) (flag := flag) ⟨L.mfg.codec, L.wire2, L.digests, L.agree, L.secures, L.keys, a4, a7, hy,
      fortunate_sub D.fortunate hsub, fun sub cl v hv => D.announces sub cl v (hsub _ hv)⟩
      (fun q o ho => D.delivered q o (hsub _ ho)) (talk_prefix (O.talk _ hb) rfl) ?_ hx
    intro h1 rq h2 e
    obtain ⟨e1, e2, e3, e4, e5, e6, e7, e8, e9, e10⟩ := hserve h1 rq h2 e
    exact ⟨e1, e2, e3, e4, e5, e6, e7, e8, e9, fun sub cl => (e10 sub cl).imp fun l hl => ⟨hl.1, follows_sub hl.2 hsub⟩⟩
  have hrun := device_run (R := R) (P := fun y => r0 = .ok (min cfg.period rcfg.maxWait) ∧ R.E.verify cfg.ownerPub y.prot y.payload y.sig = true ∧
      ∃ hh, y.payload = R.encTo1 hh) D.rounds D.marker D.location (fun o t e => (D.kept o t e).trans hcb) hcred a1 a2 hrv hu
    (fun a x ha hx => by
      obtain ⟨b1, y, hh, b2, b3, b4⟩ := hmeet a x ha hx
      exact ⟨y, b2, b1, b3, hh, b4⟩)
    (fun y hy => by
      obtain ⟨-, -, hh, e⟩ := hy
      rw [e]
      exact hou hh)
    (fun y b b' x hy hb hx => by
      obtain ⟨bo, e, -⟩ := hto2 y b b' x hy.2.1 hb hx
      exact ⟨bo, e⟩) D.reboots D.run
  obtain ⟨e, y, b, bo, hy, hb, hx⟩ := hrun
  obtain ⟨bo', e', b1, b2⟩ := hto2 y b [] _ hy.2.1 (by rw [List.append_nil]; exact hb) hx
  exact ⟨rfl, hy.1, e, b1, b, bo', hb, b2⟩

end

end

end Verif.Life

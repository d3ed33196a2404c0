import Verif.Lemmas.Retry
import Verif.Props.Life
/-!
C79: lost messages only delay onboarding.
-/
namespace Verif.Life
open Verif Verif.Voucher Verif.Store Verif.Types Verif.Device

theorem talk_shift {Sv : Http.Server} {M : Type} {X : Sig} {mv : M → Sv.W → Sv.W} {σ0 : Http.St Sv} {kdf : Http.Request Sv → Bool}
    {i : Option Sv.Id} {p h p0 : List (Http.Event Sv M)} {t : Trace (Http.netSig X)} (ht : Http.Talk mv σ0 kdf i p h t) :
    ∀ q, p = p0 ++ q → Http.Talk mv (Http.replay mv σ0 p0) kdf i q h t := by
  induction ht with
  | done => exact fun _ _ => .done
  | other e ha _ ih =>
    rintro q rfl
    exact .other e (by rw [← Http.replay_append]; exact ha) (ih _ (by simp))
  | iv x _ ih => exact fun q e => .iv x (ih q e)
  | app x a _ ih => exact fun q e => .app x a (ih q e)
  | lost s _ ih => exact fun q e => .lost s (ih q e)
  | served s rq r hc hr _ ih =>
    rintro q rfl
    refine .served s rq r hc (by rw [← Http.replay_append]; exact hr) ?_
    have := ih (q ++ [.request rq]) (by simp)
    rw [Http.replay_append] at this
    exact this

section
variable {R : Whole} {c : Bool} {Bm : MfgServer.MStore} {mcfg : MfgServer.Config R.mfg} {Idm : Type} [DecidableEq Idm]
    {idOfm : List Char → Option Idm} {A : Http.Aead} {encM : MfgServer.Resp → Bytes}
    {cfg : OwnerServer.Config R.toOwnerEnv} {rcfg : RvServer.Config R.toRvEnv} {N : To0.Msgs} {encR : RvServer.Resp → Bytes}
    {encO : OwnerServer.Resp → Bytes}
    {Br : RvServer.Backend (RvServer.Item R.toRvEnv)}
    {Idr : Type} [DecidableEq Idr] {idOfr : List Char → Option Idr}
    {kdfr : Http.Request (RvServer.server R.toRvEnv c Br rcfg Idr idOfr A encR) → Bool}
    {p hist hist' : RvServer.Hist R.toRvEnv c Br rcfg idOfr A encR}
    {Bo : OwnerServer.VStore (Voucher R.E)} {Ido : Type} [DecidableEq Ido] {idOfo : List Char → Option Ido} {Mo : Type} {mv : Mo → Bo.W → Bo.W}
    {σ0 : Http.St (OwnerServer.server R.toOwnerEnv c Bo cfg Ido idOfo A encO)}
    {kdfo : Http.Request (OwnerServer.server R.toOwnerEnv c Bo cfg Ido idOfo A encO) → Bool}
    {histo : List (Http.Event (OwnerServer.server R.toOwnerEnv c Bo cfg Ido idOfo A encO) Mo)}

/-- A conversation in which nothing was lost. -/
theorem delivered_of {T b : Trace (sig R.toDevEnv)} (hs : ∀ s (o : Option Http.NetReply), (⟨.net s, o⟩ : (sig R.toDevEnv).Deed) ∈ T → s.body.length ≤ 16384)
    (hb : ∀ d ∈ b, d ∈ T) (hl : ¬ Lossy b) : Delivered R.toDevEnv b := by
  intro s o ho
  refine ⟨?_, hs s o (hb _ ho)⟩
  cases o with
  | none => exact absurd ⟨_, ho, rfl⟩ hl
  | some q => exact ⟨q, rfl⟩

/-- **C79**: the device of C78 has several directives in its rendezvous information, with several addresses of the rendezvous server each,
and the owner has registered several addresses. On the device's way to its owner messages and replies get lost, at any point of a
conversation, or servers cannot be reached; but when a server is reached, it is the right one. If fewer messages are lost than the device
has rounds, it is onboarded all the same: its client succeeds, the owner's server has recorded the onboarding, and in the conversation that
succeeded the device followed precisely the owner's instructions. (The client has no limit of rounds; `n` is arbitrary.)

Missing from the full statement: as in C78, no message is longer than a server accepts (16 KiB), and a database has no row for the device
before the registration. -/
theorem C79_retries_partial (L : Laws mcfg cfg rcfg N A encM encR encO) {w : Credential.Surroundings} {args : MfgClient.Args}
    {t : Trace (MfgClient.sig R.cli)} {h : MfgServer.Hist R.mfg c Bm mcfg idOfm A encM} {s s' : Fs.Files} {l : Credential.Location}
    {cr : Credential.Cred} {dev : R.E.Pub} {v v' : Voucher R.E} {steps : List (Step R.E)} {r : Res Err Unit}
    (M : Manufactured c A Bm mcfg idOfm encM w args t h s s' l.path cr dev v) (X : Transferred c mcfg cfg steps v v' r)
    -- the rendezvous information
    {io : List Rendezvous.Interp} (hio : Rendezvous.toInterpreted R.D .owner (R.directives mcfg.rv) = .ok io)
    {uo : String} {uos : List String} (huo : io.flatMap (Rendezvous.getUrls R.showIp) = uo :: uos)
    {is : List Rendezvous.Interp} (hid : Rendezvous.toInterpreted R.D .device (R.directives mcfg.rv) = .ok is)
    (huse : ∃ i ∈ is, ∃ u us, clientUrls (R := R.toDevEnv) i = some (u :: us))
    -- the registration
    {t0 : Trace To0.sig} {r0 : Res To0.To0Err Nat} {free : Bytes → Br.W → Prop}
    (K : To0.Keeping (R := R.toRvEnv) (Id := Idr) c Br rcfg idOfr A encR free)
    (hfree : free cr.guid (RvServer.reached R.toRvEnv c Br rcfg idOfr A encR p).world)
    (G : Registered c A Br rcfg idOfr encR kdfr cfg N v' p hist t0 r0) (hlast : Lasts c A Br rcfg idOfr encR cfg cr.guid hist hist')
    -- the device
    {w' : Credential.Surroundings} {hst : SiClient.Host} {n : Nat} {T : Trace (Device.sig R.toDevEnv)} {rd : Res DevErr Unit}
    (D : Tries c A dev s' w' hst l n T rd) (hn : losses T < n)
    (Q : ∀ i ∈ is, ∀ us, clientUrls (R := R.toDevEnv) i = some us → ∀ u ∈ us, AsksAt c A Br rcfg idOfr encR kdfr u (p ++ hist) hist' T)
    (awake : ∀ rq, .request rq ∈ hist' →
      To0.Awake (Id := Idr) (idOf := idOfr) (c := c) (B := Br) (rcfg := rcfg) (A := A) (encode := encR) rq)
    {ous : List String} (hne : ous ≠ []) (hou : ∀ x, ∃ as, R.decAddrs (R.encTo1 x) = some as ∧ to2Urls (R := R.toDevEnv) as = ous)
    (O : ∀ ou ∈ ous, MeetsAt c A Bo cfg idOfo encO mv σ0 kdfo ou histo T)
    (serves : ∃ flag, ∀ h1 rq h2, histo = h1 ++ .request rq :: h2 →
      Device.Serves (R := R.toDevEnv) (c := c) (B := Bo) (cfg := cfg) (idOf := idOfo) (A := A) (encode := encO) kdfo flag cr.guid v' hst T
        (Http.replay mv σ0 h1) rq) :
    r = .ok () ∧ r0 = .ok (min cfg.period rcfg.maxWait) ∧ rd = .ok () ∧
    Recorded (R := R.toDevEnv) (c := c) (B := Bo) (cfg := cfg) (idOf := idOfo) (A := A) (encode := encO) mv σ0 cr.guid histo ∧
    ∃ ou b reboot, ou ∈ ous ∧ Leg T ou b ∧
      Followed (R := R.toDevEnv) (c := c) (B := Bo) (cfg := cfg) (idOf := idOfo) (A := A) (encode := encO) cr.guid hst b histo reboot := by
  obtain ⟨rfl, -, a1, a2, a3, a4, a5, a6, a7, a8⟩ := C78_voucher L M X
  have hHonest : To0.Honest R.toOwnerEnv c N A encR cfg rcfg dev v' :=
    ⟨L.mfg.codec, L.wire0, fun d => L.digests.plain .sha384 d rfl, L.secures, L.redirects, a8, L.period⟩
  have hurls : To0.reportUrls R.toOwnerEnv v' = .ok (uo :: uos) := by
    unfold To0.reportUrls
    rw [a6, hio, Res.bind_ok, huo]
    rfl
  have hrv : rvEntries (R := R.toDevEnv) cr = .ok is := by
    unfold rvEntries
    rw [a5, L.mfg.leaf.rv_dec _ L.rv, orErr, Res.bind_ok, hid]
    obtain ⟨i, hi, -⟩ := huse
    cases is with
    | nil => cases hi
    | cons j is => rfl
  obtain ⟨cb, hcb, -, hcred⟩ := M.credential
  -- TO1
  have hmeet : ∀ i ∈ is, ∀ us, clientUrls (R := R.toDevEnv) i = some us → ∀ u ∈ us, ∀ b x, Leg T u b → ¬ Lossy b →
      Prog.Ends (getTo1d c A cr [u]) (connected (R := R.toDevEnv) u :: b) x →
      ∃ y, x = .ok (some y) ∧ r0 = .ok (min cfg.period rcfg.maxWait) ∧ R.E.verify cfg.ownerPub y.prot y.payload y.sig = true ∧
        ∃ hh, y.payload = R.encTo1 hh := by
    intro i hi us hus u hu b x hb hl hx
    have hsub := leg_sub hb
    obtain ⟨before, after, rfl, htalk⟩ := (Q i hi us hus u hu).talk b hb
    have hdel := delivered_of D.small hsub hl
    obtain ⟨e1, y, hh, e2, e3, e4⟩ := To0.C73_meets_partial K (a3 ▸ hfree) hHonest L.wire1 a3 G.talk G.delivered G.awake hurls G.run (mid := before)
      (hist' := after) (by
        intro h1 rq h2 e hn
        rw [List.append_assoc, ← a3]
        exact hlast h1 rq h2 e (a3 ▸ hn)) (.app _ _ htalk) (by
        intro q o ho
        rcases List.mem_cons.1 ho with ho | ho
        · cases ho
        · exact hdel q o ho) (by
        intro pl o ho
        rcases List.mem_cons.1 ho with ho | ho
        · cases ho
        · exact D.signs pl o (hsub _ ho)) (fun rq hrq => awake rq (List.mem_append_right _ hrq)) hx
    exact ⟨y, e2, e1, e3, hh, e4⟩
  -- TO2
  obtain ⟨flag, hserve⟩ := serves
  have hto2 : ∀ (y : Sign1), R.E.verify cfg.ownerPub y.prot y.payload y.sig = true → ∀ ou ∈ ous, ∀ (b b' : Trace (Device.sig R.toDevEnv)) x,
      Leg T ou (b ++ b') → ¬ Lossy b → Prog.Ends (to2 c A w' hst l cr y .new : Device.Step R.toDevEnv _) b x → ∃ bo, x = .ok bo ∧
        Recorded (R := R.toDevEnv) (c := c) (B := Bo) (cfg := cfg) (idOf := idOfo) (A := A) (encode := encO) mv σ0 cr.guid histo ∧
        Followed (R := R.toDevEnv) (c := c) (B := Bo) (cfg := cfg) (idOf := idOfo) (A := A) (encode := encO) cr.guid hst b histo bo := by
    intro y hy ou hou b b' x hb hl hx
    have hsub : ∀ d ∈ b, d ∈ T := fun d hd => leg_sub hb d (List.mem_append_left _ hd)
    obtain ⟨before, after, rfl, htalk⟩ := (O ou hou).talk _ hb
    have htalk := talk_shift (p0 := before) (talk_prefix htalk rfl) [] (by simp)
    obtain ⟨bo, e, ⟨h1, rq, h2, f1, f2, f3⟩, ⟨sub, clevis, os, rq', li, ts, out, g1, g2, g3, g4, g5, g6⟩⟩ :=
      C59_completes_partial (v := v') (dev := dev) (flag := flag) ⟨L.mfg.codec, L.wire2, L.digests, L.agree, L.secures, L.keys, a4, a7, hy,
        fortunate_sub D.fortunate hsub, fun sub cl v hv => D.announces sub cl v (hsub _ hv)⟩
        (delivered_of D.small hsub hl) htalk (by
          rintro h1 rq h2 rfl
          obtain ⟨e1, e2, e3, e4, e5, e6, e7, e8, e9, e10⟩ := hserve (before ++ h1) rq h2 (by simp)
          rw [Http.replay_append] at e8 e9
          exact ⟨e1, e2, e3, e4, e5, e6, e7, e8, e9, fun sub cl => (e10 sub cl).imp fun l hl => ⟨hl.1, follows_sub hl.2 hsub⟩⟩) hx
    refine ⟨bo, e, ⟨before ++ h1, rq, h2, by rw [f1]; simp, f2, ?_⟩, sub, clevis, os, rq', li, ts, out, List.mem_append_right _ g1, g2, g3, g4,
      g5.mono fun x hx => List.mem_append_right _ hx, g6⟩
    rw [List.append_assoc, Http.replay_append, Http.replay_append]
    exact f3
  -- the whole run
  have C : Convs T w' hst l cr c A is ous (fun y => r0 = .ok (min cfg.period rcfg.maxWait) ∧
      R.E.verify cfg.ownerPub y.prot y.payload y.sig = true ∧ ∃ hh, y.payload = R.encTo1 hh) := by
    refine ⟨D.printable, ?_, ?_, ?_⟩
    · intro i hi us hus u hu a x ha hx
      by_cases hl : Lossy a
      · exact .inr ⟨getTo1d_lossy hx (fun s q hs => D.printable s q (leg_sub ha _ hs)) hl, losses_pos hl⟩
      · exact .inl (hmeet i hi us hus u hu a x ha hl hx)
    · rintro y ⟨-, -, hh, e⟩
      rw [e]
      exact hou hh
    · intro y hy ou hou b b' x hb hx
      by_cases hl : Lossy b
      · exact .inr ⟨fails_to2 _ _ hx hl, losses_pos hl⟩
      · obtain ⟨bo, e, -⟩ := hto2 y hy.2.1 ou hou b b' x hb hl hx
        exact .inl ⟨bo, e⟩
  obtain ⟨e, bo, y, ou, b, hy, hou, hb, hx⟩ := device_loop hne C huse D.marker D.location (fun o t e => (D.kept o t e).trans hcb) hcred a1 a2 hrv
    D.reboots hn D.run
  by_cases hl : Lossy b
  · obtain ⟨e, he⟩ := fails_to2 _ _ hx hl
    cases he
  obtain ⟨bo', e', b1, b2⟩ := hto2 y hy.2.1 ou hou b [] _ (by rw [List.append_nil]; exact hb) hl hx
  exact ⟨rfl, hy.1, e, b1, ou, b, bo', hou, hb, b2⟩

end

end Verif.Life

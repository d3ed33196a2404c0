import Verif.Lemmas.Onboard
/-!
C59: an honest device and an honest owner complete TO2.
-/
namespace Verif

namespace Proc
variable {S : Sig} {ε α β : Type}

/-- First a program which succeeds. -/
theorem ends_good_bind {p : Proc S ε α} {f : α → Proc S ε β} {t : Trace S} {r : Res ε β} {Q : α → Trace S → Trace S → Prop}
    (h : Prog.Ends (p >>= f : Proc S ε β) t r)
    (hp : ∀ t1 t2 x, t = t1 ++ t2 → Prog.Ends p t1 x → ∃ a, x = .ok a ∧ Q a t1 t2) :
    ∃ a t1 t2, t = t1 ++ t2 ∧ Q a t1 t2 ∧ Prog.Ends (f a) t2 r := by
  obtain ⟨x, t1, t2, rfl, h1, h2⟩ := Prog.ends_bind h
  obtain ⟨a, rfl, hq⟩ := hp t1 t2 x rfl h1
  exact ⟨a, t1, t2, rfl, hq, h2⟩

end Proc

namespace Device
open Verif Verif.Voucher Verif.Store Verif.Types Verif.ServiceInfo Verif.Cbor.Spec Verif.Fs
open Verif.OwnerServer (shortest)

section
variable {R : DevEnv}

theorem onHost_append (t u : Trace (sig R)) : onHost (t ++ u) = onHost t ++ onHost u := List.filterMap_append

/-- Effects other than those on the host. -/
def NotHost (e : (sig R).Eff) : Prop := ∀ m o, e ≠ .app (.host m o)

theorem onHost_none {t : Trace (sig R)} (h : ∀ d ∈ t, NotHost d.1) : onHost t = [] := by
  unfold onHost
  rw [List.filterMap_eq_nil_iff]
  intro d hd
  have := h d hd
  obtain ⟨e, a⟩ := d
  split
  · next m op a heq =>
    cases heq
    exact absurd rfl (this m op)
  · rfl

theorem onHost_only {α : Type} {p : Prog (sig R) α} {t : Trace (sig R)} {a : α} (h : Prog.Only NotHost p) (he : Prog.Ends p t a) :
    onHost t = [] := onHost_none (h t ⟨_, he⟩)

theorem notHost_send {A : Http.Aead} {α : Type} {dec : Bytes → Option α} {cl : Http.Client} {om sm : MsgType} {plain : Bytes}
    {nk : Option (Option Http.Keys)} : Prog.Only NotHost (Http.sendQ (X := ops R) A dec cl om sm plain nk) :=
  Http.only_sendQ (X := ops R) (P := NotHost) nofun nofun

end

variable {R : DevEnv} {c : Bool} {B : OwnerServer.VStore (Voucher R.E)} {cfg : OwnerServer.Config R.toOwnerEnv} {Id : Type}
  [DecidableEq Id] {idOf : List Char → Option Id} {A : Http.Aead} {encode : OwnerServer.Resp → Bytes} {M : Type}

local notation "Srv" => OwnerServer.server R.toOwnerEnv c B cfg Id idOf A encode

variable {mv : M → B.W → B.W} {σ0 : Http.St (OwnerServer.server R.toOwnerEnv c B cfg Id idOf A encode)} {kdf : Http.Request (OwnerServer.server R.toOwnerEnv c B cfg Id idOf A encode) → Bool} {flag : Bool} {v : Voucher R.E} {h : SiClient.Host}
  {T t1 t2 : Trace (sig R)} {cr : Credential.Cred} {dev : R.E.Pub} {to1d : Sign1} {p hist : List (Http.Event (OwnerServer.server R.toOwnerEnv c B cfg Id idOf A encode) M)} {cl : Http.Client}
  {s : Http.Sess (OwnerServer.server R.toOwnerEnv c B cfg Id idOf A encode)}

local notation "At" => Http.replay (Sv := Srv) mv σ0
local notation "Good" => Serves (c := c) (B := B) (cfg := cfg) (idOf := idOf) (A := A) (encode := encode) kdf flag cr.guid v h T
local notation "Going" => Http.On (Sv := Srv) (X := ops R) mv σ0 kdf T Good

theorem good_request (σ : Http.St Srv) (rq : Http.Request Srv) (hg : Good σ rq) :
    rq.storeOk = true ∧ (idOf rq.freshCookie).isSome = true := ⟨hg.session, hg.cookie⟩

/-- One exchange. -/
theorem going_send {α : Type} {dec : Bytes → Option α} {om sm : MsgType} {plain : Bytes} {nk : Option (Option Http.Keys)}
    {req : OwnerServer.Req} {r : Res (Http.Client × Http.CErr) (Http.Client × α)}
    (ho : Going cl s p hist (t1 ++ t2)) (he : Prog.Ends (Http.sendQ (X := ops R) A dec cl om sm plain nk) t1 r) (S : Secures A)
    (hE : ∀ iv, (Http.encryptWith A cl.keys iv plain).isSome = true) (hp : Http.precheck cl om sm nk = none)
    (hr : Http.routeOf ownerRoutes om = some sm) (hd : plain.length ≤ 16384 → OwnerServer.decode R.toOwnerEnv c om plain = some req)
    (hk : Http.encOk sm (nk.getD cl.keys) = true)
    (hh : ∀ σ rq, Good σ rq → ∃ w resp data m,
      OwnerServer.handle R.toOwnerEnv c B cfg rq.oracle req s.data s.keys σ.world = (w, some (resp, data, nk.getD cl.keys)) ∧
      dec (encode resp) = some m ∧ ∀ iv, (Http.encryptWith A (nk.getD cl.keys) iv (encode resp)).isSome = true) :
    onHost t1 = [] ∧ ∃ h1 rq h2 w resp data m tok, hist = h1 ++ .request rq :: h2 ∧ rq.type = om ∧ Good (At (p ++ h1)) rq ∧
      OwnerServer.handle R.toOwnerEnv c B cfg rq.oracle req s.data s.keys (At (p ++ h1)).world = (w, some (resp, data, nk.getD cl.keys)) ∧
      dec (encode resp) = some m ∧ r = .ok (⟨tok, nk.getD cl.keys, some sm, some (cl.nonInterop.getD flag)⟩, m) ∧
      (At (p ++ h1 ++ [Http.Event.request rq])).world = w ∧
      Going ⟨tok, nk.getD cl.keys, some sm, some (cl.nonInterop.getD flag)⟩ ⟨some sm, nk.getD cl.keys, data⟩
        (p ++ h1 ++ [Http.Event.request rq]) h2 t2 := by
  refine ⟨onHost_only notHost_send he, ?_⟩
  obtain ⟨h1, rq, h2, w, resp, data, m, tok, e1, e2, e3, e4, e5, e6, e7, e8⟩ :=
    Http.On.send ho he S.opens hE hp hr hd S.grows hk good_request hh
  rw [e3.sends] at e6 e8
  exact ⟨h1, rq, h2, w, resp, data, m, tok, e1, e2, e3, e4, e5, e6, e7, e8⟩

/-- One exchange. -/
theorem going_say {α : Type} {dec : Bytes → Option α} {om sm : MsgType} {plain : Bytes} {nk : Option (Option Http.Keys)}
    {req : OwnerServer.Req} {r : Res (Http.Client × DevErr) (Http.Client × α)}
    (ho : Going cl s p hist (t1 ++ t2)) (he : Prog.Ends (say A dec cl om sm plain nk : Step R _) t1 r) (S : Secures A)
    (hE : ∀ iv, (Http.encryptWith A cl.keys iv plain).isSome = true) (hp : Http.precheck cl om sm nk = none)
    (hr : Http.routeOf ownerRoutes om = some sm) (hd : plain.length ≤ 16384 → OwnerServer.decode R.toOwnerEnv c om plain = some req)
    (hk : Http.encOk sm (nk.getD cl.keys) = true)
    (hh : ∀ σ rq, Good σ rq → ∃ w resp data m,
      OwnerServer.handle R.toOwnerEnv c B cfg rq.oracle req s.data s.keys σ.world = (w, some (resp, data, nk.getD cl.keys)) ∧
      dec (encode resp) = some m ∧ ∀ iv, (Http.encryptWith A (nk.getD cl.keys) iv (encode resp)).isSome = true) :
    onHost t1 = [] ∧ ∃ h1 rq h2 w resp data m tok, hist = h1 ++ .request rq :: h2 ∧ rq.type = om ∧ Good (At (p ++ h1)) rq ∧
      OwnerServer.handle R.toOwnerEnv c B cfg rq.oracle req s.data s.keys (At (p ++ h1)).world = (w, some (resp, data, nk.getD cl.keys)) ∧
      dec (encode resp) = some m ∧ r = .ok (⟨tok, nk.getD cl.keys, some sm, some (cl.nonInterop.getD flag)⟩, m) ∧
      (At (p ++ h1 ++ [Http.Event.request rq])).world = w ∧
      Going ⟨tok, nk.getD cl.keys, some sm, some (cl.nonInterop.getD flag)⟩ ⟨some sm, nk.getD cl.keys, data⟩
        (p ++ h1 ++ [Http.Event.request rq]) h2 t2 := by
  obtain ⟨r', he', hr', -⟩ := ends_mapErr_all he
  obtain ⟨hq, h1, rq, h2, w, resp, data, m, tok, e1, e2, e3, e4, e5, e6, e7, e8⟩ := going_send ho he' S hE hp hr hd hk hh
  exact ⟨hq, h1, rq, h2, w, resp, data, m, tok, e1, e2, e3, e4, e5, hr' _ e6, e7, e8⟩

/-- What is known of the voucher's parts. -/
structure Parts (R : DevEnv) (c : Bool) (cr : Credential.Cred) (owner : R.E.Pub) (v : Voucher R.E) (hdr : Bytes) (hh : Header R.E) (key : Bytes)
    (ps : List (Payload R.E)) : Prop where
  raw : OwnerServer.headerRaw R.toOwnerEnv v = .ok hdr
  size : hdr.length < 2 ^ 32
  header : Header.deserialize R.E c hdr = .ok hh
  mac : MadeWith R.H cr.keys hdr v.hmac
  mfg : hh.contents.contents[4]? = some key
  commits : Commits R.E cr.keyHash key
  chain : SignChain R.E c (hh.guid ++ hh.deviceInfo.toUTF8.toList) hh.mfgKey (hdr ++ R.E.encHash v.hmac) v.entries.contents ps
  last : lastOwner hh.mfgKey ps = owner

/-- What is known of the owner's proof. -/
structure Proven (R : DevEnv) (c : Bool) (owner : R.E.Pub) (v : Voucher R.E) (hdr : Bytes) (kexA : Bytes) (s : Sign1) (pf : OwnerServer.ProveHdr) :
    Prop where
  payload : parseProveHdr R c s.payload = .ok (pf, [])
  header : pf.header = hdr
  num : pf.num = v.entries.contents.length
  hmac : pf.hmac = v.hmac
  kex : pf.kexA = kexA
  verifies : R.E.verify owner s.prot s.payload s.sig = true

variable {hdr key : Bytes} {hh : Header R.E} {ps : List (Payload R.E)}

theorem proveHdr_token (H : Honest R c A encode cfg cr dev v to1d h T) (P : Parts R c cr cfg.ownerPub v hdr hh key ps) {n5 n6 body : Bytes}
    {k : R.K.Key} {rr : Bytes} (h5 : n5.length = 16) (h6 : n6.length = 16) (hr : rr.length = 48) :
    ∃ token s pf, OwnerServer.proveHdrToken R.toOwnerEnv cfg v ⟨cr.guid, n5, .ecdh384, .a256gcm, .es384, []⟩ body n6
        (OwnerServer.newKex .ecdh384 k rr) = .ok token ∧
      parseSign1 R.E c token = .ok s ∧ Proven R c cfg.ownerPub v hdr (OwnerServer.newKex .ecdh384 k rr : KeyExchange R.K).getPublic s pf ∧
      checkHello (R := R) c cr n5 s = .ok pf ∧ R.cuphNonce s.unprot = some (some n6) := by
  have hfew := H.voucher.few
  have hnum : numEntries v = v.entries.contents.length := Nat.mod_eq_of_lt (by omega)
  obtain ⟨b, hb, hbl, hbr⟩ := proveHdr_reads (c := c) H.codec H.wire
    (p := ⟨hdr, numEntries v, v.hmac, n5, .es384, (OwnerServer.newKex .ecdh384 k rr : KeyExchange R.K).getPublic, ⟨.sha256, R.E.digest .sha256 body⟩⟩)
    P.size (by simp only; omega) (madeWith_size H.digests P.mac) h5 rfl (getPublic_size H.agree hr)
    (by simp only; rw [H.digests.plain _ _ rfl]; exact digestSize_le _)
  obtain ⟨prot, sg, s1, s2, s3, s4, s5⟩ := H.keys.proves n6 h6 b hbl
  obtain ⟨e1, e2⟩ := signed_reads (c := c) H.codec (H.wire.cuph n6 cfg.ownerPub h6).2 s2 hbl s3 s4
  refine ⟨_, _, _, ?_, e2, ⟨hbr, rfl, hnum, rfl, rfl, s5⟩,
    checkHello_good H.digests (s := ⟨prot, R.encUnprot n6 cfg.ownerPub, b, sg⟩) hbr rfl rfl P.mac P.header P.mfg P.commits, (H.wire.cuph n6 cfg.ownerPub h6).1⟩
  unfold OwnerServer.proveHdrToken
  rw [P.raw]
  simp only [Res.bind_ok, Env.hashData, HashType.isPlain, if_true]
  rw [hb]
  simp only [Res.bind_ok, OwnerServer.signRawU]
  rw [s1]
  simp only [ofOpt, Res.bind_ok]
  rw [e1]
  rfl

/-- The first exchange. -/
theorem going_hello (H : Honest R c A encode cfg cr dev v to1d h T) (P : Parts R c cr cfg.ownerPub v hdr hh key ps) {n5 : Bytes}
    {r : Res (Http.Client × DevErr) (Http.Client × Sign1 × OwnerServer.ProveHdr × Bytes)} (h5 : n5.length = 16)
    (ho : Going .new (Http.Sess.new Srv) p hist (t1 ++ t2)) (he : Prog.Ends (helloDevice c A cr .new n5 : Step R _) t1 r) :
    onHost t1 = [] ∧ ∃ g1 g2 tok s pf n6 k rr, hist = g1 ++ g2 ∧ n6.length = 16 ∧ rr.length = 48 ∧
      r = .ok (⟨tok, none, some .to2ProveOVHdr, some flag⟩, s, pf, n6) ∧
      Proven R c cfg.ownerPub v hdr (OwnerServer.newKex .ecdh384 k rr : KeyExchange R.K).getPublic s pf ∧
      Going ⟨tok, none, some .to2ProveOVHdr, some flag⟩ ⟨some .to2ProveOVHdr, none,
        ⟨some (guidText cr.guid), some n6, none, some (OwnerServer.newKex .ecdh384 k rr), some .a256gcm, false, none⟩⟩ (p ++ g1) g2 t2 := by
  obtain ⟨x, u1, u2, rfl, h1, h2⟩ := Prog.ends_bind he
  rw [List.append_assoc] at ho
  have hans : ∀ σ rq, Good σ rq → ∀ body, ∃ w k rr n6 token s pf, rr.length = 48 ∧ n6.length = 16 ∧
      OwnerServer.handle R.toOwnerEnv c B cfg rq.oracle (.hello ⟨cr.guid, n5, .ecdh384, .a256gcm, .es384, []⟩ body)
        ⟨none, none, none, none, none, false, none⟩ none σ.world = (w, some (.proveOvHdr token,
          ⟨some (guidText cr.guid), some n6, none, some (OwnerServer.newKex .ecdh384 k rr), some .a256gcm, false, none⟩, none)) ∧
      parseSign1 R.E c token = .ok s ∧ Proven R c cfg.ownerPub v hdr (OwnerServer.newKex .ecdh384 k rr : KeyExchange R.K).getPublic s pf ∧
      checkHello (R := R) c cr n5 s = .ok pf ∧ R.cuphNonce s.unprot = some (some n6) := by
    intro σ rq hg body
    obtain ⟨n6, hn, hn6⟩ := hg.nonce
    obtain ⟨k, rr, hk, hrr⟩ := hg.kex
    obtain ⟨token, s, pf, a1, a2, a3, a4, a5⟩ := proveHdr_token H P (body := body) (k := k) h5 hn6 hrr
    refine ⟨(B.load rq.oracle.now σ.world (guidText cr.guid)).1, k, rr, n6, token, s, pf, hrr, hn6, ?_, a2, a3, a4, a5⟩
    have hl := hg.holds
    simp only [OwnerServer.handle, OwnerServer.helloDevice, RvServer.guidKey, H.guid, if_true]
    cases hb : B.load rq.oracle.now σ.world (guidText cr.guid) with
    | mk w' res =>
      rw [hb] at hl
      simp only at hl
      subst hl
      simp only [OwnerServer.helloReply, hk, hn, a1]
      rfl
  obtain ⟨hq, g1, rq, g2, w, resp, data, m, tok, e1, e2, e3, e4, e5, e6, e7, e8⟩ := going_say ho h1 H.secures (fun _ => rfl) rfl rfl
    (req := .hello ⟨cr.guid, n5, .ecdh384, .a256gcm, .es384, []⟩ (R.encHello ⟨cr.guid, n5, .ecdh384, .a256gcm, .es384, []⟩))
    (fun _ => by simp [OwnerServer.decode, H.wire.hello _ _ H.guid h5]) rfl
    (fun σ rq hg => by
      obtain ⟨w, k, rr, n6, token, s, pf, a1, a2, a3, a4, -⟩ := hans σ rq hg _
      exact ⟨w, _, _, s, a3, by simp [decToken, H.wire.proveOvHdr, a4], fun _ => rfl⟩)
  obtain ⟨w', k, rr, n6, token, s, pf, a1, a2, a3, a4, a5, a6, a7⟩ := hans _ _ e3 (R.encHello ⟨cr.guid, n5, .ecdh384, .a256gcm, .es384, []⟩)
  have e4 := e4.symm.trans a3
  cases e4
  rw [H.wire.proveOvHdr, decToken, a4] at e5
  cases e5
  subst e6
  have h2 : Prog.Ends (given _ (checkHello (R := R) c cr n5 m) >>= _ : Step R _) u2 r := h2
  rw [a6] at h2
  have h2 : Prog.Ends (Proc.some? _ (R.cuphNonce m.unprot).join >>= _ : Step R _) u2 r := h2
  rw [a7] at h2
  obtain ⟨rfl, rfl⟩ := Prog.ends_ret h2
  refine ⟨by rw [List.append_nil]; exact hq, g1 ++ [Http.Event.request rq], g2, tok, m, pf, n6, k, rr, by simp [e1], a2, a1, rfl, a5, ?_⟩
  rw [← List.append_assoc]
  exact e8

/-! ### Entries and keys -/

theorem chain_parses {E : Env} {info : Bytes} {k : E.Pub} {prev : Bytes} {es : List Bytes} {ps : List (Payload E)}
    (h : SignChain E c info k prev es ps) : ∀ e ∈ es, ∃ x, parseSign1 E c e = .ok x := by
  induction h with
  | nil => simp
  | cons hs _ _ _ _ _ ih =>
    intro e he
    rcases List.mem_cons.1 he with rfl | he
    · exact ⟨_, hs⟩
    · exact ih e he

/-- The loop over the entries. -/
theorem going_entries (H : Honest R c A encode cfg cr dev v to1d h T) (P : Parts R c cr cfg.ownerPub v hdr hh key ps)
    {D : OwnerServer.Data R.toOwnerEnv} (hD : D.guid = some (guidText cr.guid)) :
    ∀ (n i : Nat) (tok : Option (List Char)) (last : MsgType) (p hist : List (Http.Event Srv M)) (t1 t2 : Trace (sig R))
      (r : Res (Http.Client × DevErr) (Http.Client × List Bytes)),
    i + n = v.entries.contents.length → (last = .to2ProveOVHdr ∨ last = .to2OVNextEntry) → (n = 0 → last = .to2OVNextEntry) →
    Going ⟨tok, none, some last, some flag⟩ ⟨some last, none, D⟩ p hist (t1 ++ t2) →
    Prog.Ends (entriesFrom c A ⟨tok, none, some last, some flag⟩ i (v.entries.contents.take i) n : Step R _) t1 r →
    onHost t1 = [] ∧ ∃ g1 g2 tok', hist = g1 ++ g2 ∧ r = .ok (⟨tok', none, some .to2OVNextEntry, some flag⟩, v.entries.contents) ∧
      Going ⟨tok', none, some .to2OVNextEntry, some flag⟩ ⟨some .to2OVNextEntry, none, D⟩ (p ++ g1) g2 t2 := by
  intro n
  induction n with
  | zero =>
    intro i tok last p hist t1 t2 r hi _ hl ho he
    cases hl rfl
    obtain ⟨rfl, rfl⟩ := Prog.ends_ret he
    refine ⟨rfl, [], hist, tok, rfl, ?_, by rw [List.append_nil]; exact ho⟩
    rw [show i = v.entries.contents.length from hi, List.take_length]
  | succ n ih =>
    intro i tok last p hist t1 t2 r hi hl _ ho he
    have hlt : i < v.entries.contents.length := by omega
    have hfew := H.voucher.few
    have hmem : v.entries.contents[i] ∈ v.entries.contents := List.getElem_mem hlt
    obtain ⟨l, hl4, hli, hle⟩ := H.voucher.form _ hmem
    obtain ⟨x, hx⟩ := chain_parses P.chain _ hmem
    have hle : v.entries.contents[i] = shortest l := hle
    rw [hle] at hx
    have hget : v.entries.contents[i]? = some (shortest l) := by rw [List.getElem?_eq_getElem hlt, hle]
    have hmod : i % 256 = i := Nat.mod_eq_of_lt (by omega)
    obtain ⟨y, u1, u2, rfl, h1, h2⟩ := Prog.ends_bind he
    rw [hmod] at h1
    rw [List.append_assoc] at ho
    have hans : ∀ σ rq, Good σ rq → OwnerServer.handle R.toOwnerEnv c B cfg rq.oracle (.getEntry i) D none σ.world =
        ((OwnerServer.handle R.toOwnerEnv c B cfg rq.oracle (.getEntry i) D none σ.world).1, some (.ovEntry i (shortest l), D, none)) :=
      fun σ rq hg => Prod.ext rfl (OwnerServer.C40_answered hD H.guid hg.holds hl4 hli hget hx none)
    obtain ⟨hq, g1, rq, g2, w, resp, data, m, tok', e1, e2, e3, e4, e5, e6, e7, e8⟩ := going_say ho h1 H.secures (fun _ => rfl)
      (by rcases hl with rfl | rfl <;> rfl) rfl (req := .getEntry i)
      (fun _ => by simp [OwnerServer.decode, H.wire.getEntry i (by omega)]) rfl
      (fun σ rq hg => ⟨_, _, _, _, hans σ rq hg, decEntry_good H.wire (by omega) hl4 hli hx, fun _ => rfl⟩)
    have e4 := e4.symm.trans (hans _ _ e3)
    cases e4
    rw [decEntry_good (c := c) H.wire (show i < 256 by omega) hl4 hli hx] at e5
    cases e5
    subst e6
    have h2 : Prog.Ends (Proc.check _ (decide (i = i)) >>= _ : Step R _) u2 r := h2
    rw [decide_eq_true rfl] at h2
    have h2 : Prog.Ends (entriesFrom c A ⟨tok', none, some .to2OVNextEntry, some flag⟩ (i + 1) (v.entries.contents.take i ++ [shortest l]) n : Step R _) u2 r := h2
    rw [show v.entries.contents.take i ++ [shortest l] = v.entries.contents.take (i + 1) by
      rw [List.take_add_one, hget]; rfl] at h2
    obtain ⟨hq2, f1, f2, tok2, rfl, rfl, e9⟩ := ih (i + 1) tok' .to2OVNextEntry _ _ _ _ _ (by omega) (.inr rfl) (fun _ => rfl) e8 h2
    refine ⟨by rw [onHost_append, hq, hq2]; rfl, g1 ++ [Http.Event.request rq] ++ f1, f2, tok2, by simp [e1], rfl, ?_⟩
    simpa using e9

theorem chain_nonempty {E : Env} {info : Bytes} {k : E.Pub} {prev : Bytes} {es : List Bytes} {ps : List (Payload E)}
    (h : SignChain E c info k prev es ps) (hne : es ≠ []) : ps ≠ [] := by
  cases h with
  | nil => exact absurd rfl hne
  | cons => simp

/-- The owner's proof. -/
theorem going_proof (H : Honest R c A encode cfg cr dev v to1d h T) (P : Parts R c cr cfg.ownerPub v hdr hh key ps)
    {D : OwnerServer.Data R.toOwnerEnv} (hD : D.guid = some (guidText cr.guid)) {tok : Option (List Char)} {kexA : Bytes} {s : Sign1}
    {pf : OwnerServer.ProveHdr} (V : Proven R c cfg.ownerPub v hdr kexA s pf) {r : Res (Http.Client × DevErr) (Http.Client × OwnerServer.ProveHdr)}
    (ho : Going ⟨tok, none, some .to2ProveOVHdr, some flag⟩ ⟨some .to2ProveOVHdr, none, D⟩ p hist (t1 ++ t2))
    (he : Prog.Ends (ownerProof c A ⟨tok, none, some .to2ProveOVHdr, some flag⟩ s to1d pf : Step R _) t1 r) :
    onHost t1 = [] ∧ ∃ g1 g2 tok', hist = g1 ++ g2 ∧ r = .ok (⟨tok', none, some .to2OVNextEntry, some flag⟩, pf) ∧
      Going ⟨tok', none, some .to2OVNextEntry, some flag⟩ ⟨some .to2OVNextEntry, none, D⟩ (p ++ g1) g2 t2 := by
  obtain ⟨y, u1, u2, rfl, h1, h2⟩ := Prog.ends_bind he
  rw [List.append_assoc] at ho
  have hne := H.voucher.nonempty
  rw [V.num] at h1
  obtain ⟨hq, g1, g2, tok', rfl, rfl, ho'⟩ := going_entries H P hD _ 0 tok _ _ _ _ _ _ (by omega) (.inl rfl)
    (fun h0 => absurd (List.length_eq_zero_iff.1 h0) hne) ho (by rw [List.take_zero]; exact h1)
  have h2 : Prog.Ends (given _ (checkOwner (R := R) c s to1d pf v.entries.contents) >>= _ : Step R _) u2 r := h2
  have hfew := H.voucher.few
  have hps := P.size
  rw [checkOwner_good (hh := hh) (ps := ps) H.codec (by rw [V.header]; omega) V.payload (by rw [V.header]; exact P.header) (by omega)
    (by rw [V.header, V.hmac]; exact P.chain) (chain_nonempty P.chain hne) (by rw [P.last]; exact V.verifies)
    (by rw [P.last]; exact H.redirect)] at h2
  obtain ⟨rfl, rfl⟩ := Prog.ends_ret h2
  exact ⟨by rw [List.append_nil]; exact hq, g1, g2, tok', rfl, rfl, ho'⟩

/-- A nonce. -/
theorem going_nonce (F : Fortunate R dev T) {r : Res (Http.Client × DevErr) Bytes} (ho : Going cl s p hist (t1 ++ t2))
    (he : Prog.Ends (freshNonce cl : Step R _) t1 r) :
    onHost t1 = [] ∧ ∃ g1 g2 n, hist = g1 ++ g2 ∧ n.length = 16 ∧ r = .ok n ∧ Going cl s (p ++ g1) g2 t2 := by
  obtain ⟨o, u, rfl, h1⟩ := Prog.ends_act he
  obtain ⟨n, hn, hl⟩ := F.nonce o (ho.part _ (by simp))
  have hn : o = some n := hn
  subst hn
  obtain ⟨rfl, rfl⟩ := Prog.ends_ret h1
  obtain ⟨g1, g2, rfl, ho'⟩ := ho.app
  exact ⟨rfl, g1, g2, n, rfl, hl, rfl, ho'⟩

/-- The device's keys: those of the owner, too. -/
theorem going_keys (H : Honest R c A encode cfg cr dev v to1d h T) {tok : Option (List Char)} {last : Option MsgType} {k : R.K.Key} {rr : Bytes}
    (hrr : rr.length = 48) {pf : OwnerServer.ProveHdr} (hk : pf.kexA = (OwnerServer.newKex .ecdh384 k rr : KeyExchange R.K).getPublic)
    {r : Res (Http.Client × DevErr) (KeyExchange R.K × Http.Keys)}
    (ho : Going ⟨tok, none, last, some flag⟩ s p hist (t1 ++ t2))
    (he : Prog.Ends (deriveKeys ⟨tok, none, last, some flag⟩ pf : Step R _) t1 r) :
    onHost t1 = [] ∧ ∃ g1 g2 k' rr' key, hist = g1 ++ g2 ∧ rr'.length = 48 ∧ key.length = 32 ∧
      r = .ok (OwnerServer.newKex .ecdh384 k' rr', ⟨.a256gcm, key⟩) ∧
      (OwnerServer.newKex .ecdh384 k rr : KeyExchange R.K).deriveKey .owner .a256gcm flag (OwnerServer.newKex .ecdh384 k' rr').getPublic = .ok key ∧
      Going ⟨tok, none, last, some flag⟩ s (p ++ g1) g2 t2 := by
  have he : Prog.Ends (Http.app (X := ops R) .kex >>= _ : Step R _) t1 r := he
  obtain ⟨o, u, rfl, h1⟩ := Prog.ends_act he
  obtain ⟨k', rr', hn, hl⟩ := H.fortunate.kex o (ho.part _ (by simp))
  have hn : o = some (k', rr') := hn
  subst hn
  obtain ⟨key, d1, d2, d3⟩ := derives H.agree (k := k') (k' := k) hl hrr flag
  have h1 : Prog.Ends (given _ (liftD ((OwnerServer.newKex .ecdh384 k' rr' : KeyExchange R.K).deriveKey .device .a256gcm flag pf.kexA)) >>= _ : Step R _) u r := h1
  rw [hk, d1] at h1
  obtain ⟨rfl, rfl⟩ := Prog.ends_ret h1
  obtain ⟨g1, g2, rfl, ho'⟩ := ho.app
  exact ⟨rfl, g1, g2, k', rr', key, rfl, hl, d3, rfl, d2, ho'⟩

/-! ### The device's proof -/

theorem encrypts (S : Secures A) {key : Bytes} (hk : key.length = 32) (iv b : Bytes) :
    (Http.encryptWith A (some ⟨.a256gcm, key⟩) iv b).isSome = true := S.total key iv b hk

/-- ProveDevice. -/
theorem going_prove (H : Honest R c A encode cfg cr dev v to1d h T) {tok : Option (List Char)} {n6 n7 key' : Bytes} {k k' : R.K.Key}
    {rr rr' : Bytes} (h6 : n6.length = 16) (h7 : n7.length = 16) (hkl : key'.length = 32) (hrr : rr'.length = 48)
    (hkey : (OwnerServer.newKex .ecdh384 k rr : KeyExchange R.K).deriveKey .owner .a256gcm flag (OwnerServer.newKex .ecdh384 k' rr').getPublic = .ok key')
    {r : Res (Http.Client × DevErr) Http.Client}
    (ho : Going ⟨tok, none, some .to2OVNextEntry, some flag⟩ ⟨some .to2OVNextEntry, none,
      ⟨some (guidText cr.guid), some n6, none, some (OwnerServer.newKex .ecdh384 k rr), some .a256gcm, false, none⟩⟩ p hist (t1 ++ t2))
    (he : Prog.Ends (proveDevice c A cr ⟨tok, none, some .to2OVNextEntry, some flag⟩ (OwnerServer.newKex .ecdh384 k' rr') n6 n7
      ⟨.a256gcm, key'⟩ : Step R _) t1 r) :
    onHost t1 = [] ∧ ∃ g1 g2 tok', hist = g1 ++ g2 ∧ r = .ok ⟨tok', some ⟨.a256gcm, key'⟩, some .to2SetupDevice, some flag⟩ ∧
      Going ⟨tok', some ⟨.a256gcm, key'⟩, some .to2SetupDevice, some flag⟩ ⟨some .to2SetupDevice, some ⟨.a256gcm, key'⟩,
        ⟨some (guidText cr.guid), some n6, some n7, none, none, true, none⟩⟩ (p ++ g1) g2 t2 := by
  have he : Prog.Ends (signToken ⟨tok, none, some .to2OVNextEntry, some flag⟩ (R.encEuph n7) (R.encClaims n6 (asUeid cr.guid)
    (some (R.encProve (OwnerServer.newKex .ecdh384 k' rr' : KeyExchange R.K).getPublic))) >>= _ : Step R _) t1 r := he
  obtain ⟨y, u1, u2, rfl, h1, h2⟩ := Prog.ends_bind he
  obtain ⟨o, u, rfl, h3⟩ := Prog.ends_act h1
  obtain ⟨prot, sg, hn, s1, s2, s3, s4⟩ := H.fortunate.sign _ o (ho.part _ (List.mem_append_left _ (List.mem_append_left _ List.mem_cons_self)))
  have hn : o = some (prot, sg) := hn
  subst hn
  have hpub := getPublic_size H.agree (k := k') hrr
  have hu : (asUeid cr.guid).length = 17 := by simp [asUeid, H.guid]
  obtain ⟨hp1, hp2⟩ := H.wire.prove _ hpub
  obtain ⟨hc1, hc2⟩ := H.wire.claims n6 _ _ h6 hu hpub
  have hser := (signed_reads (c := c) H.codec (H.wire.euph n7 h7).2 s1 hc2 s2 (s4 n7 h7)).1
  have h3 : Prog.Ends (given ⟨tok, none, some .to2OVNextEntry, some flag⟩ (liftD (liftP (Cbor.serialize ⟨some 18, [R.E.encBytes prot, R.encEuph n7, R.E.encBytes
    (R.encClaims n6 (asUeid cr.guid) (some (R.encProve (OwnerServer.newKex .ecdh384 k' rr' : KeyExchange R.K).getPublic))), R.E.encBytes sg]⟩))) : Step R _) u y := h3
  rw [hser] at h3
  obtain ⟨rfl, rfl⟩ := Prog.ends_ret h3
  rw [show ∀ (d : (sig R).Deed) (x y : Trace (sig R)), (d :: [] ++ x) ++ y = d :: (x ++ y) from fun _ _ _ => rfl] at ho
  obtain ⟨f1, f2, rfl, ho1⟩ := ho.app
  obtain ⟨ct1, ct2, ct3⟩ := checkToken_good (c := c) H.codec H.wire s1 s2 h6 h7 H.guid hpub (s4 n7 h7) s3
  obtain ⟨z, v1, v2, rfl, h4, h5⟩ := Prog.ends_bind h2
  rw [List.append_assoc] at ho1
  have hans : ∀ σ rq, Good σ rq → ∃ w g2 tk x, OwnerServer.handle R.toOwnerEnv c B cfg rq.oracle
        (.prove (deviceToken R prot sg n6 n7 (asUeid cr.guid) (OwnerServer.newKex .ecdh384 k' rr' : KeyExchange R.K).getPublic))
        ⟨some (guidText cr.guid), some n6, none, some (OwnerServer.newKex .ecdh384 k rr), some .a256gcm, false, none⟩ none σ.world =
        (w, some (.setupDevice tk, ⟨some (guidText cr.guid), some n6, some n7, none, none, true, none⟩, some ⟨.a256gcm, key'⟩)) ∧
      rq.oracle.newGuid = some g2 ∧ parseSign1 R.E c tk = .ok x := by
    intro σ rq hg
    obtain ⟨g2, hg2, hgl⟩ := hg.renamed
    obtain ⟨prot2, sg2, q1, q2, q3, q4, q5⟩ := H.keys.setsUp _ (H.keys.size g2 n7 hgl h7)
    obtain ⟨q6, q7⟩ := signed_reads (c := c) H.codec emptyMap_item q2 (H.keys.size g2 n7 hgl h7) q3 q4
    have hset : OwnerServer.setupToken R.toOwnerEnv cfg g2 n7 = .ok (shortest [R.E.encBytes prot2, emptyMap, R.E.encBytes (R.encSetup g2 n7 cfg.owner2Pub), R.E.encBytes sg2]) := by
      unfold OwnerServer.setupToken signRaw
      rw [q1]
      simp only [ofOpt, Res.bind_ok]
      rw [q6]
      rfl
    refine ⟨(B.load rq.oracle.now σ.world (guidText cr.guid)).1, g2, _, _, ?_, hg2, q7⟩
    have hl := hg.holds
    simp only [OwnerServer.handle, OwnerServer.proveDevice, Option.bind_some, RvServer.parseGuid_of H.guid]
    cases hb : B.load rq.oracle.now σ.world (guidText cr.guid) with
    | mk w' res =>
      rw [hb] at hl
      simp only at hl
      subst hl
      simp only [OwnerServer.proveWith, H.voucher.key, ct1, hg.derives, hkey, hg2, hset]
  obtain ⟨hq, g1, rq, g2, w, resp, data, m, tok', e1, e2, e3, e4, e5, e6, e7, e8⟩ := going_say ho1 h4 H.secures (fun _ => rfl)
    rfl rfl (req := .prove (deviceToken R prot sg n6 n7 (asUeid cr.guid) (OwnerServer.newKex .ecdh384 k' rr' : KeyExchange R.K).getPublic))
    (fun _ => by
      have ct3 : parseSign1 R.E c (shortest _) = .ok ct2 := ct3
      simp only [OwnerServer.decode, ct3]
      rfl) rfl
    (fun σ rq hg => by
      obtain ⟨w, g2, tk, x, a1, a2, a3⟩ := hans σ rq hg
      exact ⟨_, _, _, x, a1, by simp [decToken, H.wire.setupDevice, a3], fun iv => encrypts H.secures hkl iv _⟩)
  obtain ⟨w', g, tk, x, a1, a2, a3⟩ := hans _ _ e3
  have e4 := e4.symm.trans a1
  cases e4
  subst e6
  obtain ⟨rfl, rfl⟩ := Prog.ends_ret h5
  refine ⟨?_, f1 ++ (g1 ++ [Http.Event.request rq]), g2, tok', by simp [e1], rfl, ?_⟩
  · rw [List.append_nil]
    exact hq
  · simpa using e8

/-- DeviceServiceInfoReady. -/
theorem going_ready (H : Honest R c A encode cfg cr dev v to1d h T) {tok : Option (List Char)} {key' : Bytes} (hkl : key'.length = 32)
    {D : OwnerServer.Data R.toOwnerEnv} (hD : D.proven = true) {r : Res (Http.Client × DevErr) Http.Client}
    (ho : Going ⟨tok, some ⟨.a256gcm, key'⟩, some .to2SetupDevice, some flag⟩ ⟨some .to2SetupDevice, some ⟨.a256gcm, key'⟩, D⟩ p hist (t1 ++ t2))
    (he : Prog.Ends (ready A ⟨tok, some ⟨.a256gcm, key'⟩, some .to2SetupDevice, some flag⟩ : Step R _) t1 r) :
    onHost t1 = [] ∧ ∃ g1 g2 tok', hist = g1 ++ g2 ∧ r = .ok ⟨tok', some ⟨.a256gcm, key'⟩, some .to2OwnerServiceInfoReady, some flag⟩ ∧
      Going ⟨tok', some ⟨.a256gcm, key'⟩, some .to2OwnerServiceInfoReady, some flag⟩ ⟨some .to2OwnerServiceInfoReady, some ⟨.a256gcm, key'⟩, D⟩
        (p ++ g1) g2 t2 := by
  obtain ⟨y, u1, u2, rfl, h1, h2⟩ := Prog.ends_bind he
  rw [List.append_assoc] at ho
  have hans : ∀ (σ : Http.St Srv) (rq : Http.Request Srv), OwnerServer.handle R.toOwnerEnv c B cfg rq.oracle .ready D (some ⟨.a256gcm, key'⟩) σ.world =
      (σ.world, some (.ownerReady, D, some ⟨.a256gcm, key'⟩)) := by
    intro σ rq
    simp only [OwnerServer.handle, hD, if_true]
  obtain ⟨hq, g1, rq, g2, w, resp, data, m, tok', e1, e2, e3, e4, e5, e6, e7, e8⟩ := going_say ho h1 H.secures
    (fun iv => encrypts H.secures hkl iv _) rfl rfl (req := .ready)
    (fun _ => by simp [OwnerServer.decode, H.wire.ready]) rfl
    (fun σ rq hg => ⟨_, _, _, _, hans σ rq, H.wire.ownerReady, fun iv => encrypts H.secures hkl iv _⟩)
  have e4 := e4.symm.trans (hans _ _)
  cases e4
  subst e6
  obtain ⟨rfl, rfl⟩ := Prog.ends_ret h2
  refine ⟨by rw [List.append_nil]; exact hq, g1 ++ [Http.Event.request rq], g2, tok', by simp [e1], rfl, ?_⟩
  rw [← List.append_assoc]
  exact e8

/-- Done. -/
theorem going_done (H : Honest R c A encode cfg cr dev v to1d h T) {tok : Option (List Char)} {key' n6 n7 : Bytes} (hkl : key'.length = 32)
    (h6 : n6.length = 16) (h7 : n7.length = 16)
    {D : OwnerServer.Data R.toOwnerEnv} (hD : D.proven = true ∧ D.guid = some (guidText cr.guid) ∧ D.nonce6 = some n6 ∧ D.nonce7 = some n7)
    {r : Res (Http.Client × DevErr) Unit}
    (ho : Going ⟨tok, some ⟨.a256gcm, key'⟩, some .to2OwnerServiceInfo, some flag⟩ ⟨some .to2OwnerServiceInfo, some ⟨.a256gcm, key'⟩, D⟩ p hist (t1 ++ t2))
    (he : Prog.Ends (done A ⟨tok, some ⟨.a256gcm, key'⟩, some .to2OwnerServiceInfo, some flag⟩ n6 n7 : Step R _) t1 r) :
    onHost t1 = [] ∧ r = .ok () ∧ ∃ (g1 : List (Http.Event Srv M)) (rq : Http.Request Srv) (g2 : List (Http.Event Srv M)), hist = g1 ++ .request rq :: g2 ∧ rq.type = .to2Done ∧
      B.setTo2 rq.oracle.now (At (p ++ g1)).world (guidText cr.guid) = ((At (p ++ g1 ++ [Http.Event.request rq])).world, .ok ()) := by
  obtain ⟨y, u1, u2, rfl, h1, h2⟩ := Prog.ends_bind he
  rw [List.append_assoc] at ho
  have hans : ∀ σ rq, Good σ rq → ∃ D', OwnerServer.handle R.toOwnerEnv c B cfg rq.oracle (.done n6) D (some ⟨.a256gcm, key'⟩) σ.world =
      ((B.setTo2 rq.oracle.now σ.world (guidText cr.guid)).1, some (.done2 n7, D', some ⟨.a256gcm, key'⟩)) := by
    intro σ rq hg
    have hl := hg.records
    obtain ⟨d1, d2, d3, d4⟩ := hD
    simp only [OwnerServer.handle, OwnerServer.doneTo2, d1, d2, d3, d4, Bool.not_true, Bool.false_eq_true, if_false, ne_eq, not_true,
      Option.bind_some, RvServer.parseGuid_of H.guid]
    cases hb : B.setTo2 rq.oracle.now σ.world (guidText cr.guid) with
    | mk w' res =>
      rw [hb] at hl
      simp only at hl
      subst hl
      exact ⟨_, rfl⟩
  obtain ⟨hq, g1, rq, g2, w, resp, data, m, tok', e1, e2, e3, e4, e5, e6, e7, e8⟩ := going_say ho h1 H.secures
    (fun iv => encrypts H.secures hkl iv _) rfl rfl (req := .done n6)
    (fun _ => by simp [OwnerServer.decode, H.wire.done n6 h6]) rfl
    (fun σ rq hg => by
      obtain ⟨D', hd⟩ := hans σ rq hg
      exact ⟨_, _, _, _, hd, H.wire.done2 n7 h7, fun iv => encrypts H.secures hkl iv _⟩)
  obtain ⟨D', hd⟩ := hans _ _ e3
  have e4 := e4.symm.trans hd
  cases e4
  rw [H.wire.done2 n7 h7] at e5
  cases e5
  subst e6
  have h2 : Prog.Ends (Proc.check _ (decide (n7 = n7)) : Step R _) u2 r := h2
  rw [decide_eq_true rfl] at h2
  obtain ⟨rfl, rfl⟩ := Prog.ends_ret h2
  refine ⟨by rw [List.append_nil]; exact hq, rfl, g1, rq, g2, e1, e2, ?_⟩
  rw [e7]
  exact Prod.ext rfl e3.records

/-! ### Service info -/

/-- Deeds on the host, as those of the whole client. -/
def lifted (u : Trace SiClient.sig) : Trace (sig R) := u.filterMap whole

/-- Deeds on the host. -/
def AllHost (u : Trace SiClient.sig) : Prop := ∀ d ∈ u, ∃ m op, d.1 = .host m op

theorem onHost_lifted {u : Trace SiClient.sig} (hu : AllHost u) : onHost (lifted u : Trace (sig R)) = u := by
  induction u with
  | nil => rfl
  | cons d u ih =>
    obtain ⟨m, op, hd⟩ := hu d List.mem_cons_self
    obtain ⟨e, a⟩ := d
    have hd : e = .host m op := hd
    subst hd
    have := ih fun d hd => hu d (List.mem_cons_of_mem _ hd)
    show (⟨.host m op, a⟩ : SiClient.sig.Deed) :: onHost (lifted u) = _
    rw [this]

theorem lifted_silent {u : Trace SiClient.sig} : ∀ d ∈ (lifted u : Trace (sig R)), Http.Silent (X := ops R) d := by
  intro d hd
  obtain ⟨x, -, hx⟩ := List.mem_filterMap.1 hd
  obtain ⟨e, a⟩ := x
  cases e with
  | host m op => cases hx; exact Http.silent_app (X := ops R) _ _
  | exchange si => cases hx

theorem siRun_quiet {α β : Type} : ∀ (q : Prog SiClient.sig α) (f : α → Prog SiClient.sig β) (cl : Http.Client) (t : Trace (sig R))
    (r : Res (Http.Client × DevErr) (Http.Client × β)), (∀ u, Prog.Does q u → AllHost u) →
    Prog.Ends (siRun A (q.bind f) cl : Step R _) t r →
    ∃ a u t2, t = lifted u ++ t2 ∧ Prog.Ends q u a ∧ Prog.Ends (siRun A (f a) cl : Step R _) t2 r := by
  intro q
  induction q with
  | ret a =>
    intro f cl t r _ he
    exact ⟨a, [], t, rfl, .nil _, he⟩
  | act e k ih =>
    intro f cl t r hq he
    cases e with
    | exchange si =>
      obtain ⟨m, op, h⟩ := hq [⟨.exchange si, (none : Option OwnerSi)⟩] ⟨_, .cons (.nil _)⟩ _ List.mem_cons_self
      cases h
    | host m op =>
      obtain ⟨b, t', rfl, h1⟩ := Prog.ends_act he
      obtain ⟨a, u, t2, rfl, h2, h3⟩ := ih b f cl t' r
        (fun u ⟨q', hu⟩ d hd => hq (⟨.host m op, b⟩ :: u) ⟨q', .cons hu⟩ d (List.mem_cons_of_mem _ hd)) h1
      exact ⟨a, ⟨.host m op, b⟩ :: u, t2, rfl, .cons h2, h3⟩

theorem announced_names (sub clevis : Bool) :
    ((announced sub clevis).map SiModule.display).eraseDups = (announced sub clevis).map SiModule.display := by
  cases sub <;> cases clevis <;> decide +kernel

/-- The first message of service info is answered with the instructions of the service info API. -/
theorem first_answer (H : Honest R c A encode cfg cr dev v to1d h T) {n6 n7 : Bytes} {key' : Bytes} {sub clevis : Bool} {os : List Char}
    (hos : (⟨.app (.host .devMod .osRelease), (some (some os) : Option (Option (List Char)))⟩ : (sig R).Deed) ∈ T)
    {σ : Http.St Srv} {rq : Http.Request Srv} (hg : Good σ rq) :
    ∃ l, Instructs R encode rq.oracle.api cr.guid sub clevis l ∧ Follows h T l ∧
      OwnerServer.handle R.toOwnerEnv c B cfg rq.oracle (.deviceSi (toSi R.encVal (SiClient.devmod h os (announced sub clevis))))
        ⟨some (guidText cr.guid), some n6, some n7, none, none, true, none⟩ (some ⟨.a256gcm, key'⟩) σ.world =
      (σ.world, some (.ownerSi ⟨false, false, toSi R.encVal l⟩, ⟨some (guidText cr.guid), some n6, some n7, none, none, true, some 1⟩,
        some ⟨.a256gcm, key'⟩)) := by
  obtain ⟨l, hi, hf⟩ := hg.instructs sub clevis
  refine ⟨l, hi, hf, ?_⟩
  obtain ⟨rep, h1, h2, -⟩ := hi
  simp only [OwnerServer.handle, OwnerServer.deviceSi, Bool.not_true, Bool.false_eq_true, if_false, Option.bind_some,
    RvServer.parseGuid_of H.guid, Option.getD_none, ServiceInfo.perform, ne_eq, not_true,
    SiPipeline.moduleList_devmod (H.announces sub clevis os hos), announced_names, h1, h2]
  rfl

theorem siRun_exchange {α : Type} {si : ServiceInfo} {k : Option OwnerSi → Prog SiClient.sig α} {t : Trace (sig R)}
    {r : Res (Http.Client × DevErr) (Http.Client × α)} (he : Prog.Ends (siRun A (.act (.exchange si) k) cl : Step R _) t r) :
    ∃ x t1 t2, t = t1 ++ t2 ∧
      Prog.Ends (Http.sendQ (X := ops R) A R.decOwnerSi cl .to2DeviceServiceInfo .to2OwnerServiceInfo (R.encDeviceSi si) none) t1 x ∧
      ∀ cl' m, x = .ok (cl', m) → Prog.Ends (siRun A (k (some m)) cl' : Step R _) t2 r := by
  unfold siRun at he
  obtain ⟨x, t1, t2, rfl, h1, h2⟩ := Prog.ends_bind he
  refine ⟨x, t1, t2, rfl, h1, ?_⟩
  rintro cl' m rfl
  exact h2

theorem Reported.mono {hist hist' : List (Http.Event Srv M)} {out : List Item}
    (hr : Reported (c := c) (B := B) (cfg := cfg) (idOf := idOf) (A := A) (encode := encode) hist out) (hs : ∀ x ∈ hist, x ∈ hist') :
    Reported (c := c) (B := B) (cfg := cfg) (idOf := idOf) (A := A) (encode := encode) hist' out := by
  obtain ⟨rq, k, iv, h1, h2⟩ := hr
  exact ⟨rq, k, iv, hs _ h1, h2⟩

/-- Service info: two messages. -/
theorem going_rounds (H : Honest R c A encode cfg cr dev v to1d h T) {tok : Option (List Char)} {key' n6 n7 : Bytes} (hkl : key'.length = 32)
    {sub clevis : Bool} {os : List Char} {n : Nat}
    (hos : (⟨.app (.host .devMod .osRelease), (some (some os) : Option (Option (List Char)))⟩ : (sig R).Deed) ∈ T)
    {r : Res (Http.Client × DevErr) (Http.Client × Res SiClient.Err Bool)}
    (ho : Going ⟨tok, some ⟨.a256gcm, key'⟩, some .to2OwnerServiceInfoReady, some flag⟩ ⟨some .to2OwnerServiceInfoReady, some ⟨.a256gcm, key'⟩,
      ⟨some (guidText cr.guid), some n6, some n7, none, none, true, none⟩⟩ p hist (t1 ++ t2))
    (he : Prog.Ends (siRun A (SiClient.rounds h R.encVal R.decVal (n + 2) false (SiClient.devmod h os (announced sub clevis)))
      ⟨tok, some ⟨.a256gcm, key'⟩, some .to2OwnerServiceInfoReady, some flag⟩ : Step R _) t1 r) :
    ∃ g1 g2 tok' rq l ts out b, hist = g1 ++ g2 ∧ r = .ok (⟨tok', some ⟨.a256gcm, key'⟩, some .to2OwnerServiceInfo, some flag⟩, .ok b) ∧
      .request rq ∈ g1 ∧ rq.type = .to2DeviceServiceInfo ∧ Instructs R encode rq.oracle.api cr.guid sub clevis l ∧
      Prog.Ends (SiClient.process h l) ts (.ok (b, out)) ∧ Reported (c := c) (B := B) (cfg := cfg) (idOf := idOf) (A := A) (encode := encode) hist out ∧ onHost t1 = ts ∧
      Going ⟨tok', some ⟨.a256gcm, key'⟩, some .to2OwnerServiceInfo, some flag⟩ ⟨some .to2OwnerServiceInfo, some ⟨.a256gcm, key'⟩,
        ⟨some (guidText cr.guid), some n6, some n7, none, none, true, some 2⟩⟩ (p ++ g1) g2 t2 := by
  obtain ⟨x, u1, u2, rfl, h1, h2⟩ := siRun_exchange he
  rw [List.append_assoc] at ho
  obtain ⟨hq, g1, rq, g2, w, resp, data, m, tok', e1, e2, e3, e4, e5, e6, e7, e8⟩ := going_send ho h1 H.secures
    (fun iv => encrypts H.secures hkl iv _) rfl rfl (req := .deviceSi (toSi R.encVal (SiClient.devmod h os (announced sub clevis))))
    (fun hl => by simp [OwnerServer.decode, H.wire.deviceSi _ hl]) rfl
    (fun σ rq hg => by
      obtain ⟨l, hi, -, ha⟩ := first_answer H (n6 := n6) (n7 := n7) (key' := key') (sub := sub) (clevis := clevis) hos hg
      obtain ⟨rep, -, -, -, -, hlen⟩ := hi
      exact ⟨_, _, _, _, ha, H.wire.ownerSi _ hlen, fun iv => encrypts H.secures hkl iv _⟩)
  obtain ⟨l, hi, hf, ha⟩ := first_answer H (n6 := n6) (n7 := n7) (key' := key') (sub := sub) (clevis := clevis) hos e3
  have e4 := e4.symm.trans ha
  cases e4
  have hi' := hi
  obtain ⟨rep, -, -, hreads, hplain, hlen⟩ := hi'
  rw [H.wire.ownerSi _ hlen] at e5
  cases e5
  subst e6
  have h2 : Prog.Ends (siRun A (Prog.bind (SiClient.process h (siItems R.decVal (toSi R.encVal l))) _)
    ⟨tok', some ⟨.a256gcm, key'⟩, some .to2OwnerServiceInfo, some flag⟩ : Step R _) u2 r := h2 _ _ rfl
  rw [SiPipeline.toSi_items hreads hplain] at h2
  obtain ⟨a, ts, u3, rfl, h3, h4⟩ := siRun_quiet _ _ _ _ _ (fun u hu d hd => by
    obtain ⟨m, op, hm, -⟩ := SiClient.C49_only_active l u hu d hd
    exact ⟨m, op, hm⟩) h2
  have hall : AllHost ts := fun d hd => by
    obtain ⟨m, op, hm, -⟩ := SiClient.C49_only_active l ts ⟨_, h3⟩ d hd
    exact ⟨m, op, hm⟩
  obtain ⟨⟨b, out⟩, rfl⟩ := hf ts a h3 fun d hd d' hd' =>
    e8.part d' (List.mem_append_left _ (List.mem_append_left _ (List.mem_filterMap.2 ⟨d, hd, hd'⟩)))
  rw [List.append_assoc (lifted ts)] at e8
  obtain ⟨f1, f2, rfl, e9⟩ := e8.quiet lifted_silent
  obtain ⟨y, v1, v2, rfl, h5, h6⟩ := siRun_exchange (si := toSi R.encVal out) h4
  rw [List.append_assoc v1] at e9
  have hans : ∀ (σ : Http.St Srv) (rq : Http.Request Srv), OwnerServer.handle R.toOwnerEnv c B cfg rq.oracle (.deviceSi (toSi R.encVal out))
      ⟨some (guidText cr.guid), some n6, some n7, none, none, true, some 1⟩ (some ⟨.a256gcm, key'⟩) σ.world =
      (σ.world, some (.ownerSi ⟨false, true, []⟩, ⟨some (guidText cr.guid), some n6, some n7, none, none, true, some 2⟩,
        some ⟨.a256gcm, key'⟩)) := by
    intro σ rq
    simp only [OwnerServer.handle, OwnerServer.deviceSi, Bool.not_true, Bool.false_eq_true, if_false, Option.bind_some,
      RvServer.parseGuid_of H.guid, Option.getD_some, ServiceInfo.perform]
    rfl
  obtain ⟨hq', g1', rq', g2', w', resp', data', m', tok2, a1, a2, a3, a4, a5, a6, a7, a8⟩ := going_send e9 h5 H.secures
    (fun iv => encrypts H.secures hkl iv _) rfl rfl (req := .deviceSi (toSi R.encVal out))
    (fun hl => by simp [OwnerServer.decode, H.wire.deviceSi _ hl]) rfl
    (fun σ rq hg => ⟨_, _, _, _, hans σ rq, H.wire.lastSi, fun iv => encrypts H.secures hkl iv _⟩)
  have a4 := a4.symm.trans (hans _ _)
  cases a4
  rw [H.wire.lastSi] at a5
  cases a5
  subst a6
  obtain ⟨rfl, rfl⟩ := Prog.ends_ret (h6 _ _ rfl)
  obtain ⟨iv, body, q, rfl, hx⟩ := Http.ends_sendQ h5
  have hin : (⟨.net ⟨.to2DeviceServiceInfo, tok', body⟩, some q⟩ : (sig R).Deed) ∈ [⟨.iv, iv⟩, ⟨.net ⟨.to2DeviceServiceInfo, tok', body⟩, some q⟩] ++ ([] ++ t2) :=
    List.mem_append_left _ (.tail _ (.head _))
  obtain ⟨i, -, -, hsm⟩ := e9
  obtain ⟨k1, rqr, k2, hk, hc, -⟩ := Http.talk_served hsm.talk hin
  have hrep : Reported (c := c) (B := B) (cfg := cfg) (idOf := idOf) (A := A) (encode := encode) hist out := by
    refine ⟨rqr, key', iv, by rw [e1, hk]; simp, hc.type, hc.body ▸ (hsm.heard _ _ (hsm.part _ hin)).2, ?_⟩
    rw [hc.body]
    exact hx.sent
  refine ⟨g1 ++ [Http.Event.request rq] ++ f1 ++ g1' ++ [Http.Event.request rq'], g2', tok2, rq, l, ts, out, b, by simp [e1, a1], rfl, by simp, e2, hi, h3, hrep, ?_, ?_⟩
  · simp only [onHost_append, hq, hq', onHost_lifted hall, List.nil_append, List.append_nil]
  · simpa using a8

/-- Service info. -/
theorem going_si (H : Honest R c A encode cfg cr dev v to1d h T) {tok : Option (List Char)} {key' n6 n7 : Bytes} (hkl : key'.length = 32)
    {r : Res (Http.Client × DevErr) (Http.Client × Bool)}
    (ho : Going ⟨tok, some ⟨.a256gcm, key'⟩, some .to2OwnerServiceInfoReady, some flag⟩ ⟨some .to2OwnerServiceInfoReady, some ⟨.a256gcm, key'⟩,
      ⟨some (guidText cr.guid), some n6, some n7, none, none, true, none⟩⟩ p hist (t1 ++ t2))
    (he : Prog.Ends (serviceInfos A h ⟨tok, some ⟨.a256gcm, key'⟩, some .to2OwnerServiceInfoReady, some flag⟩ : Step R _) t1 r) :
    ∃ g1 g2 tok' b, hist = g1 ++ g2 ∧ r = .ok (⟨tok', some ⟨.a256gcm, key'⟩, some .to2OwnerServiceInfo, some flag⟩, b) ∧
      Followed (R := R) (c := c) (B := B) (cfg := cfg) (idOf := idOf) (A := A) (encode := encode) cr.guid h t1 hist b ∧
      Going ⟨tok', some ⟨.a256gcm, key'⟩, some .to2OwnerServiceInfo, some flag⟩ ⟨some .to2OwnerServiceInfo, some ⟨.a256gcm, key'⟩,
        ⟨some (guidText cr.guid), some n6, some n7, none, none, true, some 2⟩⟩ (p ++ g1) g2 t2 := by
  obtain ⟨x, u1, u2, rfl, h1, h2⟩ := Prog.ends_bind he
  rw [List.append_assoc] at ho
  have h1 : Prog.Ends (siRun A (SiClient.perform h R.encVal R.decVal) _ : Step R _) u1 x := h1
  obtain ⟨sub, w1, rfl, h3⟩ := Prog.ends_act h1
  obtain ⟨clevis, w2, rfl, h4⟩ := Prog.ends_act h3
  obtain ⟨o, w3, rfl, h5⟩ := Prog.ends_act h4
  obtain ⟨os, hos⟩ := H.fortunate.os .devMod o (ho.part _ (.tail _ (.tail _ (.head _))))
  have hos : o = some (some os) := hos
  subst hos
  obtain ⟨f1, f2, rfl, o1⟩ := ho.app
  obtain ⟨f3, f4, rfl, o2⟩ := o1.app
  have hmem := o2.part _ List.mem_cons_self
  obtain ⟨f5, f6, rfl, o3⟩ := o2.app
  have h5 : Prog.Ends (siRun A (SiClient.rounds h R.encVal R.decVal (998 + 2) false (SiClient.devmod h os (announced sub clevis)))
      ⟨tok, some ⟨.a256gcm, key'⟩, some .to2OwnerServiceInfoReady, some flag⟩ : Step R _) w3 x := h5
  obtain ⟨g1, g2, tok', rq, l, ts, out, b, rfl, rfl, a1, a2, a3, a4, ha, a5, a6⟩ := going_rounds H hkl hmem o3 h5
  obtain ⟨rfl, rfl⟩ := Prog.ends_ret h2
  refine ⟨f1 ++ f3 ++ f5 ++ g1, g2, tok', b, by simp, rfl, ⟨sub, clevis, os, rq, l, ts, out, by simp [a1], a2, a3, a4,
    ha.mono (fun x hx => by simp [hx]), ?_⟩, by simpa using a6⟩
  rw [List.append_nil, ← a5]
  rfl

/-! ### Files -/

theorem onHost_files {u : Trace Fs.sig} : onHost (onFiles u : Trace (sig R)) = [] :=
  onHost_none fun d hd => by
    obtain ⟨x, -, rfl⟩ := List.mem_map.1 hd
    exact nofun

theorem files_silent {u : Trace Fs.sig} : ∀ d ∈ (onFiles u : Trace (sig R)), Http.Silent (X := ops R) d := by
  intro d hd
  obtain ⟨x, -, rfl⟩ := List.mem_map.1 hd
  exact Http.silent_app (X := ops R) _ _

/-- Writing a file succeeds, if its steps do. -/
theorem writes_good {ε : Type} {e : ε} {path : Path} {b : Bytes} {u : Trace Fs.sig} {r : Res ε Unit} (he : Prog.Ends (writeFile e path b) u r)
    (F : Fortunate R dev T) (hu : ∀ d ∈ (onFiles u : Trace (sig R)), d ∈ T) : r = .ok () := by
  obtain ⟨a1, u1, rfl, h1⟩ := Prog.ends_act he
  have g1 : a1 = true := F.create path a1 (hu _ List.mem_cons_self)
  subst g1
  obtain ⟨a2, u2, rfl, h2⟩ := Prog.ends_act h1
  have g2 : a2 = true := F.append path b a2 (hu _ (.tail _ (.head _)))
  subst g2
  exact (Prog.ends_ret h2).2.symm

theorem deactivate_good {l : Credential.Location} {u : Trace Fs.sig} {r : Res Credential.CredErr Unit}
    (he : Prog.Ends (Credential.deactivate R.codec l) u r) (F : Fortunate R dev T) (hu : ∀ d ∈ (onFiles u : Trace (sig R)), d ∈ T) : r = .ok () := by
  unfold Credential.deactivate at he
  split at he
  · exact (Prog.ends_ret he).2.symm
  · obtain ⟨a1, u1, rfl, h1⟩ := Prog.ends_act he
    have g1 : a1 = true := F.remove _ a1 (hu _ List.mem_cons_self)
    subst g1
    exact (Prog.ends_ret h1).2.symm
  · obtain ⟨a1, u1, rfl, h1⟩ := Prog.ends_act he
    obtain ⟨b, cr, g1, g2⟩ := F.read _ a1 (hu _ List.mem_cons_self)
    have g1 : a1 = some b := g1
    subst g1
    have h1 : Prog.Ends (Proc.some? Credential.CredErr.parse (R.codec.dec b) >>= _ : Proc Fs.sig _ _) u1 r := h1
    rw [g2] at h1
    exact writes_good (e := Credential.CredErr.io) h1 F fun d hd => hu d (List.mem_cons_of_mem _ hd)

/-- The marker and the credential. -/
theorem going_settle (F : Fortunate R dev T) {w : Credential.Surroundings} {l : Credential.Location} {r : Res (Http.Client × DevErr) Unit}
    (ho : Going cl s p hist (t1 ++ t2)) (he : Prog.Ends (settle w l cl : Step R _) t1 r) :
    onHost t1 = [] ∧ ∃ g1 g2, hist = g1 ++ g2 ∧ r = .ok () ∧ Going cl s (p ++ g1) g2 t2 := by
  obtain ⟨x, u1, u2, rfl, h1, h2⟩ := Prog.ends_bind he
  obtain ⟨x', h1', hx, -⟩ := ends_mapErr_all h1
  obtain ⟨w1, rfl, h3⟩ := ends_files _ _ h1'
  have hp := ho.part
  cases writes_good h3 F fun d hd => hp d (List.mem_append_left _ (List.mem_append_left _ hd))
  cases hx _ rfl
  have h2 : Prog.Ends (Proc.mapErr (fun _ => (cl, .deactivate)) (files (Credential.deactivate R.codec l)) : Step R _) u2 r := h2
  obtain ⟨y', h2', hy, -⟩ := ends_mapErr_all h2
  obtain ⟨w2, rfl, h4⟩ := ends_files _ _ h2'
  cases deactivate_good h4 F fun d hd => hp d (List.mem_append_left _ (List.mem_append_right _ hd))
  cases hy _ rfl
  obtain ⟨g1, g2, rfl, ho'⟩ := ho.quiet fun d hd => (List.mem_append.1 hd).elim (files_silent d) (files_silent d)
  exact ⟨by rw [onHost_append, onHost_files, onHost_files]; rfl, g1, g2, rfl, rfl, ho'⟩

/-! ### All of TO2 -/

/-- Up to the keys. -/
theorem going_authenticate (H : Honest R c A encode cfg cr dev v to1d h T) {r : Res (Http.Client × DevErr) (Http.Client × KeyExchange R.K × Http.Keys × Bytes)}
    (ho : Going .new (Http.Sess.new Srv) p hist (t1 ++ t2)) (he : Prog.Ends (authenticate c A cr to1d .new : Step R _) t1 r) :
    onHost t1 = [] ∧ ∃ g1 g2 tok n6 k rr k' rr' key', hist = g1 ++ g2 ∧ n6.length = 16 ∧ rr.length = 48 ∧ rr'.length = 48 ∧ key'.length = 32 ∧
      r = .ok (⟨tok, none, some .to2OVNextEntry, some flag⟩, OwnerServer.newKex .ecdh384 k' rr', ⟨.a256gcm, key'⟩, n6) ∧
      (OwnerServer.newKex .ecdh384 k rr : KeyExchange R.K).deriveKey .owner .a256gcm flag (OwnerServer.newKex .ecdh384 k' rr').getPublic = .ok key' ∧
      Going ⟨tok, none, some .to2OVNextEntry, some flag⟩ ⟨some .to2OVNextEntry, none,
        ⟨some (guidText cr.guid), some n6, none, some (OwnerServer.newKex .ecdh384 k rr), some .a256gcm, false, none⟩⟩ (p ++ g1) g2 t2 := by
  obtain ⟨hdr, hh, key, ps, P⟩ : ∃ hdr hh key ps, Parts R c cr cfg.ownerPub v hdr hh key ps := by
    obtain ⟨hdr, hh, key, ps, a1, a2, a3, a4, a5, a6, a7, a8⟩ := H.voucher.valid
    exact ⟨hdr, hh, key, ps, a1, a2, a3, a4, a5, a6, a7, a8⟩
  obtain ⟨x, u1, u2, rfl, h1, h2⟩ := Prog.ends_bind he
  rw [List.append_assoc] at ho
  obtain ⟨q1, f1, f2, n5, rfl, hn5, rfl, o1⟩ := going_nonce H.fortunate ho h1
  obtain ⟨x, u3, u4, rfl, h3, h4⟩ := Prog.ends_bind h2
  rw [List.append_assoc u3] at o1
  obtain ⟨q2, f3, f4, tok, s, pf, n6, k, rr, rfl, hn6, hrr, rfl, V, o2⟩ := going_hello H P hn5 o1 h3
  obtain ⟨x, u5, u6, rfl, h5, h6⟩ := Prog.ends_bind h4
  rw [List.append_assoc u5] at o2
  obtain ⟨q3, f5, f6, tok', rfl, rfl, o3⟩ := going_proof H P (by rfl) V o2 h5
  obtain ⟨x, u7, u8, rfl, h7, h8⟩ := Prog.ends_bind h6
  rw [List.append_assoc u7] at o3
  obtain ⟨q4, f7, f8, k', rr', key', rfl, hrr', hkl, rfl, hkey, o4⟩ := going_keys H hrr V.kex o3 h7
  obtain ⟨rfl, rfl⟩ := Prog.ends_ret h8
  refine ⟨by simp only [onHost_append, q1, q2, q3, q4]; rfl, f1 ++ f3 ++ f5 ++ f7, f8, tok', n6, k, rr, k', rr', key', by simp, hn6, hrr, hrr', hkl, rfl, hkey, ?_⟩
  simpa using o4

/-- **C59**: a device and the server of its owner which holds the device's voucher complete TO2: whatever else the server does
and other clients say in the meantime (`hist`), if no message is lost and the surroundings of both do not fail, TO2 ends with
success; the server has recorded the onboarding, and what the device did on its host is to follow precisely the instructions
the service info API gave for it.

Missing from the full statement: it is assumed that no message is longer than the server accepts (16 KiB), and that the entries
of the voucher are in shortest form. Without these it does not hold: `C59_long_message_violated`, `C59_large_output_violated` and
`C59_form_violated`. -/
theorem C59_completes_partial (H : Honest R c A encode cfg cr dev v to1d h T) (hD : Delivered R T)
    (hT : Http.Talk (Sv := Srv) (X := ops R) mv σ0 kdf none [] hist T)
    (hS : ∀ h1 rq h2, hist = h1 ++ .request rq :: h2 → Good (At h1) rq)
    {w : Credential.Surroundings} {l : Credential.Location} {r : Res (Http.Client × DevErr) Bool}
    (he : Prog.Ends (to2 c A w h l cr to1d .new : Step R _) T r) :
    ∃ b, r = .ok b ∧ Recorded (R := R) (c := c) (B := B) (cfg := cfg) (idOf := idOf) (A := A) (encode := encode) mv σ0 cr.guid hist ∧
      Followed (R := R) (c := c) (B := B) (cfg := cfg) (idOf := idOf) (A := A) (encode := encode) cr.guid h T hist b := by
  have ho : Going .new (Http.Sess.new Srv) [] hist T :=
    ⟨none, Http.Sync.new _, rfl, hT, fun _ h => h, hD, fun h1 rq h2 e => hS h1 rq h2 e⟩
  have key : ∀ t, T = t → Prog.Ends (to2 c A w h l cr to1d .new : Step R _) t r → ∃ b, r = .ok b ∧
      Recorded (R := R) (c := c) (B := B) (cfg := cfg) (idOf := idOf) (A := A) (encode := encode) mv σ0 cr.guid hist ∧
      Followed (R := R) (c := c) (B := B) (cfg := cfg) (idOf := idOf) (A := A) (encode := encode) cr.guid h t hist b := by
    intro t ht he
    have ho : Going .new (Http.Sess.new Srv) [] hist t := by
      have := ho
      rw [ht] at this ⊢
      exact this
    obtain ⟨x, u1, u2, rfl, h1, h2⟩ := Prog.ends_bind he
    obtain ⟨q1, f1, f2, tok, n6, k, rr, k', rr', key', e1, hn6, hrr, hrr', hkl, rfl, hkey, o1⟩ := going_authenticate H ho h1
    obtain ⟨x, u3, u4, rfl, h3, h4⟩ := Prog.ends_bind h2
    obtain ⟨q2, f3, f4, n7, rfl, hn7, rfl, o2⟩ := going_nonce H.fortunate o1 h3
    obtain ⟨x, u5, u6, rfl, h5, h6⟩ := Prog.ends_bind h4
    obtain ⟨q3, f5, f6, tok1, rfl, rfl, o3⟩ := going_prove H hn6 hn7 hkl hrr' hkey o2 h5
    obtain ⟨x, u7, u8, rfl, h7, h8⟩ := Prog.ends_bind h6
    obtain ⟨q4, f7, f8, tok2, rfl, rfl, o4⟩ := going_ready H hkl (by rfl) o3 h7
    obtain ⟨x, u9, u10, rfl, h9, h10⟩ := Prog.ends_bind h8
    obtain ⟨f9, f10, tok3, b, rfl, rfl, hfol, o5⟩ := going_si H hkl o4 h9
    obtain ⟨x, u11, u12, rfl, h11, h12⟩ := Prog.ends_bind h10
    obtain ⟨q5, f11, f12, rfl, rfl, o6⟩ := going_settle H.fortunate o5 h11
    obtain ⟨x, u13, u14, rfl, h13, h14⟩ := Prog.ends_bind h12
    obtain ⟨q6, rfl, f13, rq, f14, rfl, hty, hrec⟩ := going_done H hkl hn6 hn7 ⟨rfl, rfl, rfl, rfl⟩ o6 h13
    obtain ⟨rfl, rfl⟩ := Prog.ends_ret h14
    refine ⟨b, rfl, ⟨f1 ++ f3 ++ f5 ++ f7 ++ f9 ++ f11 ++ f13, rq, f14, by simp [e1], hty, by simpa using hrec⟩, ?_⟩
    obtain ⟨sub, clevis, os, rq', l', ts, out, a1, a2, a3, a4, ha, a5⟩ := hfol
    have hsub : ∀ x, x ∈ f9 ++ (f11 ++ (f13 ++ Http.Event.request rq :: f14)) → x ∈ hist := fun x hx => by
      rw [e1]
      exact List.mem_append_right _ (List.mem_append_right _ (List.mem_append_right _ (List.mem_append_right _ hx)))
    refine ⟨sub, clevis, os, rq', l', ts, out, hsub _ a1, a2, a3, a4, ha.mono hsub, ?_⟩
    rw [← a5]
    simp only [onHost_append, q1, q2, q3, q4, q5, q6, List.nil_append, List.append_nil]
  exact key T rfl he

end Device
end Verif

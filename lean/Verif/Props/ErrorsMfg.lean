import Verif.Model.ErrorsMfg
import Verif.Props.ErrorsRv
import Verif.Props.MfgServer
/-!
**C95** for the manufacturing server: the reason a device is given for a refusal is the true one.
-/
namespace Verif.Errors
open Verif Verif.Http
open Verif.Voucher Verif.Store Verif.Types
open Verif.MfgServer hiding handleRes server move reached decode

/-! ### Specification -/

section
variable (R : MfgEnv) (c : Bool) (B : MStore) (cfg : Config R)

/-- The key that the session has from DIUN, else that of the store for this device. -/
def KeyFor (o : Oracle R) (s : Data R) (info : String) (der : Bytes) : Prop :=
  s.deviceKey = some der ∨ s.deviceKey = none ∧ cfg.keyStore = true ∧ o.keys info.toList = .ok (some der)

/-- What must be the case when DI.AppStart is refused for a reason. -/
inductive StartCause (o : Oracle R) (s : Data R) (raw : Bytes) : Nat × String → Prop
  | off : cfg.enableDi = false → s.performed = false → StartCause o s raw (500, "Plain DI is disabled")
  | notText : R.decMfgInfo raw = some none → StartCause o s raw (500, "MFG Info is not a string")
  | noKey (info : String) : R.decMfgInfo raw = some (some info) → s.deviceKey = none → cfg.keyStore = false ∨ o.keys info.toList = .ok none →
      StartCause o s raw (500, "No public key located")
  | unreadable : R.decMfgInfo raw = none → StartCause o s raw (500, "Internal server error")
  | store (info : String) (e : SErr) : R.decMfgInfo raw = some (some info) → s.deviceKey = none → o.keys info.toList = .err e →
      StartCause o s raw (500, "Internal server error")
  | badKey (info : String) (der : Bytes) : R.decMfgInfo raw = some (some info) → KeyFor R cfg o s info der → R.keyFromDer der = none →
      StartCause o s raw (500, "Internal server error")
  | certificate (info : String) (der : Bytes) (key : R.C.Key) (ca : R.C.Cert) : R.decMfgInfo raw = some (some info) →
      KeyFor R cfg o s info der → R.keyFromDer der = some key → (R.certs cfg.caChain).head? = some ca →
      (∀ n, o.serial = some n → R.build ⟨info, ca, o.now, n, key⟩ cfg.caKey = none) → StartCause o s raw (500, "Internal server error")
  | random : (∀ g, o.guid = some g → g.length ≠ 16) → StartCause o s raw (500, "Internal server error")
  | header (info : String) (g : Bytes) (dev : R.C.Cert) : R.decMfgInfo raw = some (some info) → o.guid = some g →
      (∀ h b, newHeader R cfg g info (dev :: R.certs cfg.caChain) = .ok h → Header.serialize R.E h ≠ .ok b) → StartCause o s raw (500, "Internal server error")

/-- What must be the case when DI.SetHMAC is refused for a reason. -/
inductive HmacCause (s : Data R) (w : B.W) (hmac : Hash) : Nat × String → Prop
  | off : cfg.enableDi = false → s.performed = false → HmacCause s w hmac (500, "Plain DI is disabled")
  | noHeader : s.header = none → HmacCause s w hmac (101, "Sequence error: no ownership voucher header")
  | noChain : s.header ≠ none → s.chain = none → HmacCause s w hmac (101, "Sequence error: no device certificate")
  | header (t : List Char) : s.header = some t → (∀ b h, hexDecode t = some b → Header.deserialize R.E c b ≠ .ok h) →
      HmacCause s w hmac (500, "Internal server error")
  | voucher (t : List Char) (b : Bytes) (h : Header R.E) (ch : R.E.Chain) : s.header = some t → hexDecode t = some b →
      Header.deserialize R.E c b = .ok h → s.chain = some ch → (∀ v x, issue R c cfg h hmac ch = .ok v → Voucher.serialize v ≠ .ok x) →
      HmacCause s w hmac (500, "Internal server error")
  | store (t : List Char) (b x : Bytes) (h : Header R.E) (ch : R.E.Chain) (v : Voucher R.E) (e : SErr) : s.header = some t →
      hexDecode t = some b → Header.deserialize R.E c b = .ok h → s.chain = some ch → issue R c cfg h hmac ch = .ok v →
      Voucher.serialize v = .ok x → (B.put w (guidText h.guid) x).2 = .err e → HmacCause s w hmac (500, "Internal server error")

/-- What must be the case when a request is refused by a handler of the manufacturing server, for a reason: code and text. -/
inductive DiCause (o : Oracle R) (s : Data R) (w : B.W) : Req → Nat × String → Prop
  | connectOff (m : Connect) : cfg.diun = none → DiCause o s w (.connect m) (500, "DIUN is disabled")
  | requestOff : cfg.diun = none → DiCause o s w .requestKey (500, "DIUN is disabled")
  | provideOff (k : Bytes) (st : KeyStorage) : cfg.diun = none → DiCause o s w (.provideKey k st) (500, "DIUN is disabled")
  | noKeys : s.diunKeys = none → DiCause o s w .requestKey (101, "Sequence error: no diun_keys")
  | connect (m : Connect) (d : Diun R) : cfg.diun = some d →
      (∀ key random x t, o.kex = some (key, random) →
        (OwnerServer.newKex m.kex key random).deriveKey .owner m.cipher o.nonInterop m.keyExchange = .ok x →
        acceptToken R d m.nonce (OwnerServer.newKex m.kex key random).getPublic ≠ .ok t) →
      DiCause o s w (.connect m) (500, "Internal server error")
  | start (raw : Bytes) (x : Nat × String) : StartCause R cfg o s raw x → DiCause o s w (.appStart raw) x
  | hmac (m : Hash) (x : Nat × String) : HmacCause R c B cfg s w m x → DiCause o s w (.setHmac m) x

end

/-! ### The model of errors belongs to that of the handlers -/

section
variable {R : MfgEnv} {c : Bool} {B : MStore} {cfg : Config R} {o : Oracle R} {s : Data R} {w : B.W}

/-- A result, and what is said about it: an answer, an error of the handler, a panic. -/
def Says {α : Type} : Res Err α → Option (Option Rejection) → Prop
  | .ok _, q => q = some none
  | .err _, q => ∃ x, q = some (some x)
  | .panic, q => q = none

theorem says_bind {α β : Type} {t : MsgType} {x : Res Err α} {f : α → Res Err β} {g : α → Option (Option Rejection)}
    (h : ∀ a, x = .ok a → Says (f a) (g a)) : Says (x >>= f) (orInternal t x g) := by
  cases x with
  | ok a => exact h a rfl
  | err e => exact ⟨_, rfl⟩
  | panic => rfl

theorem says_keep {k : Option Keys} {x : Res Err (Resp × Data R)} {q : Option (Option Rejection)} (h : Says x q) :
    Says (keep R k x) q := by
  cases x <;> exact h

theorem connect_says {m : Connect} : Says (connect R cfg o m s) (connectWhy R cfg o m) := by
  unfold connect connectWhy
  cases cfg.diun with
  | none => exact ⟨_, rfl⟩
  | some d =>
    cases o.kex with
    | none => exact ⟨_, rfl⟩
    | some kx =>
      obtain ⟨key, random⟩ := kx
      exact says_bind fun _ _ => says_bind fun _ _ => rfl

theorem deviceKey_says {info : String} {f : Bytes → Res Err (Resp × Data R)} {g : Bytes → Option (Option Rejection)}
    (h : ∀ d, Says (f d) (g d)) : Says (deviceKeyDer R cfg o info s >>= f) (deviceKeyWhy R cfg o info s g) := by
  unfold deviceKeyDer deviceKeyWhy
  cases s.deviceKey with
  | some k => exact h k
  | none =>
    simp only
    split
    · cases o.keys info.toList with
      | panic => rfl
      | err e => exact ⟨_, rfl⟩
      | ok k =>
        cases k with
        | none => exact ⟨_, rfl⟩
        | some k => exact h k
    · exact ⟨_, rfl⟩

theorem admitted_off : (!admitted R cfg s) = (!cfg.enableDi && !s.performed) := by
  unfold admitted
  cases cfg.enableDi <;> cases s.performed <;> rfl

theorem appStart_says {raw : Bytes} : Says (appStart R cfg o raw s) (appStartWhy R cfg o raw s) := by
  unfold appStart appStartWhy
  rw [admitted_off]
  split
  · exact ⟨_, rfl⟩
  cases R.decMfgInfo raw with
  | none => exact ⟨_, rfl⟩
  | some q =>
    cases q with
    | none => exact ⟨_, rfl⟩
    | some info =>
      refine deviceKey_says fun der => ?_
      unfold credentialsWhy
      cases R.keyFromDer der with
      | none => exact ⟨_, rfl⟩
      | some key =>
        simp only [ofOpt, Res.bind_ok]
        refine says_bind fun cert _ => ?_
        cases o.guid with
        | none => exact ⟨_, rfl⟩
        | some g =>
          simp only
          split
          · exact ⟨_, rfl⟩
          · exact says_bind fun _ _ => says_bind fun _ _ => rfl

theorem setHmac_says {m : Hash} : Says (setHmac R c B cfg m s w).2 (setHmacWhy R c B cfg m s w) := by
  unfold setHmac setHmacWhy
  rw [admitted_off]
  split
  · exact ⟨_, rfl⟩
  unfold sessionVoucher
  cases s.header with
  | none => exact ⟨_, rfl⟩
  | some t =>
    simp only
    cases hexDecode t with
    | none => exact ⟨_, rfl⟩
    | some hb =>
      simp only [ofOpt, Res.bind_ok]
      cases Header.deserialize R.E c hb with
      | err e => exact ⟨_, rfl⟩
      | panic => rfl
      | ok h =>
        simp only [Res.bind_ok, orInternal]
        cases s.chain with
        | none => exact ⟨_, rfl⟩
        | some ch =>
          simp only
          cases issue R c cfg h m ch with
          | err e => exact ⟨_, rfl⟩
          | panic => rfl
          | ok v =>
            simp only [Res.bind_ok]
            show Says (match Voucher.serialize v with
              | .err e => (w, Res.err e)
              | .panic => (w, .panic)
              | .ok b =>
                match B.put w (guidText h.guid) b with
                | (w, .ok ()) => (w, .ok (Resp.done, s))
                | (w, .err _) => (w, .err .inconsistentValue)
                | (w, .panic) => (w, .panic)).2 _
            cases Voucher.serialize v with
            | err e => exact ⟨_, rfl⟩
            | panic => rfl
            | ok b =>
              simp only
              rcases B.put w (guidText h.guid) b with ⟨w', q⟩
              cases q with
              | err e => exact ⟨_, rfl⟩
              | panic => rfl
              | ok u => rfl

/-- The manufacturing server answers, refuses or aborts just as the reasons say. -/
theorem mfg_says {r : Req} {k : Option Keys} : Says (MfgServer.handleRes R c B cfg o r s k w).2 (mfgWhy R c B cfg o r s w) := by
  cases r with
  | appStart info => exact says_keep appStart_says
  | setHmac m => exact says_keep setHmac_says
  | connect m => exact says_keep connect_says
  | requestKey =>
    show Says (requestKey R cfg s) (requestKeyWhy R cfg s)
    unfold requestKey requestKeyWhy
    cases cfg.diun with
    | none => exact ⟨_, rfl⟩
    | some d =>
      cases s.diunKeys with
      | none => exact ⟨_, rfl⟩
      | some k => rfl
  | provideKey key st =>
    refine says_keep (?_ : Says (provideKey R cfg key s) (provideKeyWhy R cfg))
    unfold provideKey provideKeyWhy
    cases cfg.diun with
    | none => exact ⟨_, rfl⟩
    | some d => rfl

/-! ### The reasons are true -/

theorem orInternal_refuses {α : Type} {t : MsgType} {y : Res Err α} {f : α → Option (Option Rejection)} {x : Rejection}
    (h : orInternal t y f = some (some x)) : (x = fromError t ∧ ∀ a, y ≠ .ok a) ∨ ∃ a, y = .ok a ∧ f a = some (some x) := by
  cases y with
  | ok a => exact .inr ⟨a, rfl, h⟩
  | err e => cases h; exact .inl ⟨rfl, nofun⟩
  | panic => cases h

/-- **C95**, DI.AppStart: each reason for refusing it is true, and the message is named. -/
theorem C95_start {raw : Bytes} {x : Rejection} (h : appStartWhy R cfg o raw s = some (some x)) :
    ∃ code text, x = .own code .diAppStart text ∧ StartCause R cfg o s raw (code, text) := by
  unfold appStartWhy at h
  split at h
  · rename_i ha
    cases h
    simp only [Bool.and_eq_true, Bool.not_eq_true'] at ha
    exact ⟨_, _, rfl, .off ha.1 ha.2⟩
  split at h
  · rename_i hi
    cases h
    exact ⟨_, _, rfl, .unreadable hi⟩
  · rename_i hi
    cases h
    exact ⟨_, _, rfl, .notText hi⟩
  rename_i info hi
  have cred : ∀ der, KeyFor R cfg o s info der → credentialsWhy R cfg o info der = some (some x) →
      ∃ code text, x = .own code .diAppStart text ∧ StartCause R cfg o s raw (code, text) := by
    intro der hd h
    unfold credentialsWhy at h
    split at h
    · rename_i hk
      cases h
      exact ⟨_, _, rfl, .badKey info der hi hd hk⟩
    rename_i key hk
    rcases orInternal_refuses h with ⟨rfl, hn⟩ | ⟨cert, hc, h⟩
    · cases hca : (R.certs cfg.caChain).head? with
      | none =>
        exfalso
        unfold deviceCert orInternal at h
        rw [hca] at h
        cases h
      | some ca =>
        refine ⟨_, _, rfl, .certificate info der key ca hi hd hk hca ?_⟩
        intro n hs
        cases hb : R.build ⟨info, ca, o.now, n, key⟩ cfg.caKey with
        | none => rfl
        | some cert =>
          refine absurd ?_ (hn cert)
          unfold deviceCert
          rw [hca]
          simp only [hs, hb]
          rfl
    split at h
    · rename_i hg
      cases h
      exact ⟨_, _, rfl, .random (by rw [hg]; exact nofun)⟩
    rename_i g hg
    split at h
    · rename_i hl
      cases h
      exact ⟨_, _, rfl, .random (by rw [hg]; intro g' hh; cases hh; exact hl)⟩
    rcases orInternal_refuses h with ⟨rfl, hn⟩ | ⟨hd', hh, h⟩
    · exact ⟨_, _, rfl, .header info g cert hi hg (fun h _ hh => absurd hh (hn h))⟩
    rcases orInternal_refuses h with ⟨rfl, hn⟩ | ⟨_, _, h⟩
    · refine ⟨_, _, rfl, .header info g cert hi hg (fun h b h1 h2 => ?_)⟩
      rw [hh] at h1
      cases h1
      exact hn b h2
    · cases h
  unfold deviceKeyWhy at h
  split at h
  · rename_i k hk
    exact cred k (.inl hk) h
  rename_i hk
  split at h
  · rename_i hst
    split at h
    · cases h
    · rename_i e he
      cases h
      exact ⟨_, _, rfl, .store info e hi hk he⟩
    · rename_i he
      cases h
      exact ⟨_, _, rfl, .noKey info hi hk (.inr he)⟩
    · rename_i k he
      exact cred k (.inr ⟨hk, hst, he⟩) h
  · rename_i hst
    cases h
    exact ⟨_, _, rfl, .noKey info hi hk (.inl (by simpa using hst))⟩

/-- **C95**, DI.SetHMAC: each reason for refusing it is true. (The message is not always named: `mixed`.) -/
theorem C95_hmac {m : Hash} {x : Rejection} (h : setHmacWhy R c B cfg m s w = some (some x)) :
    ∃ code t text, x = .own code t text ∧ (t = .diSetHmac ∧ code = 500 ∨ t = .diunRequestKeyParameters ∧ code = 101) ∧
      HmacCause R c B cfg s w m (code, text) := by
  unfold setHmacWhy at h
  split at h
  · rename_i ha
    cases h
    simp only [Bool.and_eq_true, Bool.not_eq_true'] at ha
    exact ⟨_, _, _, rfl, .inl ⟨rfl, rfl⟩, .off ha.1 ha.2⟩
  split at h
  · rename_i hh
    cases h
    exact ⟨_, _, _, rfl, .inr ⟨rfl, rfl⟩, .noHeader hh⟩
  rename_i t ht
  split at h
  · rename_i hx
    cases h
    exact ⟨_, _, _, rfl, .inl ⟨rfl, rfl⟩, .header t ht (by rw [hx]; exact nofun)⟩
  rename_i hb hx
  rcases orInternal_refuses h with ⟨rfl, hn⟩ | ⟨hd, hh, h⟩
  · refine ⟨_, _, _, rfl, .inl ⟨rfl, rfl⟩, .header t ht ?_⟩
    intro b hd h1
    rw [hx] at h1
    cases h1
    exact hn hd
  split at h
  · rename_i hc
    cases h
    exact ⟨_, _, _, rfl, .inr ⟨rfl, rfl⟩, .noChain (by rw [ht]; exact nofun) hc⟩
  rename_i ch hc
  rcases orInternal_refuses h with ⟨rfl, hn⟩ | ⟨v, hv, h⟩
  · exact ⟨_, _, _, rfl, .inl ⟨rfl, rfl⟩, .voucher t hb hd ch ht hx hh hc (fun v _ h1 => absurd h1 (hn v))⟩
  rcases orInternal_refuses h with ⟨rfl, hn⟩ | ⟨b, hs, h⟩
  · refine ⟨_, _, _, rfl, .inl ⟨rfl, rfl⟩, .voucher t hb hd ch ht hx hh hc (fun v' y h1 h2 => ?_)⟩
    rw [hv] at h1
    cases h1
    exact hn y h2
  split at h
  · cases h
  · rename_i e he
    cases h
    exact ⟨_, _, _, rfl, .inl ⟨rfl, rfl⟩, .store t hb b hd ch v e ht hx hh hc hv hs he⟩
  · cases h

/-- **C95**, the manufacturing server: each reason its handlers give is true. -/
theorem C95_manufacturing {r : Req} {x : Rejection} (h : mfgWhy R c B cfg o r s w = some (some x)) :
    ∃ code t text, x = .own code t text ∧ DiCause R c B cfg o s w r (code, text) := by
  cases r with
  | appStart raw =>
    obtain ⟨code, text, h1, h2⟩ := C95_start (show appStartWhy R cfg o raw s = _ from h)
    exact ⟨code, _, text, h1, .start raw _ h2⟩
  | setHmac m =>
    obtain ⟨code, t, text, h1, _, h2⟩ := C95_hmac (show setHmacWhy R c B cfg m s w = _ from h)
    exact ⟨code, t, text, h1, .hmac m _ h2⟩
  | connect m =>
    replace h : connectWhy R cfg o m = _ := h
    unfold connectWhy at h
    split at h
    · rename_i hd
      cases h
      exact ⟨_, _, _, rfl, .connectOff m hd⟩
    rename_i d hd
    split at h
    · rename_i hk
      cases h
      exact ⟨_, _, _, rfl, .connect m d hd (by rw [hk]; exact nofun)⟩
    rename_i key random hk
    rcases orInternal_refuses h with ⟨rfl, hn⟩ | ⟨k, h1, h⟩
    · refine ⟨_, _, _, rfl, .connect m d hd ?_⟩
      intro key' random' y t hkk hy
      rw [hk] at hkk
      cases hkk
      exact absurd hy (hn y)
    rcases orInternal_refuses h with ⟨rfl, hn⟩ | ⟨_, _, h⟩
    · refine ⟨_, _, _, rfl, .connect m d hd ?_⟩
      intro key' random' y t hkk _
      rw [hk] at hkk
      cases hkk
      exact hn t
    · cases h
  | requestKey =>
    replace h : requestKeyWhy R cfg s = _ := h
    unfold requestKeyWhy at h
    split at h
    · rename_i hd
      cases h
      exact ⟨_, _, _, rfl, .requestOff hd⟩
    split at h
    · rename_i hk
      cases h
      exact ⟨_, _, _, rfl, .noKeys hk⟩
    · cases h
  | provideKey key st =>
    replace h : provideKeyWhy R cfg = _ := h
    unfold provideKeyWhy at h
    split at h
    · rename_i hd
      cases h
      exact ⟨_, _, _, rfl, .provideOff key st hd⟩
    · cases h

/-! ### What is told belongs to the message -/

/-- The message of a request. -/
def diType : Req → MsgType
  | .appStart _ => .diAppStart
  | .setHmac _ => .diSetHmac
  | .connect _ => .diunConnect
  | .requestKey => .diunRequestKeyParameters
  | .provideKey _ _ => .diunProvideKey

theorem decode_di {t : MsgType} {b : Bytes} {r : Req} (h : MfgServer.decode R t b = some r) : diType r = t := by
  unfold MfgServer.decode at h
  split at h
  · obtain ⟨_, _, rfl⟩ := Option.map_eq_some_iff.1 h; rfl
  · obtain ⟨_, _, rfl⟩ := Option.map_eq_some_iff.1 h; rfl
  · obtain ⟨_, _, rfl⟩ := Option.map_eq_some_iff.1 h; rfl
  · split at h
    · cases h; rfl
    · cases h
  · obtain ⟨_, _, rfl⟩ := Option.map_eq_some_iff.1 h; rfl
  · cases h

theorem mfg_from {r : Req} {x : Rejection} (h : mfgWhy R c B cfg o r s w = some (some x)) : fromHandler (diType r) x = true := by
  cases r with
  | appStart raw =>
    show fromHandler .diAppStart x = true
    obtain ⟨code, text, rfl, hc⟩ := C95_start (show appStartWhy R cfg o raw s = _ from h)
    cases hc <;> decide
  | setHmac m =>
    show fromHandler .diSetHmac x = true
    obtain ⟨code, t, text, rfl, ⟨rfl, hk⟩ | ⟨rfl, hk⟩, hc⟩ := C95_hmac (show setHmacWhy R c B cfg m s w = _ from h)
    all_goals cases hc <;> first | (cases hk; done) | decide
  | connect m =>
    show fromHandler .diunConnect x = true
    replace h : connectWhy R cfg o m = _ := h
    unfold connectWhy orInternal at h
    repeat' split at h
    all_goals first | (cases h; done) | (cases h; decide)
  | requestKey =>
    show fromHandler .diunRequestKeyParameters x = true
    replace h : requestKeyWhy R cfg s = _ := h
    unfold requestKeyWhy at h
    repeat' split at h
    all_goals first | (cases h; done) | (cases h; decide)
  | provideKey key st =>
    show fromHandler .diunProvideKey x = true
    replace h : provideKeyWhy R cfg = _ := h
    unfold provideKeyWhy at h
    repeat' split at h
    all_goals first | (cases h; done) | (cases h; decide)

section server
variable {Id : Type} [DecidableEq Id] {idOf : List Char → Option Id} {aead : Aead} {encode : Resp → Bytes}

local notation "Srv" => MfgServer.server R c B cfg Id idOf aead encode

/-- **C95**, for requests to a manufacturing server: one that its handler refuses is answered with a reason that is true, and with nothing
but that reason. -/
theorem C95_di {σ : St Srv} {rq : Request Srv} {a : Accepted Srv}
    {x : Rejection} (ha : accept σ rq = some a) (h : mfgWhy R c B cfg rq.oracle a.req a.sess.data σ.world = some (some x)) :
    (step σ rq).2 = .reject ∧ why σ rq x = some x ∧ told x ∈ outcomes rq.type ∧
      ∃ code t text, x = .own code t text ∧ DiCause R c B cfg rq.oracle a.sess.data σ.world a.req (code, text) := by
  have hs := mfg_says (R := R) (c := c) (B := B) (cfg := cfg) (o := rq.oracle) (r := a.req) (s := a.sess.data) (k := a.sess.keys) (w := σ.world)
  have hw : why σ rq x = some x := by
    unfold why
    rw [ha]
    simp only
    generalize MfgServer.handleRes R c B cfg rq.oracle a.req a.sess.data a.sess.keys σ.world = q at hs ⊢
    obtain ⟨w', q⟩ := q
    rw [h] at hs
    cases q with
    | ok y => cases hs
    | err e => rfl
    | panic => cases hs
  have ht : diType a.req = rq.type := by
    obtain ⟨plain, _, hd⟩ := MfgServer.accept_decrypts ha
    exact decode_di hd
  have hf := mfg_from h
  rw [ht] at hf
  exact ⟨(C94_refused σ rq x).2 ⟨x, hw⟩, hw, why_outcome hf hw, C95_manufacturing h⟩

/-! ### Messages out of order -/

/-- What the last answer says about the session. -/
structure InOrder (s : Sess Srv) : Prop where
  accepted : s.last = some .diunAccept → s.data.diunKeys ≠ none
  started : s.last = some .diSetCredentials → s.data.header ≠ none ∧ s.data.chain ≠ none

theorem in_order (h : Hist R c B cfg idOf aead encode) :
    ∀ rq a, accept (MfgServer.reached R c B cfg idOf aead encode h) rq = some a → InOrder (R := R) (B := B) (cfg := cfg) a.sess := by
  refine (Http.session_invariant (MfgServer.move B) (Sv := Srv) B.empty
    (fun _ _ s => InOrder (R := R) (B := B) (cfg := cfg) s) ?_ ?_ ?_ h).2
  · intro i h
    exact ⟨fun hn => (nomatch hn), fun hn => (nomatch hn)⟩
  · intro i h e s q _
    exact q
  · intro h rq a w resp data keys ha hh _ q
    rw [server_handle] at hh
    simp only [Prod.mk.injEq] at hh
    obtain ⟨_, hh⟩ := hh
    have hh := answer_some hh
    rcases accepted_cases ha with ⟨_, hom, _, _, raw, _, _, hr⟩ | ⟨_, hom, _, _, m, _, _, hr⟩ |
      ⟨_, hom, _, m, _, hr⟩ | ⟨_, hom, _, hr⟩ | ⟨_, hom, _, k, _, der, st, _, _, _, hr⟩
    · rw [hr] at hh
      obtain ⟨hx, rfl⟩ := keep_ok hh
      obtain ⟨info, der, g, hb, _, _, _, _, _, hp, _⟩ := appStart_ok hx
      refine ⟨fun hl => ?_, fun _ => ?_⟩
      · rw [hom] at hl; cases hl
      · obtain ⟨_, dev, _, _, _, _, _, hc, _⟩ := hp.rest
        exact ⟨fun hn => (by rw [hp.hex] at hn; cases hn), fun hn => (by rw [hc] at hn; cases hn)⟩
    · refine ⟨fun hl => ?_, fun hl => ?_⟩ <;> rw [hom] at hl <;> cases hl
    · rw [hr] at hh
      obtain ⟨hx, rfl⟩ := keep_ok hh
      obtain ⟨d, key, random, k, token, hd, hkx, hk, hresp, rfl⟩ := connect_ok hx
      refine ⟨fun _ => nofun, fun hl => ?_⟩
      rw [hom] at hl; cases hl
    · refine ⟨fun hl => ?_, fun hl => ?_⟩ <;> rw [hom] at hl <;> cases hl
    · refine ⟨fun hl => ?_, fun hl => ?_⟩ <;> rw [hom] at hl <;> cases hl

/-- **C95**, whatever happened before: a manufacturing server's handlers never tell a device that its messages are out of order (code 101);
the filter has found that out before. And they name the message that they refuse. -/
theorem C95_in_order (h : Hist R c B cfg idOf aead encode) {rq : Request Srv} {a : Accepted Srv} {code : Nat} {t : MsgType} {text : String}
    (ha : accept (MfgServer.reached R c B cfg idOf aead encode h) rq = some a)
    (hw : mfgWhy R c B cfg rq.oracle a.req a.sess.data (MfgServer.reached R c B cfg idOf aead encode h).world = some (some (.own code t text))) :
    code = 500 ∧ t = rq.type := by
  have q := in_order h rq a ha
  rcases accepted_cases ha with ⟨h1, _, _, _, raw, _, _, hr⟩ | ⟨h1, _, hl, _, m, _, _, hr⟩ |
    ⟨h1, _, _, m, _, hr⟩ | ⟨h1, _, hl, hr⟩ | ⟨h1, _, _, k, _, der, st, _, _, _, hr⟩
  · rw [hr] at hw
    obtain ⟨code', text', e, hc⟩ := C95_start (show appStartWhy R cfg rq.oracle raw a.sess.data = _ from hw)
    cases e
    rw [h1]
    cases hc <;> exact ⟨rfl, rfl⟩
  · rw [hr] at hw
    obtain ⟨code', t', text', e, ht', hc⟩ := C95_hmac (show setHmacWhy R c B cfg m a.sess.data _ = _ from hw)
    cases e
    rw [h1]
    rcases ht' with ⟨rfl, rfl⟩ | ⟨rfl, rfl⟩
    · exact ⟨rfl, rfl⟩
    · cases hc with
      | noHeader h => exact absurd h (q.started hl).1
      | noChain _ h => exact absurd h (q.started hl).2
  · rw [hr] at hw
    replace hw : connectWhy R cfg rq.oracle m = _ := hw
    rw [h1]
    unfold connectWhy orInternal at hw
    repeat' split at hw
    all_goals first | (cases hw; done) | (cases hw; exact ⟨rfl, rfl⟩)
  · rw [hr] at hw
    replace hw : requestKeyWhy R cfg a.sess.data = _ := hw
    rw [h1]
    unfold requestKeyWhy at hw
    split at hw
    · cases hw; exact ⟨rfl, rfl⟩
    split at hw
    · rename_i hn; exact absurd hn (q.accepted hl)
    · cases hw
  · rw [hr] at hw
    replace hw : provideKeyWhy R cfg = _ := hw
    rw [h1]
    unfold provideKeyWhy at hw
    split at hw
    · cases hw; exact ⟨rfl, rfl⟩
    · cases hw

end server

/-! ### What fails -/

/-- What fails: a device that gave something else than a key in DIUN is told of an internal error of the server in DI. -/
theorem C95_key_violated {raw der : Bytes} {info : String} (h1 : cfg.enableDi = true ∨ s.performed = true)
    (h2 : R.decMfgInfo raw = some (some info)) (h3 : s.deviceKey = some der) (h4 : R.keyFromDer der = none) :
    appStartWhy R cfg o raw s = some (some (.own 500 .diAppStart "Internal server error")) := by
  unfold appStartWhy
  rw [if_neg (by rcases h1 with h | h <;> simp [h])]
  unfold deviceKeyWhy credentialsWhy
  simp only [h2, h3, h4]
  rfl

end
end Verif.Errors

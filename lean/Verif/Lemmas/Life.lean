import Verif.Spec.Life
import Verif.Lemmas.Canonical
import Verif.Props.MfgRun
import Verif.Props.To0
import Verif.Props.Onboard
import Verif.Props.DeviceEnd
/-!
Facts used by `Props/Life`: what the manufacturing server's voucher becomes by transfers, and how the device's client runs.
-/
namespace Verif.Life
open Verif Verif.Voucher Verif.Store Verif.Types Verif.Cbor.Spec

variable {R : Whole} {c : Bool}

/-! ### The voucher -/

theorem lastOwner_eq {E : Env} (k : E.Pub) (ps : List (Payload E)) : lastOwner k ps = ((ps.map (·.publicKey)).getLast?).getD k := by
  induction ps generalizing k with
  | nil => rfl
  | cons p ps ih =>
    rw [lastOwner, ih, List.map_cons, List.getLast?_cons]
    rfl

theorem lastOwner_append' {E : Env} (k : E.Pub) (ps qs : List (Payload E)) : lastOwner k (ps ++ qs) = lastOwner (lastOwner k ps) qs := by
  induction ps generalizing k with
  | nil => rfl
  | cons p ps ih => exact ih _

theorem lastOwner_after {E : Env} {o : E.Pub} {steps : List (Step E)} {qs : List (Payload E)}
    (h : qs.map (·.publicKey) = steps.map (·.2.2)) : lastOwner o qs = ownerAfter o steps := by
  rw [lastOwner_eq, h, List.getLast?_map]
  rfl

variable {mcfg : MfgServer.Config R.mfg} {cfg : OwnerServer.Config R.toOwnerEnv} {rcfg : RvServer.Config R.toRvEnv}

theorem trusted_ok {R : RvServer.RvEnv} {cfg : RvServer.Config R} {ch : R.E.Chain} {x ca : R.C.Cert} {l : List R.C.Cert}
    (hc : R.certs ch = x :: l) (hl : l.head? = some ca) (hi : R.C.issued ca x = true) {k : R.C.Key} (hk : R.C.publicKey ca = some k)
    (hv : R.C.verify x k = some true) (hb : ∀ b, cfg.deviceKeys = some b → ca ∈ b) : RvServer.verifyDevice R cfg ch = .ok x := by
  obtain ⟨r, rfl⟩ : ∃ r, l = ca :: r := by
    cases l with
    | nil => cases hl
    | cons a r => cases hl; exact ⟨r, rfl⟩
  unfold RvServer.verifyDevice
  rw [hc]
  cases hd : cfg.deviceKeys with
  | none => simp [Rendezvous.insecureVerify, Rendezvous.chainVerify, Rendezvous.chainLoop, hi, hk, hv]
  | some b =>
    have hm : R.certDigest ca ∈ b.map R.certDigest := List.mem_map_of_mem (hb b hd)
    simp only [Rendezvous.verifyFromBag, Rendezvous.chainVerify, Rendezvous.chainLoop, hi, hk, hv, decide_eq_true hm]
    rfl

/-- The manufacturer's voucher `v`, and what became of it by transfers, `v'`. -/
structure Passed (c : Bool) (v v' : Voucher R.E) (ps : List (Payload R.E)) : Prop where
  canonical : Canonical c v'
  verified : verifyAll c v' = .ok ps
  header : v'.header = v.header
  hmac : v'.hmac = v.hmac
  chain : v'.chain = v.chain
  others : ∀ i, i ≠ 4 → v'.contents.contents[i]? = v.contents.contents[i]?

theorem Passed.parts {v v' : Voucher R.E} {ps : List (Payload R.E)} (p : Passed c v v' ps) {cr : Credential.Cred}
    (m : MfgClient.Matches (R := R.cli) cr v) :
    ∃ hb, getLeaf R.E.decBytes v'.contents 1 = .ok hb ∧ Header.deserialize R.E c hb = .ok v'.header ∧
      Device.MadeWith R.H cr.keys hb v'.hmac ∧ hdrBytes v' = .ok (hb ++ R.E.encHash v'.hmac) ∧
      SignChain R.E c (v'.header.guid ++ v'.header.deviceInfo.toUTF8.toList) v'.header.mfgKey (hb ++ R.E.encHash v'.hmac)
        v'.entries.contents ps := by
  obtain ⟨hb, h1, h2⟩ := m.hmac
  have h1' : getLeaf R.E.decBytes v'.contents 1 = .ok hb := by
    have h1 : getLeaf R.E.decBytes v.contents 1 = .ok hb := h1
    unfold getLeaf at h1 ⊢
    rw [p.others 1 (by omega)]
    exact h1
  obtain ⟨hb', h3, h4⟩ := p.canonical.written.wf.header
  rw [h1'] at h3
  cases h3
  have hh : hdrBytes v' = .ok (hb ++ R.E.encHash v'.hmac) := by
    unfold hdrBytes
    rw [h1', Res.bind_ok]
    unfold getRaw
    rw [p.canonical.hmac]
    rfl
  refine ⟨hb, h1', h4, ?_, hh, (verifyAll_iff p.canonical.written.wf.info hh ps).1 p.verified⟩
  rw [p.hmac]
  exact Device.verifyHmac_ok h2

/-- The voucher is one for the device and its last owner. -/
theorem Passed.voucherFor {v v' : Voucher R.E} {ps : List (Payload R.E)} (p : Passed c v v' ps) {cr : Credential.Cred}
    (m : MfgClient.Matches (R := R.cli) cr v) {dev owner : R.E.Pub} (ho : lastOwner v'.header.mfgKey ps = owner)
    (hs : ∀ hb, getLeaf R.E.decBytes v'.contents 1 = .ok hb → hb.length < 2 ^ 32)
    (hn : v'.entries.contents ≠ []) (hf : v'.entries.contents.length ≤ 255)
    (hk : OwnerServer.voucherKey R.toOwnerEnv v' = some dev) : Device.VoucherFor R.toDevEnv c cr dev owner v' := by
  obtain ⟨hb, h1, h2, h3, h4, h5⟩ := p.parts m
  refine ⟨⟨hb, v'.header, _, ps, h1, hs hb h1, h2, h3, p.canonical.key, ?_, h5, ho⟩, hn, hf, p.canonical.form, hk⟩
  have hk := m.key
  rw [← p.header] at hk
  rw [hk]
  exact ⟨rfl, rfl⟩

/-- The certificates of the manufacturer's voucher are accepted. -/
theorem certified {v : Voucher R.E} {info : String} {der : Bytes} {dev : R.E.Pub} (L : MfgServer.Laws R.mfg mcfg)
    (T : Trust mcfg cfg rcfg) (h : MfgServer.Certifies R.mfg mcfg v info der) (hk : KeyOf mcfg der dev) :
    OwnerServer.voucherKey R.toOwnerEnv v = some dev ∧
    ∃ ch x leaf, v.chain = some ch ∧ RvServer.verifyDevice R.toRvEnv ⟨0, none, cfg.deviceKeys⟩ ch = .ok x ∧
      RvServer.verifyDevice R.toRvEnv rcfg ch = .ok leaf ∧ R.certPub leaf = some dev := by
  obtain ⟨ch, ca, x, f, key, ds, h1, h2, h3, h4, h5, h6, h7, h8, h9, h10⟩ := h
  have hf : R.C.publicKey x = some f.key := L.built _ _ _ h4
  have hkey : f.key = key := Option.some.inj (hf.symm.trans h8)
  obtain ⟨k1, k2⟩ := hk f x h4 (hkey ▸ h7)
  have hhd : (R.certs mcfg.caChain).head? = some f.issuer := h5.symm ▸ h2
  obtain ⟨i1, k, i2, i3⟩ := T.issues f x h4 hhd
  have h3 : R.certs ch = x :: R.certs mcfg.caChain := h3
  refine ⟨?_, ch, x, x, h1, ?_, ?_, k1⟩
  · simp only [OwnerServer.voucherKey, h1, h3, List.head?_cons]
    exact k2
  · exact trusted_ok h3 hhd i1 i2 i3 fun b hb => T.owner b _ hb hhd
  · exact trusted_ok h3 hhd i1 i2 i3 fun b hb => T.rendezvous b _ hb hhd

/-- Owner and rendezvous server accept the voucher. -/
theorem Passed.accepts {v v' : Voucher R.E} {ps : List (Payload R.E)} (p : Passed c v v' ps) {cr : Credential.Cred}
    (m : MfgClient.Matches (R := R.cli) cr v) (L : MfgServer.Laws R.mfg mcfg) (T : Trust mcfg cfg rcfg) {info : String} {der : Bytes}
    (hc : MfgServer.Certifies R.mfg mcfg v info der) {dev : R.E.Pub} (hk : KeyOf mcfg der dev)
    (hmk : R.certPub mcfg.mfgCert = some v.header.mfgKey)
    (ho : lastOwner v'.header.mfgKey ps = cfg.ownerPub) (hn : v'.entries.contents ≠ [])
    (hs : ∀ n b, n.length = 16 → OwnerServer.buildTo0d R.toOwnerEnv v' cfg.period n = .ok b → b.length < 2 ^ 63) :
    To0.Accepts R.toOwnerEnv c cfg rcfg dev v' := by
  obtain ⟨hb, h1, h2, h3, h4, h5⟩ := p.parts m
  obtain ⟨_, ch, x, leaf, c1, c2, c3, c4⟩ := certified L T hc hk
  refine ⟨p.canonical.written, p.canonical.guid, p.canonical.headerVersion, ⟨_, _, ps, h4, p.canonical.written.wf.info, h5, ?_, ho⟩,
    ⟨ch, x, leaf, by rw [p.chain]; exact c1, c2, c3, c4⟩, ?_, hs⟩
  · rintro rfl
    cases hv : v'.entries.contents with
    | nil => exact hn hv
    | cons a l =>
      rw [hv] at h5
      cases h5
  · intro bag hb
    obtain ⟨m1, m2⟩ := T.manufacturer bag hb
    obtain ⟨k, hk⟩ := m2 _ m1
    refine ⟨m2, _, m1, k, hk, ?_⟩
    rw [p.header]
    exact T.same _ _ hmk hk

/-- The chain of a new voucher. -/
theorem first_owner {v : Voucher R.E} (w : Canonical c v) (h : MfgServer.OwnedAsConfigured R.mfg c mcfg v) {o : R.E.Pub} (ho : FirstOwner mcfg o) :
    ∃ ps, verifyAll c v = .ok ps ∧ lastOwner v.header.mfgKey ps = o ∧ v.entries.contents.length = ps.length ∧
      ps.length = if mcfg.owner.isSome then 1 else 0 := by
  obtain ⟨h1, h2⟩ := h
  have h1 : R.certPub mcfg.mfgCert = some v.header.mfgKey := h1
  unfold FirstOwner at ho
  cases hm : mcfg.owner with
  | none =>
    rw [hm] at h2 ho
    have h2 : v.entries.contents = [] := h2
    refine ⟨[], by unfold verifyAll; rw [h2]; rfl, ?_, by rw [h2]; rfl, rfl⟩
    exact Option.some.inj (h1.symm.trans ho)
  | some x =>
    rw [hm] at h2 ho
    obtain ⟨p, h2, h3⟩ := h2
    have ho : x = o := ho
    obtain ⟨d, hd⟩ := w.written.wf.hdr
    exact ⟨[p], h2, h3.trans ho, ((verifyAll_iff w.written.wf.info hd _).1 h2).length, rfl⟩

/-- The voucher after transfers. -/
theorem transferred (C : CodecLaws R.E) {v : Voucher R.E} (w : Canonical c v) {ps : List (Payload R.E)} (hv : verifyAll c v = .ok ps)
    {o : R.E.Pub} (ho : lastOwner v.header.mfgKey ps = o) {steps : List (Step R.E)} (hn : v.entries.contents.length + steps.length ≤ 65535)
    (hk : ∀ st ∈ steps, GoodKey R.E st.1 ∧ SmallPayload R.E st.2.1 st.2.2) (hs : OwnerSteps o steps) :
    ∃ v' qs, extendMany c v steps = (v', .ok ()) ∧ Passed c v v' qs ∧ lastOwner v'.header.mfgKey qs = ownerAfter o steps ∧
      v'.entries.contents.length = v.entries.contents.length + steps.length := by
  obtain ⟨v', ps', b1, b2, b3, b4, b5, b6, b7, b8, b9⟩ := w.extendMany C steps hn hv hk (ho ▸ hs)
  refine ⟨v', ps ++ ps', b1, ⟨b2, b3, b6, b7, b8, b9⟩, ?_, b5⟩
  rw [lastOwner_append', b6, ho]
  exact lastOwner_after b4

/-! ### The device's client -/

section
open Verif.Device
variable {A : Http.Aead} {w : Credential.Surroundings} {h : SiClient.Host} {l : Credential.Location} {cr : Credential.Cred}

/-- Not `Turns`. -/
def Inside (e : (sig R.toDevEnv).Eff) : Prop := ¬ Turns e

theorem inside_iv : Inside (R := R) .iv := id
theorem inside_net (s : Http.Sent) : Inside (R := R) (.net s) := id

theorem inside_say {α : Type} {dec : Bytes → Option α} {cl : Http.Client} {om sm : MsgType} {plain : Bytes}
    {nk : Option (Option Http.Keys)} : Prog.Only (S := sig R.toDevEnv) Inside (say A dec cl om sm plain nk : Device.Step R.toDevEnv _) :=
  only_say inside_iv fun s _ => inside_net s

theorem inside_entries : ∀ (k : Nat) {cl : Http.Client} {i : Nat} {got : List Bytes},
    Prog.Only (S := sig R.toDevEnv) Inside (entriesFrom (R := R.toDevEnv) c A cl i got k)
  | 0, _, _, _ => Proc.only_pure
  | k + 1, _, _, _ => Proc.only_bind inside_say fun _ => Proc.only_bind Proc.only_check fun _ => inside_entries k

theorem inside_to2 {cl : Http.Client} {to1d : Sign1} :
    Prog.Only (S := sig R.toDevEnv) Inside (to2 c A w h l cr to1d cl : Device.Step R.toDevEnv _) :=
  Proc.only_bind (Proc.only_bind (only_freshNonce id) fun _ =>
    Proc.only_bind (Proc.only_bind inside_say fun _ =>
      Proc.only_bind only_given fun _ => Proc.only_bind Proc.only_some? fun _ => Proc.only_pure) fun _ =>
    Proc.only_bind (Proc.only_bind (inside_entries _) fun _ => Proc.only_bind only_given fun _ => Proc.only_pure) fun _ =>
    Proc.only_bind (Proc.only_bind Proc.only_some? fun _ => Proc.only_bind (Http.only_app (X := ops R.toDevEnv) id) fun _ =>
      Proc.only_bind Proc.only_some? fun _ => Proc.only_bind only_given fun _ => Proc.only_pure) fun _ =>
      Proc.only_pure) fun _ =>
  Proc.only_bind (only_freshNonce id) fun _ =>
  Proc.only_bind (Proc.only_bind (only_signToken id) fun _ => Proc.only_bind inside_say fun _ => Proc.only_pure) fun _ =>
  Proc.only_bind (Proc.only_bind inside_say fun _ => Proc.only_pure) fun _ =>
  Proc.only_bind (only_serviceInfos (fun _ _ => id) inside_iv fun s _ => inside_net s) fun _ =>
  Proc.only_bind (Proc.only_bind (Proc.only_mapErr (only_files (fun _ => id) _)) fun _ =>
    Proc.only_mapErr (only_files (fun _ => id) _)) fun _ =>
  Proc.only_bind (Proc.only_bind inside_say fun _ => Proc.only_check) fun _ => Proc.only_pure

theorem inside_to1 {cl : Http.Client} : Prog.Only (S := sig R.toDevEnv) Inside (to1 c A cr cl : Device.Step R.toDevEnv _) :=
  Proc.only_bind (Proc.only_bind inside_say fun _ =>
    Proc.only_bind Proc.only_check fun _ => Proc.only_bind (only_signToken id) fun _ => Proc.only_pure) fun _ =>
  Proc.only_bind inside_say fun _ => Proc.only_pure

theorem inside_reporting {α : Type} {p : Device.Step R.toDevEnv α} (hp : Prog.Only (S := sig R.toDevEnv) Inside p) :
    Prog.Only (S := sig R.toDevEnv) Inside (Proc.attempt (reporting A p)) :=
  Proc.only_attempt (only_reporting hp id inside_iv fun s _ => inside_net s)

/-- One attempt, and something else if it fails. -/
def orElse {α : Type} (A : Http.Aead) (p : Device.Step R.toDevEnv α) (q : Proc (sig R.toDevEnv) DevErr (Option α)) :
    Proc (sig R.toDevEnv) DevErr (Option α) := do
  let s ← Proc.attempt (reporting A p)
  match s with
  | some s => pure (some s)
  | none => q

theorem orElse_ends {α : Type} {p : Device.Step R.toDevEnv α} {q : Proc (sig R.toDevEnv) DevErr (Option α)}
    (hp : Prog.Only (S := sig R.toDevEnv) Inside p) (hq : ∀ t r, Prog.Ends q t r → ∀ d ∈ t.head?, Turns d.1)
    {t : Trace (sig R.toDevEnv)} {r : Res DevErr (Option α)} (he : Prog.Ends (orElse A p q) t r) :
    ∃ b b' post s r', t = (b ++ b') ++ post ∧ (∀ d ∈ b ++ b', ¬ Turns d.1) ∧ (∀ d ∈ post.head?, Turns d.1) ∧
      Prog.Ends p b s ∧ (∀ x, s = .ok x → b' = [] ∧ post = [] ∧ r = .ok (some x)) ∧
      Prog.Ends (orElse A p (pure none)) (b ++ b') r' ∧ ∀ x, r' = .ok (some x) → post = [] ∧ r = r' := by
  obtain ⟨x1, a, post, rfl, h1, h2⟩ := Prog.ends_bind he
  have ha : ∀ d ∈ a, ¬ Turns d.1 := inside_reporting hp a ⟨_, h1⟩
  have hpost : (∀ d ∈ post.head?, Turns d.1) ∧ ∃ r', Prog.Ends (orElse A p (pure none)) a r' ∧ ∀ x, r' = .ok (some x) → post = [] ∧ r = r' := by
    match x1, h1, h2 with
    | .ok (some s), h1, h2 =>
      obtain ⟨rfl, rfl⟩ := Prog.ends_ret h2
      have : Prog.Ends (orElse A p (pure none)) (a ++ []) (.ok (some s)) := Prog.bind_steps h1 (.nil _)
      rw [List.append_nil] at this
      exact ⟨nofun, _, this, fun _ _ => ⟨rfl, rfl⟩⟩
    | .ok none, h1, h2 =>
      have : Prog.Ends (orElse A p (pure none)) (a ++ []) (.ok none) := Prog.bind_steps h1 (.nil _)
      rw [List.append_nil] at this
      exact ⟨hq _ _ h2, _, this, nofun⟩
    | .err e, h1, h2 =>
      obtain ⟨rfl, rfl⟩ := Prog.ends_ret h2
      have : Prog.Ends (orElse A p (pure none)) (a ++ []) (.err e) := Prog.bind_steps h1 (.nil _)
      rw [List.append_nil] at this
      exact ⟨nofun, _, this, nofun⟩
    | .panic, h1, h2 =>
      obtain ⟨rfl, rfl⟩ := Prog.ends_ret h2
      have : Prog.Ends (orElse A p (pure none)) (a ++ []) .panic := Prog.bind_steps h1 (.nil _)
      rw [List.append_nil] at this
      exact ⟨nofun, _, this, nofun⟩
  obtain ⟨x2, b1, b2, rfl, h3, h4⟩ := Prog.ends_bind h1
  obtain ⟨x3, b3, b4, rfl, h5, h6⟩ := Prog.ends_bind h3
  obtain ⟨hpost, r', hr, hr'⟩ := hpost
  refine ⟨b3, b4 ++ b2, post, x3, r', by simp, by simpa using ha, hpost, h5, ?_, by simpa using hr, hr'⟩
  rintro x rfl
  obtain ⟨rfl, rfl⟩ := Prog.ends_ret h6
  obtain ⟨rfl, rfl⟩ := Prog.ends_ret h4
  obtain ⟨rfl, rfl⟩ := Prog.ends_ret h2
  exact ⟨rfl, rfl, rfl⟩

theorem app_bind {α : Type} {o : Op} {f : (sig R.toDevEnv).Ans (.app o) → Proc (sig R.toDevEnv) DevErr α} :
    (Http.app (X := ops R.toDevEnv) o >>= f : Proc (sig R.toDevEnv) DevErr α) = (Prog.act (.app o) f : Prog (sig R.toDevEnv) _) := rfl

theorem getTo1d_cons {u : String} {us : List String} :
    getTo1d c A cr (u :: us) = (Prog.act (.app (.connect u)) fun _ => orElse A (to1 c A cr .new) (getTo1d c A cr us) : Proc (sig R.toDevEnv) _ _) := by
  conv_lhs => unfold getTo1d
  unfold orElse
  refine Eq.trans app_bind (congrArg (Prog.act _) (funext fun _ => ?_))
  congr 1
  funext s
  cases s <;> rfl

theorem tryAddrs_cons {u : String} {us : List String} {to1d : Sign1} :
    tryAddrs c A w h l cr to1d (u :: us) =
      (Prog.act (.app (.connect u)) fun _ => orElse A (to2 c A w h l cr to1d .new) (tryAddrs c A w h l cr to1d us) : Proc (sig R.toDevEnv) _ _) := by
  conv_lhs => unfold tryAddrs
  unfold orElse
  refine Eq.trans app_bind (congrArg (Prog.act _) (funext fun _ => ?_))
  congr 1
  funext s
  cases s <;> rfl

/-- Ended runs of `p` begin with a deed that ends a conversation. -/
def Head {α : Type} (p : Prog (sig R.toDevEnv) α) : Prop := ∀ t r, Prog.Ends p t r → ∀ d ∈ t.head?, Turns d.1

theorem head_ret {α : Type} {a : α} : Head (R := R) (.ret a) := by
  intro t r he
  obtain ⟨rfl, _⟩ := Prog.ends_ret he
  exact nofun

theorem head_act {α : Type} {e : (sig R.toDevEnv).Eff} {k : (sig R.toDevEnv).Ans e → Prog (sig R.toDevEnv) α} (h : Turns e) : Head (.act e k) := by
  intro t r he
  obtain ⟨_, t1, rfl, _⟩ := Prog.ends_act he
  intro d hd
  cases hd
  exact h

theorem head_append {S : Sig} {P : S.Eff → Prop} {t1 t2 : Trace S} (h1 : ∀ d ∈ t1.head?, P d.1) (h2 : ∀ d ∈ t2.head?, P d.1) :
    ∀ d ∈ (t1 ++ t2).head?, P d.1 := by
  cases t1 with
  | nil => exact h2
  | cons d t => exact h1

theorem head_bind {α β : Type} {p : Prog (sig R.toDevEnv) α} {f : α → Prog (sig R.toDevEnv) β} (hp : Head p) (hf : ∀ a, Head (f a)) :
    Head (Prog.bind p f) := by
  intro t r he
  obtain ⟨x, t1, t2, rfl, h1, h2⟩ := Prog.ends_bind he
  exact head_append (hp _ _ h1) (hf _ _ _ h2)

theorem head_proc {α β : Type} {p : Proc (sig R.toDevEnv) DevErr α} {f : α → Proc (sig R.toDevEnv) DevErr β} (hp : Head p)
    (hf : ∀ a, Head (f a)) : Head (p >>= f : Proc (sig R.toDevEnv) DevErr β) :=
  head_bind hp fun x => by
    cases x with
    | ok a => exact hf a
    | err e => exact head_ret
    | panic => exact head_ret

theorem getTo1d_head {us : List String} : Head (R := R) (getTo1d c A cr us) := by
  cases us with
  | nil => exact head_ret
  | cons v us =>
    rw [getTo1d_cons]
    exact head_act trivial

theorem tryAddrs_head {us : List String} {to1d : Sign1} : Head (R := R) (tryAddrs c A w h l cr to1d us) := by
  cases us with
  | nil => exact head_ret
  | cons v us =>
    rw [tryAddrs_cons]
    exact head_act trivial

/-- Asking the first of several rendezvous servers. -/
theorem getTo1d_first {u : String} {us : List String} {t : Trace (sig R.toDevEnv)} {r : Res DevErr (Option Sign1)}
    (he : Prog.Ends (getTo1d c A cr (u :: us)) t r) :
    ∃ a post s, t = connected u :: (a ++ post) ∧ (∀ d ∈ a, ¬ Turns d.1) ∧ (∀ d ∈ post.head?, Turns d.1) ∧
      Prog.Ends (getTo1d c A cr [u]) (connected u :: a) s ∧ ∀ x, s = .ok (some x) → post = [] ∧ r = s := by
  rw [getTo1d_cons] at he
  obtain ⟨y, t1, rfl, he2⟩ := Prog.ends_act he
  obtain ⟨b, b', post, s, r', rfl, h1, h2, h3, h4, h5, h6⟩ := orElse_ends inside_to1 getTo1d_head he2
  refine ⟨b ++ b', post, r', rfl, h1, h2, ?_, h6⟩
  rw [getTo1d_cons]
  exact .cons h5

/-- TO2 with the first of several addresses. -/
theorem tryAddrs_first {u : String} {us : List String} {to1d : Sign1} {t : Trace (sig R.toDevEnv)} {r : Res DevErr (Option Bool)}
    (he : Prog.Ends (tryAddrs c A w h l cr to1d (u :: us)) t r) :
    ∃ b b' post s, t = connected u :: ((b ++ b') ++ post) ∧ (∀ d ∈ b ++ b', ¬ Turns d.1) ∧ (∀ d ∈ post.head?, Turns d.1) ∧
      Prog.Ends (to2 c A w h l cr to1d .new : Device.Step R.toDevEnv _) b s ∧
      ∀ x, s = .ok x → b' = [] ∧ post = [] ∧ r = .ok (some x) := by
  rw [tryAddrs_cons] at he
  obtain ⟨y, t1, rfl, he2⟩ := Prog.ends_act he
  obtain ⟨b, b', post, s, r', rfl, h1, h2, h3, h4, h5, h6⟩ := orElse_ends inside_to2 tryAddrs_head he2
  exact ⟨b, b', post, s, rfl, h1, h2, h3, h4⟩

/-- What is done with the answer of a rendezvous server. -/
def follow (w : Credential.Surroundings) (h : SiClient.Host) (l : Credential.Location) (cr : Credential.Cred) (c : Bool) (A : Http.Aead)
    (is : List Rendezvous.Interp) (s : Option Sign1) : Proc (sig R.toDevEnv) DevErr (Option Bool) :=
  match s with
  | none => tryEntries c A w h l cr is
  | some s =>
    match R.decAddrs s.payload with
    | none => tryEntries c A w h l cr is
    | some as => do
      let b ← tryAddrs c A w h l cr s (to2Urls (R := R.toDevEnv) as)
      match b with
      | some b => pure (some b)
      | none => tryEntries c A w h l cr is

theorem tryEntries_cons {i : Rendezvous.Interp} {is : List Rendezvous.Interp} :
    tryEntries c A w h l cr (i :: is) =
      (match clientUrls (R := R.toDevEnv) i with
      | none => tryEntries c A w h l cr is
      | some us => getTo1d c A cr us >>= follow w h l cr c A is : Proc (sig R.toDevEnv) _ _) := rfl

theorem head_follow {is : List Rendezvous.Interp} (ih : Head (R := R) (tryEntries c A w h l cr is)) (s : Option Sign1) :
    Head (follow (R := R) w h l cr c A is s) := by
  unfold follow
  cases s with
  | none => exact ih
  | some s =>
    dsimp only
    cases R.decAddrs s.payload with
    | none => exact ih
    | some as =>
      refine head_proc tryAddrs_head fun b => ?_
      cases b with
      | none => exact ih
      | some b => exact head_ret

theorem tryEntries_head {is : List Rendezvous.Interp} : Head (R := R) (tryEntries c A w h l cr is) := by
  induction is with
  | nil => exact head_ret
  | cons i is ih =>
    rw [tryEntries_cons]
    cases clientUrls (R := R.toDevEnv) i with
    | none => exact ih
    | some us => exact head_proc getTo1d_head (head_follow ih)

/-- What is done when all directives have been tried. -/
def again (w : Credential.Surroundings) (h : SiClient.Host) (l : Credential.Location) (cr : Credential.Cred) (c : Bool) (A : Http.Aead)
    (rv : List Rendezvous.Interp) (n : Nat) (b : Option Bool) : Proc (sig R.toDevEnv) DevErr Bool :=
  match b with
  | some b => pure b
  | none => do
    Http.app (X := ops R.toDevEnv) (.sleep ((rv.getLast?.map (·.delay)).getD 0))
    onboard c A w h l cr rv n

theorem onboard_succ {rv : List Rendezvous.Interp} {n : Nat} :
    onboard c A w h l cr rv (n + 1) = (tryEntries c A w h l cr rv >>= again w h l cr c A rv n : Proc (sig R.toDevEnv) _ _) := rfl

theorem head_again {rv : List Rendezvous.Interp} {n : Nat} (b : Option Bool) : Head (again (R := R) w h l cr c A rv n b) := by
  cases b with
  | some b => exact head_ret
  | none => exact head_act trivial

theorem head_reboot (b : Bool) : Head (R := R) (reboot b) := by
  cases b with
  | false => exact head_ret
  | true => exact head_act trivial

/-- The whole client, if the first rendezvous server answers and the first address given by it leads to the owner. -/
theorem device_run {P : Sign1 → Prop} {n : Nat} (hn : n ≠ 0) {T : Trace (sig R.toDevEnv)} {r : Res DevErr Unit}
    (hm : w.exists? (markerPath w) = false) (hf : Credential.find w = some (.ok l)) {cb : Bytes}
    (hread : ∀ (o : Option Bytes) t, T = ⟨.app (.fs (.read l.path)), o⟩ :: t → o = some (cb))
    (hdec : R.codec.dec (cb) = some cr) (hact : cr.active = true) (hver : cr.version = 101)
    {i : Rendezvous.Interp} {is : List Rendezvous.Interp} (hrv : rvEntries (R := R.toDevEnv) cr = .ok (i :: is))
    {u : String} {us : List String} (hurl : clientUrls (R := R.toDevEnv) i = some (u :: us))
    (hfind : ∀ a s, Leg T u a → Prog.Ends (getTo1d c A cr [u]) (connected (R := R.toDevEnv) u :: a) s → ∃ x, s = .ok (some x) ∧ P x)
    {ou : String} (haddr : ∀ x, P x → ∃ as ous, R.decAddrs x.payload = some as ∧ to2Urls (R := R.toDevEnv) as = ou :: ous)
    (honb : ∀ x b b' s, P x → Leg T ou (b ++ b') → Prog.Ends (to2 c A w h l cr x .new : Device.Step R.toDevEnv _) b s → ∃ bo, s = .ok bo)
    (hreb : ∀ o : Option Bool, (⟨.app .reboot, o⟩ : (sig R.toDevEnv).Deed) ∈ T → o = some true)
    (he : Prog.Ends (main c A w h n) T r) :
    r = .ok () ∧ ∃ x b bo, P x ∧ Leg T ou b ∧ Prog.Ends (to2 c A w h l cr x .new : Device.Step R.toDevEnv _) b (.ok bo) := by
  obtain ⟨n, rfl⟩ : ∃ m, n = m + 1 := ⟨n - 1, by omega⟩
  unfold main at he
  rw [if_neg (by simp [hm]), hf] at he
  have he : Prog.Ends (Proc.mapErr (fun _ => .io) (files (Credential.readCred R.codec l)) >>= fun cr => start c A w h l cr (n + 1) :
    Proc (sig R.toDevEnv) _ _) T r := he
  obtain ⟨o, T0, rfl, he1⟩ := Prog.ends_act (S := sig R.toDevEnv) (e := .app (.fs (.read l.path))) he
  have ho := hread o T0 rfl
  subst ho
  have he : Prog.Ends (start c A w h l cr (n + 1)) T0 r := by
    have he : Prog.Ends (Proc.mapErr (fun _ => DevErr.io) (files (Proc.some? Credential.CredErr.parse (R.codec.dec (cb)))) >>=
      fun cr => start c A w h l cr (n + 1) : Proc (sig R.toDevEnv) _ _) T0 r := he1
    rw [hdec] at he
    exact he
  unfold start at he
  rw [if_neg (by simp [hact]), if_neg (by simp [hver]), hrv] at he
  have he : Prog.Ends (onboard c A w h l cr (i :: is) (n + 1) >>= reboot : Proc (sig R.toDevEnv) _ _) T0 r := he
  rw [onboard_succ, tryEntries_cons, hurl] at he
  obtain ⟨x1, t1, t2, rfl, h1, h2⟩ := Prog.ends_bind he
  obtain ⟨x2, t3, t4, rfl, h3, h4⟩ := Prog.ends_bind h1
  obtain ⟨x3, t5, t6, rfl, h5, h6⟩ := Prog.ends_bind h3
  have ht2 : ∀ d ∈ t2.head?, Turns d.1 := by
    match x1, h2 with
    | .ok b, h2 => exact head_reboot b _ _ h2
    | .err e, h2 => exact head_ret _ _ h2
    | .panic, h2 => exact head_ret _ _ h2
  have ht4 : ∀ d ∈ t4.head?, Turns d.1 := by
    match x2, h4 with
    | .ok b, h4 => exact head_again b _ _ h4
    | .err e, h4 => exact head_ret _ _ h4
    | .panic, h4 => exact head_ret _ _ h4
  have ht6 : ∀ d ∈ t6.head?, Turns d.1 := by
    match x3, h6 with
    | .ok b, h6 => exact head_follow tryEntries_head b _ _ h6
    | .err e, h6 => exact head_ret _ _ h6
    | .panic, h6 => exact head_ret _ _ h6
  obtain ⟨a, post, s, rfl, ha, hpost, hs, hs'⟩ := getTo1d_first h5
  obtain ⟨x, rfl, hx⟩ := hfind a s ⟨[⟨.app (.fs (.read l.path)), some (cb)⟩], post ++ (t6 ++ (t4 ++ t2)), by simp, ha,
    head_append hpost (head_append ht6 (head_append ht4 ht2))⟩ hs
  obtain ⟨rfl, rfl⟩ := hs' x rfl
  obtain ⟨as, ous, has, hous⟩ := haddr x hx
  have h6 : Prog.Ends (follow w h l cr c A is (some x)) t6 x2 := h6
  unfold follow at h6
  dsimp only at h6
  rw [has] at h6
  dsimp only at h6
  rw [hous] at h6
  obtain ⟨x4, t7, t8, rfl, h7, h8⟩ := Prog.ends_bind h6
  have ht8 : ∀ d ∈ t8.head?, Turns d.1 := by
    match x4, h8 with
    | .ok (some b), h8 => exact head_ret _ _ h8
    | .ok none, h8 => exact tryEntries_head _ _ h8
    | .err e, h8 => exact head_ret _ _ h8
    | .panic, h8 => exact head_ret _ _ h8
  obtain ⟨b, b', post', s', rfl, hb, hpost', hs2, hs2'⟩ := tryAddrs_first h7
  have hleg : Leg (⟨.app (.fs (.read l.path)), some (cb)⟩ :: (connected (R := R.toDevEnv) u :: (a ++ []) ++
      (connected (R := R.toDevEnv) ou :: (b ++ b' ++ post') ++ t8) ++ t4 ++ t2)) ou (b ++ b') :=
    ⟨⟨.app (.fs (.read l.path)), some (cb)⟩ :: connected (R := R.toDevEnv) u :: a, post' ++ (t8 ++ (t4 ++ t2)), by simp, hb,
      head_append hpost' (head_append ht8 (head_append ht4 ht2))⟩
  obtain ⟨bo, rfl⟩ := honb x b b' s' hx hleg hs2
  obtain ⟨rfl, rfl, rfl⟩ := hs2' bo rfl
  obtain ⟨rfl, rfl⟩ := Prog.ends_ret h8
  obtain ⟨rfl, rfl⟩ := Prog.ends_ret h4
  refine ⟨?_, x, b, bo, hx, by simpa using hleg, hs2⟩
  cases bo with
  | false => exact (Prog.ends_ret h2).2.symm
  | true =>
    obtain ⟨o, t9, rfl, h9⟩ := Prog.ends_act (S := sig R.toDevEnv) (e := .app .reboot) h2
    have := hreb o (by simp)
    subst this
    exact (Prog.ends_ret h9).2.symm

end

/-! ### Parts of a run -/

theorem talk_prefix {Sv : Http.Server} {M : Type} {X : Sig} {mv : M → Sv.W → Sv.W} {σ0 : Http.St Sv} {kdf : Http.Request Sv → Bool}
    {i : Option Sv.Id} {p h : List (Http.Event Sv M)} {t t1 t2 : Trace (Http.netSig X)} (ht : Http.Talk mv σ0 kdf i p h t) (e : t = t1 ++ t2) :
    Http.Talk mv σ0 kdf i p h t1 := by
  induction ht generalizing t1 with
  | done => cases t1 with
    | nil => exact .done
    | cons d t1 => cases e
  | other ev ha _ ih => exact .other ev ha (ih e)
  | iv x _ ih => cases t1 with
    | nil => exact .done
    | cons d t1 =>
      obtain ⟨rfl, e'⟩ := List.cons.inj e
      exact .iv x (ih e')
  | app eff a _ ih => cases t1 with
    | nil => exact .done
    | cons d t1 =>
      obtain ⟨rfl, e'⟩ := List.cons.inj e
      exact .app eff a (ih e')
  | lost s _ ih => cases t1 with
    | nil => exact .done
    | cons d t1 =>
      obtain ⟨rfl, e'⟩ := List.cons.inj e
      exact .lost s (ih e')
  | served s rq r hc hr _ ih => cases t1 with
    | nil => exact .done
    | cons d t1 =>
      obtain ⟨rfl, e'⟩ := List.cons.inj e
      exact .served s rq r hc hr (ih e')

section
open Verif.Device
variable {T b : Trace (sig R.toDevEnv)}

theorem leg_sub {u : String} {a : Trace (sig R.toDevEnv)} (h : Leg T u a) : ∀ d ∈ a, d ∈ T := by
  obtain ⟨pre, post, rfl, -⟩ := h
  intro d hd
  simp [hd]

theorem fortunate_sub {dev : R.E.Pub} (h : Fortunate R.toDevEnv dev T) (hs : ∀ d ∈ b, d ∈ T) : Fortunate R.toDevEnv dev b where
  nonce o ho := h.nonce o (hs _ ho)
  kex o ho := h.kex o (hs _ ho)
  sign pl o ho := h.sign pl o (hs _ ho)
  create q o ho := h.create q o (hs _ ho)
  append q x o ho := h.append q x o (hs _ ho)
  remove q o ho := h.remove q o (hs _ ho)
  read q o ho := h.read q o (hs _ ho)
  os m o ho := h.os m o (hs _ ho)

theorem follows_sub {h : SiClient.Host} {l : List ServiceInfo.Item} (hf : Follows h T l) (hs : ∀ d ∈ b, d ∈ T) : Follows h b l :=
  fun u res he hd => hf u res he fun d hd' d' hd'' => hs _ (hd d hd' d' hd'')

end

end Verif.Life

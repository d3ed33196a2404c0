import Verif.Model.Rendezvous
import Mathlib.Data.List.Forall2
/-!
Properties C18 and C19: interpretation of rendezvous directives, certificate chains.
-/
namespace Verif.Rendezvous
open Verif

/-! ### C18 -/

/-- The values of variable `var` in a directive, in order, read with `f`. -/
def readAll {α : Type} (D : Dec) (f : D.V → Option α) (var : Var) (d : Directive) : List α :=
  d.filterMap fun e => if e.1 = var then (D.value e.2).bind f else none

/-- The last value of variable `var`, if there is one. -/
def readLast {α : Type} (D : Dec) (f : D.V → Option α) (var : Var) (d : Directive) : Option α :=
  (readAll D f var d).getLast?

/-- Does the directive contain the variable? -/
def Has (d : Directive) (var : Var) : Prop := ∃ raw, (var, raw) ∈ d

/-- The port variable of a side. -/
def Side.portVar : Side → Var
  | .device => .devicePort
  | .owner => .ownerPort

/-- The marker that makes a directive irrelevant for a side. -/
def Side.otherOnly : Side → Var
  | .device => .ownerOnly
  | .owner => .deviceOnly

/-- A device-only setting: on the owner's side it is not read. -/
def devOnly {α : Type} (side : Side) (x : Option α) : Option α := if side = .device then x else none

/-- What interpretation must yield: the specification of C18. -/
structure Meaning (D : Dec) (side : Side) (d : Directive) (r : Interp) : Prop where
  relevant : ¬ Has d side.otherOnly
  ownerBypass : side = .owner → ¬ Has d .bypass
  ips : r.ipAddresses = readAll D D.ip .ipAddress d
  dns : r.dnsName = readLast D D.text .dns d
  protocol : r.protocol = (readLast D D.proto .protocol d).getD .tls
  delay : r.delay = (readLast D D.u32 .delaysec d).getD 0
  serverCert : r.serverCertHash = devOnly side (readLast D D.hash .serverCertHash d)
  caCert : r.caCertHash = devOnly side (readLast D D.hash .caCertHash d)
  ssid : r.wifiSsid = devOnly side (readLast D D.text .wifiSsid d)
  wifiPw : r.wifiPassword = devOnly side (readLast D D.text .wifiPw d)
  medium : r.medium = devOnly side (readLast D D.u8 .medium d)
  userInput : r.userInput = true ↔ side = .device ∧ Has d .userInput
  bypass : r.bypass = true ↔ side = .device ∧ Has d .bypass

theorem readAll_append {α : Type} (D : Dec) (f : D.V → Option α) (var : Var) (d d' : Directive) :
    readAll D f var (d ++ d') = readAll D f var d ++ readAll D f var d' := by
  simp [readAll]

theorem readAll_single {α : Type} (D : Dec) (f : D.V → Option α) (var var' : Var) (raw : Bytes) (v : D.V)
    (hv : D.value raw = some v) :
    readAll D f var [(var', raw)] = if var' = var then (f v).toList else [] := by
  unfold readAll
  by_cases h : var' = var
  · simp only [List.filterMap_cons, h, if_true, hv, Option.bind_some, List.filterMap_nil]
    cases f v <;> rfl
  · simp [h]

theorem has_append (d d' : Directive) (var : Var) : Has (d ++ d') var ↔ Has d var ∨ Has d' var := by
  simp only [Has, List.mem_append]
  constructor
  · rintro ⟨r, h | h⟩
    · exact .inl ⟨r, h⟩
    · exact .inr ⟨r, h⟩
  · rintro (⟨r, h⟩ | ⟨r, h⟩)
    · exact ⟨r, .inl h⟩
    · exact ⟨r, .inr h⟩

theorem has_single (var var' : Var) (raw : Bytes) : Has [(var', raw)] var ↔ var' = var := by
  simp only [Has, List.mem_singleton, Prod.mk.injEq]
  constructor
  · rintro ⟨_, h, _⟩; exact h.symm
  · rintro rfl; exact ⟨raw, rfl, rfl⟩

/-- The port still missing its default. -/
def PortMeaning (D : Dec) (side : Side) (d : Directive) (r : Interp) : Prop :=
  r.port = readLast D D.u32 side.portVar d

theorem step_meaning (D : Dec) (side : Side) (d : Directive) (acc : Interp) (var : Var) (raw : Bytes)
    (v : D.V) (hv : D.value raw = some v) (r : Interp) (hm : Meaning D side d acc)
    (hp : PortMeaning D side d acc) (h : step D side acc var v = .ok (some r)) :
    Meaning D side (d ++ [(var, raw)]) r ∧ PortMeaning D side (d ++ [(var, raw)]) r := by
  obtain ⟨m1, m2, m3, m4, m5, m6, m7, m8, m9, m10, m11, m12, m13⟩ := hm
  unfold PortMeaning at hp ⊢
  unfold readLast at *
  cases var <;> cases side <;> simp only [step] at h <;>
    first
    | (simp at h; done)
    | (simp only [ne_eq, not_true_eq_false, reduceCtorEq, if_true, if_false,
        Res.ok.injEq, Option.some.injEq, Res.pure_eq] at h
       first
       | (subst h
          constructor
          · constructor <;>
              simp_all [has_append, has_single, readLast, readAll_append, readAll_single D _ _ _ raw v hv,
                Side.otherOnly, Side.portVar, devOnly]
          · simp_all [readAll_append, readAll_single D _ _ _ raw v hv, Side.portVar])
       | (obtain ⟨x, hx, h⟩ := Res.bind_eq_ok.1 h
          have hx := ofOpt_eq_ok.1 hx
          simp only [Res.ok.injEq, Option.some.injEq] at h
          subst h
          constructor
          · constructor <;>
              simp_all [has_append, has_single, readLast, readAll_append, readAll_single D _ _ _ raw v hv,
                Side.otherOnly, Side.portVar, devOnly]
          · simp_all [readAll_append, readAll_single D _ _ _ raw v hv, Side.portVar]))

theorem loop_meaning (D : Dec) (side : Side) (d : Directive) :
    ∀ (done : Directive) (acc r : Interp), Meaning D side done acc → PortMeaning D side done acc →
      loop D side acc d = .ok (some r) → Meaning D side (done ++ d) r ∧ PortMeaning D side (done ++ d) r := by
  induction d with
  | nil =>
    intro done acc r hm hp h
    simp only [loop, Res.ok.injEq, Option.some.injEq] at h
    subst h
    simpa using ⟨hm, hp⟩
  | cons e d ih =>
    intro done acc r hm hp h
    obtain ⟨var, raw⟩ := e
    simp only [loop] at h
    obtain ⟨v, hv, h⟩ := Res.bind_eq_ok.1 h
    obtain ⟨o, ho, h⟩ := Res.bind_eq_ok.1 h
    cases o with
    | none => cases h
    | some acc' =>
      obtain ⟨h1, h2⟩ := step_meaning D side done acc var raw v (ofOpt_eq_ok.1 hv) acc' hm hp ho
      have := ih _ _ _ h1 h2 h
      simpa using this

theorem init_meaning (D : Dec) (side : Side) :
    Meaning D side [] .init ∧ PortMeaning D side [] .init := by
  constructor
  · constructor <;> simp [Has, readAll, readLast, Interp.init, devOnly]
  · simp [PortMeaning, readLast, readAll, Interp.init]

/-- **C18** (single directive). Interpretation yields a directive only if it does not carry the other
side's marker (nor, for the owner, the bypass marker); its fields are as `Meaning` specifies, its port is
the last port of that role or else the default port of its protocol. Missing: bypass directives are
dropped only for the owner (`C18_bypass_violated`). -/
theorem C18_interpretation_partial (D : Dec) (side : Side) (d : Directive) (r : Interp)
    (h : fromDirective D side d = .ok (some r)) :
    Meaning D side d r ∧
    ∃ p, r.port = some p ∧
      (readLast D D.u32 side.portVar d = some p ∨
       readLast D D.u32 side.portVar d = none ∧ r.protocol.defaultPort = some p) := by
  unfold fromDirective at h
  obtain ⟨o, ho, h⟩ := Res.bind_eq_ok.1 h
  cases o with
  | none => cases h
  | some acc =>
    obtain ⟨hm, hp⟩ := loop_meaning D side d [] .init acc (init_meaning D side).1 (init_meaning D side).2 ho
    simp only [List.nil_append] at hm hp
    simp only at h
    cases hport : acc.port with
    | some p =>
      rw [hport] at h
      simp only [Res.ok.injEq, Option.some.injEq] at h
      subst h
      exact ⟨hm, p, hport, .inl (by rw [← hp, hport])⟩
    | none =>
      rw [hport] at h
      simp only at h
      split at h
      · rename_i p hdef
        simp only [Res.ok.injEq, Option.some.injEq] at h
        subst h
        refine ⟨?_, p, rfl, .inr ⟨by rw [← hp, hport], hdef⟩⟩
        exact ⟨hm.1, hm.2, hm.3, hm.4, hm.5, hm.6, hm.7, hm.8, hm.9, hm.10, hm.11, hm.12, hm.13⟩
      · cases h

/-- A directive whose values all decode for the role, that is relevant for it, is not dropped. -/
theorem loop_some (D : Dec) (side : Side) (d : Directive) : ∀ acc,
    loop D side acc d = .ok none → Has d side.otherOnly ∨ (side = .owner ∧ Has d .bypass) := by
  induction d with
  | nil => intro acc h; simp [loop] at h
  | cons e d ih =>
    intro acc h
    obtain ⟨var, raw⟩ := e
    simp only [loop] at h
    obtain ⟨v, hv, h⟩ := Res.bind_eq_ok.1 h
    obtain ⟨o, ho, h⟩ := Res.bind_eq_ok.1 h
    have lift : ∀ w, Has d w → Has ((var, raw) :: d) w := fun w ⟨r, hr⟩ => ⟨r, by simp [hr]⟩
    cases o with
    | some acc' =>
      rcases ih _ h with h | ⟨h1, h2⟩
      · exact .inl (lift _ h)
      · exact .inr ⟨h1, lift _ h2⟩
    | none =>
      have key : var = side.otherOnly ∨ (side = .owner ∧ var = .bypass) := by
        cases var <;> cases side <;> simp only [step] at ho <;>
          first
          | (simp at ho; done)
          | (left; rfl)
          | (right; exact ⟨rfl, rfl⟩)
          | (exfalso
             try simp only [if_true] at ho
             obtain ⟨x, _, ho⟩ := Res.bind_eq_ok.1 ho
             cases ho)
      rcases key with rfl | ⟨h1, rfl⟩
      · exact .inl ⟨raw, by simp⟩
      · exact .inr ⟨h1, raw, by simp⟩

/-- **C18** (nothing else is dropped): a directive is skipped only because of the other role's marker or,
for the owner, the bypass marker. -/
theorem C18_dropped (D : Dec) (side : Side) (d : Directive) (h : fromDirective D side d = .ok none) :
    Has d side.otherOnly ∨ (side = .owner ∧ Has d .bypass) := by
  unfold fromDirective at h
  obtain ⟨o, ho, h⟩ := Res.bind_eq_ok.1 h
  cases o with
  | none => exact loop_some D side d _ ho
  | some acc =>
    simp only at h
    split at h
    · cases h
    · split at h <;> cases h

/-- **C18** (order): the interpreted list consists of the directives that are not dropped, in order; it
fails exactly if one of the directives fails. -/
theorem C18_order (D : Dec) (side : Side) (ds : List Directive) (rs : List Interp) :
    toInterpreted D side ds = .ok rs ↔
      ∃ os, List.Forall₂ (fun d o => fromDirective D side d = .ok o) ds os ∧ rs = os.filterMap id := by
  induction ds generalizing rs with
  | nil =>
    simp only [toInterpreted, Res.ok.injEq]
    constructor
    · rintro rfl; exact ⟨[], .nil, rfl⟩
    · rintro ⟨os, h, rfl⟩; cases h; rfl
  | cons d ds ih =>
    simp only [toInterpreted]
    constructor
    · intro h
      obtain ⟨o, ho, h⟩ := Res.bind_eq_ok.1 h
      cases o with
      | none =>
        obtain ⟨os, h1, h2⟩ := (ih _).1 h
        exact ⟨none :: os, .cons ho h1, by simpa using h2⟩
      | some x =>
        simp only at h
        obtain ⟨t, ht, h⟩ := Res.bind_eq_ok.1 h
        obtain ⟨os, h1, h2⟩ := (ih _).1 ht
        simp only [Res.pure_eq, Res.ok.injEq] at h
        exact ⟨some x :: os, .cons ho h1, by simp [← h, h2]⟩
    · rintro ⟨os, h, rfl⟩
      cases h with
      | cons hd ht =>
        rename_i o os
        rw [hd, Res.bind_ok]
        have := (ih _).2 ⟨os, ht, rfl⟩
        cases o with
        | none => simpa using this
        | some x => simp [this]

/-- **C18** (URLs): a yielded directive gives only http and https URLs, matching its protocol: first the
DNS name, then every address in order, all on the directive's port. -/
theorem C18_urls (D : Dec) (side : Side) (d : Directive) (r : Interp) (showIp : Bytes → String)
    (h : fromDirective D side d = .ok (some r)) :
    ∃ p, r.port = some p ∧ ∀ scheme, (r.protocol = .http ∧ scheme = "http" ∨ r.protocol = .https ∧ scheme = "https") →
      getUrls showIp r = ((readLast D D.text .dns d).toList ++ (readAll D D.ip .ipAddress d).map showIp).map
        (fun host => scheme ++ "://" ++ host ++ ":" ++ toString p) := by
  obtain ⟨hm, p, hp, _⟩ := C18_interpretation_partial D side d r h
  refine ⟨p, hp, ?_⟩
  rw [← hm.dns, ← hm.ips]
  rintro s (⟨h1, rfl⟩ | ⟨h1, rfl⟩) <;> unfold getUrls getUrls.urls <;> rw [h1] <;>
    cases r.dnsName <;> simp [hp]

theorem C18_urls_none (showIp : Bytes → String) (r : Interp) (h1 : r.protocol ≠ .http)
    (h2 : r.protocol ≠ .https) : getUrls showIp r = [] := by
  unfold getUrls
  cases hp : r.protocol <;> simp_all

/-- Decoders for examples: one byte values. -/
def toyDec : Dec where
  V := UInt8
  value := fun b => b.head?
  ip := fun v => some [v]
  u32 := fun v => some v.toNat
  text := fun v => some (toString v.toNat)
  hash := fun _ => none
  u8 := fun v => some v.toNat
  proto := fun v => if v = 1 then some .http else if v = 2 then some .https else none

/-- "Bypass directives are dropped" is false for the device: a bypass directive is yielded, with URLs. -/
theorem C18_bypass_violated : ∃ (D : Dec) (d : Directive) (r : Interp), Has d .bypass ∧
    fromDirective D .device d = .ok (some r) ∧ getUrls (fun _ => "ip") r ≠ [] :=
  ⟨toyDec, [(.protocol, [1]), (.dns, [7]), (.bypass, [0])],
   { Interp.init with dnsName := some "7", port := some 80, protocol := .http, bypass := true },
   ⟨[0], by simp⟩, by decide +kernel, by simp [getUrls, getUrls.urls]⟩

/-- The device and the owner read the same directive with different ports; the owner-only directive is
skipped by the device. -/
example : toInterpreted toyDec .device
      [[(.protocol, [1]), (.ownerOnly, [0]), (.dns, [9])],
       [(.ipAddress, [5]), (.devicePort, [81]), (.ownerPort, [82]), (.protocol, [2]), (.dns, [1]), (.dns, [2])]] =
    .ok [{ Interp.init with ipAddresses := [[5]], dnsName := some "2", port := some 81, protocol := .https }] := by
  decide +kernel

example : toInterpreted toyDec .owner
      [[(.protocol, [1]), (.ownerOnly, [0]), (.dns, [9])],
       [(.ipAddress, [5]), (.devicePort, [81]), (.ownerPort, [82]), (.protocol, [2]), (.dns, [1]), (.dns, [2])]] =
    .ok [{ Interp.init with dnsName := some "9", port := some 80, protocol := .http },
      { Interp.init with ipAddresses := [[5]], dnsName := some "2", port := some 82, protocol := .https }] := by
  decide +kernel

/-! ### C19 -/

/-- `issuer` issued `cert` and its key signed it. -/
def Signs (C : Certs) (issuer cert : C.Cert) : Prop :=
  C.issued issuer cert = true ∧ ∃ k, C.publicKey issuer = some k ∧ C.verify cert k = some true

theorem chainLoop_ok {C : Certs} (trusted : C.Cert → Res ChainErr Bool) (leaf : C.Cert) (r : List C.Cert) :
    ∀ (pos : Nat) (cert c : C.Cert), chainLoop trusted leaf pos cert r = .ok c →
      c = leaf ∧ ∃ seg root rest, r = seg ++ root :: rest ∧ trusted root = .ok true ∧
        List.IsChain (fun a b => Signs C b a) (cert :: (seg ++ [root])) := by
  induction r with
  | nil => intro pos cert c h; cases h
  | cons issuer r ih =>
    intro pos cert c h
    simp only [chainLoop] at h
    split at h
    · cases h
    rename_i hi
    split at h
    · cases h
    rename_i k hk
    split at h
    · cases h
    · cases h
    rename_i hv
    have hs : Signs C issuer cert := ⟨by simpa using hi, k, hk, hv⟩
    split at h
    · rename_i ht
      cases h
      exact ⟨rfl, [], issuer, r, rfl, ht, by simpa using hs⟩
    · obtain ⟨h1, seg, root, rest, h2, h3, h4⟩ := ih _ _ _ h
      refine ⟨h1, issuer :: seg, root, rest, by rw [h2]; rfl, h3, ?_⟩
      simp only [List.cons_append, List.isChain_cons_cons]
      exact ⟨hs, by simpa using h4⟩
    · cases h
    · cases h

/-- **C19**: if verification succeeds, it returned the chain's first certificate, and there is a
trusted certificate in the chain such that from the first certificate up to it, each one is issued and
signed by the next. If there are at least two certificates the trusted one is not the leaf itself. -/
theorem C19_path_to_root {C : Certs} (trusted : C.Cert → Res ChainErr Bool) (chain : List C.Cert) (c : C.Cert)
    (h : chainVerify trusted chain = .ok c) :
    ∃ seg root rest, chain = seg ++ root :: rest ∧ chain.head? = some c ∧ trusted root = .ok true ∧
      List.IsChain (fun a b => Signs C b a) (seg ++ [root]) ∧ (2 ≤ chain.length → seg ≠ []) := by
  match chain, h with
  | [], h => cases h
  | [x], h =>
    simp only [chainVerify] at h
    split at h
    · rename_i ht
      cases h
      exact ⟨[], _, [], rfl, rfl, ht, by simp, by simp⟩
    · cases h
    · cases h
    · cases h
  | leaf :: y :: r, h =>
    simp only [chainVerify] at h
    obtain ⟨h1, seg, root, rest, h2, h3, h4⟩ := chainLoop_ok _ _ _ _ _ _ h
    exact ⟨leaf :: seg, root, rest, by rw [h2]; rfl, by rw [h1]; rfl, h3, h4, by simp⟩

/-- **C19** for a set of trusted certificates. -/
theorem C19_bag {C : Certs} (digest : C.Cert → Bytes) (bag chain : List C.Cert) (c : C.Cert)
    (h : verifyFromBag digest bag chain = .ok c) :
    ∃ seg root rest, chain = seg ++ root :: rest ∧ chain.head? = some c ∧
      (∃ t ∈ bag, digest root = digest t) ∧
      List.IsChain (fun a b => Signs C b a) (seg ++ [root]) ∧ (2 ≤ chain.length → seg ≠ []) := by
  obtain ⟨seg, root, rest, h1, h2, h3, h4⟩ := C19_path_to_root _ _ _ h
  refine ⟨seg, root, rest, h1, h2, ?_, h4⟩
  simp only [Res.ok.injEq, decide_eq_true_eq, List.mem_map] at h3
  obtain ⟨t, ht, he⟩ := h3
  exact ⟨t, ht, he.symm⟩

/-- **C19** for a root given by its digest. -/
theorem C19_digest {C : Certs} (digest : HashType → C.Cert → Bytes) (hash : Hash) (chain : List C.Cert) (c : C.Cert)
    (h : verifyFromDigest digest hash chain = .ok c) :
    ∃ seg root rest, chain = seg ++ root :: rest ∧ chain.head? = some c ∧
      hash.value = digest hash.type root ∧
      List.IsChain (fun a b => Signs C b a) (seg ++ [root]) ∧ (2 ≤ chain.length → seg ≠ []) := by
  unfold verifyFromDigest at h
  split at h
  · cases h
  · obtain ⟨seg, root, rest, h1, h2, h3, h4⟩ := C19_path_to_root _ _ _ h
    refine ⟨seg, root, rest, h1, h2, ?_, h4⟩
    split at h3
    · cases h3
    · simpa using h3

/-- **C19**: an empty chain is never accepted. -/
theorem C19_never_empty {C : Certs} (trusted : C.Cert → Res ChainErr Bool) (c : C.Cert) :
    chainVerify trusted [] ≠ .ok c := by
  simp [chainVerify]

theorem chainLoop_complete {C : Certs} (trusted : C.Cert → Bool) (leaf : C.Cert) (root : C.Cert)
    (rest seg : List C.Cert) (ht : trusted root = true) :
    ∀ (pos : Nat) (cert : C.Cert), List.IsChain (fun a b => Signs C b a) (cert :: (seg ++ [root])) →
      chainLoop (fun c => .ok (trusted c)) leaf pos cert (seg ++ root :: rest) = .ok leaf := by
  induction seg with
  | nil =>
    intro pos cert h
    simp only [List.nil_append, List.isChain_cons_cons] at h
    obtain ⟨⟨h1, k, h2, h3⟩, _⟩ := h
    simp [chainLoop, h1, h2, h3, ht]
  | cons x seg ih =>
    intro pos cert h
    simp only [List.cons_append, List.isChain_cons_cons] at h
    obtain ⟨⟨h1, k, h2, h3⟩, h4⟩ := h
    simp only [List.cons_append, chainLoop, h1, h2, h3, Bool.not_true, Bool.false_eq_true, if_false]
    cases hx : trusted x with
    | true => rfl
    | false => exact ih (pos + 1) x (by simpa using h4)

/-- **C19** (converse): a chain with a path from the leaf to a trusted issuer is accepted. -/
theorem C19_path_accepted {C : Certs} (trusted : C.Cert → Bool) (leaf root : C.Cert) (seg rest : List C.Cert)
    (ht : trusted root = true) (h : List.IsChain (fun a b => Signs C b a) (leaf :: (seg ++ [root]))) :
    chainVerify (fun c => .ok (trusted c)) (leaf :: (seg ++ root :: rest)) = .ok leaf := by
  cases seg with
  | nil => exact chainLoop_complete trusted leaf root rest [] ht 0 leaf h
  | cons x seg => exact chainLoop_complete trusted leaf root rest (x :: seg) ht 0 leaf h

/-- Certificates for examples: `(name, issuer name)`; a certificate is signed by its issuer's key. -/
def toyCerts : Certs where
  Cert := Nat × Nat
  Key := Nat
  issued := fun i c => i.1 == c.2
  publicKey := fun c => some c.1
  verify := fun c k => some (c.2 == k)

example : verifyFromBag (C := toyCerts) (fun c => [UInt8.ofNat c.1]) [(3, 3)] [(1, 2), (2, 3), (3, 3)] = .ok (1, 2) := by
  rfl

example : verifyFromBag (C := toyCerts) (fun c => [UInt8.ofNat c.1]) [(3, 3)] [(1, 2), (4, 3), (3, 3)] =
    .err (.nonIssuer 0) := by rfl

end Verif.Rendezvous

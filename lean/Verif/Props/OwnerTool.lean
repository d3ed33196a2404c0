import Verif.Model.OwnerTool
import Verif.Props.Voucher
/-!
The owner tool: extending a voucher file (C62), reading voucher files (C66), initialising a device (C67).
-/
namespace Verif.OwnerTool
open Verif Verif.Voucher Verif.Fs Verif.Cbor.Spec

variable {T : Tool} {c : Bool}

theorem liftE_ok {α : Type} {r : Res Err α} {a : α} (h : liftE r = .ok a) : r = .ok a := by
  cases r with
  | ok b => exact congrArg _ (Res.ok.inj h)
  | err e => cases h
  | panic => cases h

theorem newName_ne (p : Path) : newName p ≠ p := by
  intro h
  have := congrArg List.length h
  simp [newName] at this

theorem extended_ok {v v' : Voucher T.E} {k : T.E.Priv} {n : T.E.Pub} (h : extended T c v k n = .ok v') :
    Voucher.extend c v k none n = (v', .ok ()) := by
  unfold extended at h
  split at h
  · next heq => cases h; exact heq
  · cases h
  · cases h

/-- Specification: `pem` is the written form of the voucher read from `old`, extended by the owner key found at `keyPath`
to the key of the certificate found at `certPath`. -/
def ExtensionOf (T : Tool) (c : Bool) (s : Files) (keyPath certPath : Path) (old pem : Bytes) : Prop :=
  ∃ v kb k cb n v' b, fromPemOrRaw T c old = .ok v ∧ s keyPath = some kb ∧ T.privateKey kb = some k ∧
    s certPath = some cb ∧ T.certKey cb = some n ∧ Voucher.extend c v k none n = (v', .ok ()) ∧
    Voucher.serialize v' = .ok b ∧ pem = T.pemEncode "OWNERSHIP VOUCHER".toList b

/-- What is done up to any point, and at a successful end. -/
theorem extend_run (path keyPath certPath : Path) (t : Trace sig) (s s' : Files)
    (h : Prog.Does (extendVoucher T c path keyPath certPath) t) (hr : Run s t s') :
    ((s' path = s path ∨ ∃ old pem, s path = some old ∧ ExtensionOf T c s keyPath certPath old pem ∧ s' path = some pem) ∧
      ∀ q, q ≠ path → q ≠ newName path → s' q = s q) ∧
    (Prog.Ends (extendVoucher T c path keyPath certPath) t (.ok ()) →
      ∃ old pem, s path = some old ∧ ExtensionOf T c s keyPath certPath old pem ∧ s' path = some pem ∧
        s' (newName path) = none) := by
  have H : Hoare Step (fun u => (u path = s path ∨ ∃ old pem, s path = some old ∧ ExtensionOf T c s keyPath certPath old pem ∧
      u path = some pem) ∧ ∀ q, q ≠ path → q ≠ newName path → u q = s q) (fun u => u = s)
      (extendVoucher T c path keyPath certPath) (fun r u => ((u path = s path ∨ ∃ old pem, s path = some old ∧
        ExtensionOf T c s keyPath certPath old pem ∧ u path = some pem) ∧ ∀ q, q ≠ path → q ≠ newName path → u q = s q) ∧
        (r = .ok () → ∃ old pem, s path = some old ∧ ExtensionOf T c s keyPath certPath old pem ∧ u path = some pem ∧
          u (newName path) = none)) := by
    have hI : ∀ u : Files, u = s → ((u path = s path ∨ ∃ old pem, s path = some old ∧
        ExtensionOf T c s keyPath certPath old pem ∧ u path = some pem) ∧ ∀ q, q ≠ path → q ≠ newName path → u q = s q) := by
      rintro u rfl
      exact ⟨.inl rfl, fun _ _ _ => rfl⟩
    unfold extendVoucher
    refine Hoare.bind (M := fun b u => s path = some b ∧ u = s) (readFile_hoare (hI s rfl) (fun b hb => ⟨hb, rfl⟩)
      ⟨hI s rfl, nofun⟩) (fun _ _ h => h.1) fun b => Hoare.assume fun hb => ?_
    refine Hoare.bind (M := fun v u => fromPemOrRaw T c b = .ok v ∧ u = s) (Hoare.lift hI fun u hu => ?_)
      (fun _ _ h => h.1) fun v => Hoare.assume fun hv => ?_
    · cases hf : fromPemOrRaw T c b with
      | ok v => exact ⟨rfl, hu⟩
      | err e => exact ⟨hI u hu, nofun⟩
      | panic => exact ⟨hI u hu, nofun⟩
    refine Hoare.bind (M := fun _ u => u = s) (Hoare.check hI (fun u _ hu => hu) (fun u _ hu => ⟨hI u hu, nofun⟩))
      (fun _ _ h => h.1) fun _ => ?_
    refine Hoare.bind (M := fun b u => s keyPath = some b ∧ u = s) (readFile_hoare (hI s rfl) (fun b hb => ⟨hb, rfl⟩)
      ⟨hI s rfl, nofun⟩) (fun _ _ h => h.1) fun kb => Hoare.assume fun hkb => ?_
    refine Hoare.bind (M := fun k u => T.privateKey kb = some k ∧ u = s) (Hoare.some? hI (fun u k hk hu => ⟨hk, hu⟩)
      (fun u _ hu => ⟨hI u hu, nofun⟩)) (fun _ _ h => h.1) fun k => Hoare.assume fun hk => ?_
    refine Hoare.bind (M := fun b u => s certPath = some b ∧ u = s) (readFile_hoare (hI s rfl) (fun b hb => ⟨hb, rfl⟩)
      ⟨hI s rfl, nofun⟩) (fun _ _ h => h.1) fun cb => Hoare.assume fun hcb => ?_
    refine Hoare.bind (M := fun k u => T.certKey cb = some k ∧ u = s) (Hoare.some? hI (fun u k hk hu => ⟨hk, hu⟩)
      (fun u _ hu => ⟨hI u hu, nofun⟩)) (fun _ _ h => h.1) fun n => Hoare.assume fun hn => ?_
    refine Hoare.bind (M := fun v' u => Voucher.extend c v k none n = (v', .ok ()) ∧ u = s) (Hoare.lift hI fun u hu => ?_)
      (fun _ _ h => h.1) fun v' => Hoare.assume fun hv' => ?_
    · cases hf : extended T c v k n with
      | ok v => exact ⟨extended_ok hf, hu⟩
      | err e => exact ⟨hI u hu, nofun⟩
      | panic => exact ⟨hI u hu, nofun⟩
    refine Hoare.bind (M := fun pem u => (∃ b', Voucher.serialize v' = .ok b' ∧ pem = T.pemEncode pemTag b') ∧ u = s)
      (Hoare.lift hI fun u hu => ?_) (fun _ _ h => h.1) fun pem => Hoare.assume fun ⟨b', hb', hp⟩ => ?_
    · unfold toPem
      cases hf : Voucher.serialize v' with
      | ok v => exact ⟨⟨_, rfl, rfl⟩, hu⟩
      | err e => exact ⟨hI u hu, nofun⟩
      | panic => exact ⟨hI u hu, nofun⟩
    have ext : ExtensionOf T c s keyPath certPath b pem := ⟨v, kb, k, cb, n, v', b', hv, hkb, hk, hcb, hn, hv', hb', hp⟩
    have keep : ∀ u : Files, (∀ q, q ≠ newName path → u q = s q) → ((u path = s path ∨ ∃ old pem, s path = some old ∧
        ExtensionOf T c s keyPath certPath old pem ∧ u path = some pem) ∧ ∀ q, q ≠ path → q ≠ newName path → u q = s q) :=
      fun u hu => ⟨.inl (hu _ (newName_ne path).symm), fun q _ hq => hu q hq⟩
    refine Hoare.bind (M := fun _ u => ∃ w : Files, ((∀ q, q ≠ newName path → w q = s q) ∧ w (newName path) = some pem) ∧ u = w)
      (writeFile_hoare (fun u h _ => keep u h) (fun u h h' => ⟨u, ⟨h, h'⟩, rfl⟩) (fun u h _ => ⟨keep u h, nofun⟩))
      (fun _ _ h => h.1) fun _ => Hoare.exists_pre fun w => Hoare.assume fun ⟨hw, hw'⟩ => ?_
    have done : ∀ u : Files, (u path = w (newName path) ∧ u (newName path) = none ∧
        ∀ q, q ≠ newName path → q ≠ path → u q = w q) → ((u path = s path ∨ ∃ old pem, s path = some old ∧
        ExtensionOf T c s keyPath certPath old pem ∧ u path = some pem) ∧ ∀ q, q ≠ path → q ≠ newName path → u q = s q) :=
      fun u ⟨h1, h2, h3⟩ => ⟨.inr ⟨b, pem, hb, ext, by rw [h1, hw']⟩, fun q h4 h5 => by rw [h3 q h5 h4, hw q h5]⟩
    exact renameFile_hoare (newName_ne path) (keep w hw) done
      (fun u h => ⟨done u h, fun _ => ⟨b, pem, hb, ext, by rw [h.1, hw'], h.2.1⟩⟩) (fun u h => ⟨h, nofun⟩)
  exact ⟨(H s t s' rfl hr).1 h, fun he => ((H s t s' rfl hr).2 _ he).2 rfl⟩

/-- **C62**: wherever extending a voucher file stops, whatever operation fails, the file holds the complete old voucher or
the complete extended one, and no file except the temporary one is touched. -/
theorem C62_never_lost (path keyPath certPath : Path) (t : Trace sig) (s s' : Files)
    (h : Prog.Does (extendVoucher T c path keyPath certPath) t) (hr : Run s t s') :
    (s' path = s path ∨ ∃ old pem, s path = some old ∧ ExtensionOf T c s keyPath certPath old pem ∧ s' path = some pem) ∧
    ∀ q, q ≠ path → q ≠ path ++ ".new".toList → s' q = s q :=
  (extend_run path keyPath certPath t s s' h hr).1

/-- **C62**, success: when the tool reports success the file holds the extended voucher and the temporary file is gone. -/
theorem C62_success (path keyPath certPath : Path) (t : Trace sig) (s s' : Files)
    (h : Prog.Ends (extendVoucher T c path keyPath certPath) t (.ok ())) (hr : Run s t s') :
    ∃ old pem, s path = some old ∧ ExtensionOf T c s keyPath certPath old pem ∧ s' path = some pem ∧
      s' (path ++ ".new".toList) = none :=
  (extend_run path keyPath certPath t s s' ⟨_, h⟩ hr).2 h

/-! ### Reading vouchers -/

/-- Assumptions about the `pem` crate: encoding starts with two dashes and is inverted by parsing. -/
structure PemLaws (T : Tool) : Prop where
  dashes : ∀ b, ∃ r, T.pemEncode "OWNERSHIP VOUCHER".toList b = 45 :: 45 :: r
  parse : ∀ b, T.pemParse (T.pemEncode "OWNERSHIP VOUCHER".toList b) = some ("OWNERSHIP VOUCHER".toList, b)

theorem head_length {m v : Nat} {h : Bytes} (hh : IsHead m v h) : 1 ≤ h.length := by
  cases hh <;> simp

theorem item_length {i : Bytes} (h : IsItem i) : 1 ≤ i.length := by
  cases h with
  | int _ hh => exact head_length hh
  | str _ hh => have := head_length hh; simp; omega
  | array hh => have := head_length hh; simp; omega
  | map hh => have := head_length hh; simp; omega
  | tag hh => have := head_length hh; simp; omega

theorem serialize_length {a : Cbor.ParsedArray} {bs : Bytes} (h : Cbor.serialize a = .ok bs) :
    1 + a.contents.flatten.length ≤ bs.length := by
  have key : ∀ {t : Bytes}, (do
      let h ← Cbor.encodeItemStart 4 a.contents.length
      pure (t ++ h ++ a.contents.flatten) : Res Cbor.ParseErr Bytes) = .ok bs → 1 + a.contents.flatten.length ≤ bs.length := by
    intro t h
    obtain ⟨ah, h4, h⟩ := Res.bind_eq_ok.1 h
    cases h
    have : 1 ≤ ah.length := by
      unfold Cbor.encodeItemStart at h4
      repeat' split at h4
      all_goals first | (cases h4; done) | (cases h4; simp)
    simp only [List.length_append]
    omega
  unfold Cbor.serialize at h
  simp only at h
  split at h
  · obtain ⟨t, _, h⟩ := Res.bind_eq_ok.1 h
    exact key h
  · obtain ⟨t, _, h⟩ := Res.bind_eq_ok.1 h
    exact key h

/-- **C66**, what holds: a voucher that can be written and read back (raw) is read back from its PEM form as well; reading
aborts only on a single byte or if parsing its CBOR does. -/
theorem C66_forms_partial (P : PemLaws T) (v : Voucher T.E) (w : Rewritable c v) :
    ∃ raw pem, Voucher.serialize v = .ok raw ∧ toPem T v = .ok pem ∧ fromPemOrRaw T c pem = .ok v ∧
      fromPem T c pem = .ok v ∧ fromPemOrRaw T c raw = .ok v := by
  obtain ⟨raw, h1, h2⟩ := rewritable_roundtrip w []
  rw [List.append_nil] at h2
  obtain ⟨r, hr⟩ := P.dashes raw
  have hraw : fromRaw T c raw = .ok v := by unfold fromRaw; rw [h2]; rfl
  have hpem : fromPem T c (T.pemEncode pemTag raw) = .ok v := by
    unfold fromPem
    rw [show T.pemParse (T.pemEncode pemTag raw) = some (pemTag, raw) from P.parse raw,
      show T.pemEncode pemTag raw = _ from hr]
    simpa using hraw
  refine ⟨raw, T.pemEncode pemTag raw, h1, by simp [toPem, h1], ?_, hpem, ?_⟩
  · have hr' : T.pemEncode pemTag raw = 45 :: 45 :: r := hr
    rw [hr'] at hpem ⊢
    exact hpem
  · -- a raw voucher starts with an array or tag head, never with a dash
    have hhead : ∃ x y r', raw = x :: y :: r' ∧ x ≠ 45 := by
      obtain ⟨x, r0, hx0, hx⟩ : ∃ x r', raw = x :: r' ∧ x ≠ 45 := by
        cases raw with
        | nil => cases h2
        | cons x r' => exact ⟨x, r', rfl, by rintro rfl; cases h2⟩
      have hlen : 2 ≤ raw.length := by
        have h3 : Cbor.serialize v.contents = .ok raw := liftP_eq_ok.1 h1
        have h4 := serialize_length h3
        have : 1 ≤ v.contents.contents.flatten.length := by
          have hl := w.wf.len
          cases hc : v.contents.contents with
          | nil => rw [hc] at hl; cases hl
          | cons i l =>
            have := item_length (w.items i (by rw [hc]; simp))
            simp only [List.flatten_cons, List.length_append]
            omega
        omega
      subst hx0
      cases r0 with
      | nil => simp at hlen
      | cons y r' => exact ⟨x, y, r', rfl, hx⟩
    obtain ⟨x, y, r', rfl, hx⟩ := hhead
    simp only [fromPemOrRaw, hx, and_false, if_false]
    exact hraw

/-- Reading aborts on a file with a single byte. -/
theorem C66_single_violated (T : Tool) (c : Bool) (x : UInt8) : fromPemOrRaw T c [x] = .panic := rfl

/-- **C66**: on any other contents reading aborts only if parsing the raw or the PEM contents as a voucher does. -/
theorem C66_total_partial (b : Bytes) (hb : b.length ≠ 1) (h : fromPemOrRaw T c b = .panic) :
    Voucher.deserialize (E := T.E) c b = .panic ∨
    ∃ tag contents, T.pemParse b = some (tag, contents) ∧ Voucher.deserialize (E := T.E) c contents = .panic := by
  have raw : ∀ x, fromRaw T c x = .panic → Voucher.deserialize (E := T.E) c x = .panic := by
    intro x hx
    unfold fromRaw at hx
    cases hd : Voucher.deserialize (E := T.E) c x with
    | ok r => rw [hd] at hx; cases hx
    | err e => rw [hd] at hx; cases hx
    | panic => rfl
  match b, hb, h with
  | [], _, h => cases h
  | [_], hb, _ => simp at hb
  | x :: y :: r, _, h =>
    simp only [fromPemOrRaw] at h
    split at h
    · unfold fromPem at h
      simp only [List.isEmpty_cons, Bool.false_eq_true, if_false] at h
      split at h
      · cases h
      · next tag contents heq =>
        split at h
        · cases h
        · exact .inr ⟨tag, contents, heq, raw _ h⟩
    · exact .inl (raw _ h)

/-! ### The extended voucher is a good one -/

/-- **C62** with C06 and C11: if the file holds a voucher with a verifying chain and the key is that of its current owner, then
wherever the tool stops the file can be read and holds the same voucher or the one with exactly one more entry, whose chain
verifies up to the new owner. (As in C06, up to 65535 entries.) -/
theorem C62_readable (L : CodecLaws T.E) (P : PemLaws T) (path keyPath certPath : Path) (t : Trace sig) (s s' : Files)
    (old kb cb : Bytes) (v : Voucher T.E) (k : T.E.Priv) (n : T.E.Pub) (ps : List (Payload T.E))
    (hold : s path = some old) (hv : fromPemOrRaw T c old = .ok v) (hkb : s keyPath = some kb) (hk : T.privateKey kb = some k)
    (hcb : s certPath = some cb) (hn : T.certKey cb = some n)
    (w : Rewritable c v) (htag : v.entries.tag = none) (hlen : v.entries.contents.length < 65535)
    (hitems : ∀ i ∈ v.entries.contents, IsItem i) (hps : verifyAll c v = .ok ps) (hgood : GoodKey T.E k)
    (hown : T.E.keyMatches (lastOwner v.header.mfgKey ps) k = true) (hsmall : SmallPayload T.E none n)
    (h : Prog.Does (extendVoucher T c path keyPath certPath) t) (hr : Run s t s') :
    ∃ now, s' path = some now ∧ (fromPemOrRaw T c now = .ok v ∨ ∃ v' raw p, fromPemOrRaw T c now = .ok v' ∧
      v'.entries.contents = v.entries.contents ++ [raw] ∧ v'.header = v.header ∧ v'.hmac = v.hmac ∧ v'.chain = v.chain ∧
      verifyAll c v' = .ok (ps ++ [p]) ∧ p.publicKey = n) := by
  obtain ⟨h1 | ⟨old', pem, h1, h2, h3⟩, _⟩ := C62_never_lost path keyPath certPath t s s' h hr
  · exact ⟨old, by rw [h1, hold], .inl hv⟩
  · refine ⟨pem, h3, .inr ?_⟩
    rw [hold] at h1
    cases h1
    obtain ⟨v0, kb0, k0, cb0, n0, v', b, e1, e2, e3, e4, e5, e6, e7, e8⟩ := h2
    rw [hv] at e1
    cases e1
    rw [hkb] at e2
    cases e2
    rw [hk] at e3
    cases e3
    rw [hcb] at e4
    cases e4
    rw [hn] at e5
    cases e5
    obtain ⟨v1, raw, p, a1, a2, a3, a4, a5, a6, a7, a8, a9, a10, a11, a12, a13, a14, a15⟩ :=
      C06_extend_partial L v w.wf htag hlen hitems ps hps k hgood hown none nofun n hsmall
    rw [e6] at a1
    cases a1
    have hit : ∀ i ∈ v'.entries.contents, IsItem i := by
      intro i hi'
      rw [a6] at hi'
      rcases List.mem_append.1 hi' with hi' | hi'
      · exact hitems i hi'
      · simp only [List.mem_singleton] at hi'; subst hi'; exact a7
    have r1 : Rewritable c v' := rewritable_extend w e6 a15 a8 hit (by rw [a6]; simp; omega) a13 a14
    obtain ⟨raw', pem', f1, f2, f3, _⟩ := C66_forms_partial P v' r1
    have : pem = pem' := by
      rw [e7] at f1
      cases f1
      have : toPem T v' = .ok (T.pemEncode pemTag b) := by simp [toPem, e7]
      rw [this] at f2
      cases f2
      exact e8
    exact ⟨v', raw, p, by rw [this]; exact f3, a6, a9, a10, a11, a2, a3⟩

/-! ### C67 -/

/-- **C67**: initialising a device. In every run: no file but the two is touched, and neither is if it existed. -/
theorem C67_no_overwrite (i : InitInput T) (ovPath credPath : Path) (t : Trace sig) (s s' : Files)
    (h : Prog.Does (initDevice T i ovPath credPath) t) (hr : Run s t s') :
    (∀ q, q ≠ ovPath → q ≠ credPath → s' q = s q) ∧
    ((s ovPath).isSome ∨ (s credPath).isSome → s' = s) := by
  have H : Hoare Step (fun u => (∀ q, q ≠ ovPath → q ≠ credPath → u q = s q) ∧
      ((s ovPath).isSome ∨ (s credPath).isSome → u = s)) (fun u => u = s) (initDevice T i ovPath credPath)
      (fun _ u => (∀ q, q ≠ ovPath → q ≠ credPath → u q = s q) ∧ ((s ovPath).isSome ∨ (s credPath).isSome → u = s)) := by
    have hI : ∀ u : Files, u = s → (∀ q, q ≠ ovPath → q ≠ credPath → u q = s q) ∧
        ((s ovPath).isSome ∨ (s credPath).isSome → u = s) := by
      rintro u rfl
      exact ⟨fun _ _ _ => rfl, fun _ => rfl⟩
    unfold initDevice
    refine Hoare.bind (M := fun x u => x = (s credPath).isSome ∧ u = s) (Hoare.act hI fun a => Hoare.ret ?_ ?_)
      (fun _ _ h => h) fun x => Hoare.assume fun hx => ?_
    · rintro u ⟨u0, rfl, hs⟩
      cases hs
      exact hI _ rfl
    · rintro u ⟨u0, rfl, hs⟩
      cases hs
      exact ⟨rfl, rfl⟩
    refine Hoare.bind (M := fun _ u => x = false ∧ u = s) (Hoare.check hI (fun u hb hu => ⟨by simpa using hb, hu⟩)
      (fun u _ hu => hI u hu)) (fun _ _ h => h) fun _ => Hoare.assume fun hx' => ?_
    refine Hoare.bind (M := fun y u => y = (s ovPath).isSome ∧ u = s) (Hoare.act hI fun a => Hoare.ret ?_ ?_)
      (fun _ _ h => h) fun y => Hoare.assume fun hy => ?_
    · rintro u ⟨u0, rfl, hs⟩
      cases hs
      exact hI _ rfl
    · rintro u ⟨u0, rfl, hs⟩
      cases hs
      exact ⟨rfl, rfl⟩
    refine Hoare.bind (M := fun _ u => y = false ∧ u = s) (Hoare.check hI (fun u hb hu => ⟨by simpa using hb, hu⟩)
      (fun u _ hu => hI u hu)) (fun _ _ h => h) fun _ => Hoare.assume fun hy' => ?_
    have hno : ¬((s ovPath).isSome = true ∨ (s credPath).isSome = true) := by
      rw [← hx, ← hy, hx', hy']
      simp
    refine Hoare.bind (M := fun _ u => u = s) (Hoare.lift hI fun u hu => ?_) (fun _ _ h => h) fun pr => ?_
    · cases liftE (initPair T i) with
      | ok v => exact hu
      | err e => exact hI u hu
      | panic => exact hI u hu
    obtain ⟨v, cr⟩ := pr
    refine Hoare.bind (M := fun _ u => u = s) (Hoare.lift hI fun u hu => ?_) (fun _ _ h => h) fun pem => ?_
    · cases liftE (toPem T v) with
      | ok v => exact hu
      | err e => exact hI u hu
      | panic => exact hI u hu
    refine Hoare.bind (M := fun _ u => ∃ w : Files, (∀ q, q ≠ ovPath → w q = s q) ∧ u = w)
      (writeFile_hoare (fun u h _ => ⟨fun q hq _ => h q hq, fun h => absurd h hno⟩) (fun u h _ => ⟨u, h, rfl⟩)
        (fun u h _ => ⟨fun q hq _ => h q hq, fun h => absurd h hno⟩)) (fun _ _ h => h)
      fun _ => Hoare.exists_pre fun w => Hoare.assume fun hw => ?_
    exact writeFile_hoare (fun u h _ => ⟨fun q h1 h2 => by rw [h q h2, hw q h1], fun h => absurd h hno⟩)
      (fun u h _ => ⟨fun q h1 h2 => by rw [h q h2, hw q h1], fun h => absurd h hno⟩)
      (fun u h _ => ⟨fun q h1 h2 => by rw [h q h2, hw q h1], fun h => absurd h hno⟩)
  exact (H s t s' rfl hr).1 h

/-- **C67**: after success the two files hold a voucher and a credential which belong together: same GUID, the voucher's
HMAC is accepted by the credential for exactly the voucher's header, the manufacturer key of the voucher has the digest
noted in the credential, and the credential is active. Assumed of the credential's codec is that a credential like this one is read as it
was written (shown for the form of data-formats in C86). -/
theorem C67_matching (L : LeafLaws T.E) (C : CodecLaws T.E) (P : PemLaws T)
    (i : InitInput T) (ovPath credPath : Path) (hne : ovPath ≠ credPath) (hg : i.guid.length = 16)
    (hs : SmallHeader T.E i.rv (T.trim i.id) i.mfgKey (some i.chainHash))
    (hsz : ∀ bs, Cbor.serialize (Header.new T.E 101 i.guid i.rv (T.trim i.id) i.mfgKey (some i.chainHash)).contents = .ok bs →
      bs.length < 2 ^ 63)
    (hm : ∀ x, x.length = 48 → (T.E.encHash ⟨.hmacSha384, x⟩).length < 2 ^ 63) (hch : (T.E.encChainOpt (some i.chain)).length < 2 ^ 63)
    (t : Trace sig) (s s' : Files) (h : Prog.Ends (initDevice T i ovPath credPath) t (.ok ())) (hr : Run s t s')
    (hC : ∀ cr, cr.version = 101 → cr.guid.length = 16 → cr.rvinfo = T.E.encRv i.rv → s' credPath = some (T.codec.enc cr) →
      T.codec.dec (T.codec.enc cr) = some cr) :
    ∃ pem cb v cr hb, s' ovPath = some pem ∧ s' credPath = some cb ∧ fromPemOrRaw T c pem = .ok v ∧
      T.codec.dec cb = some cr ∧ cr.active = true ∧ cr.guid = v.header.guid ∧ v.header.guid = i.guid ∧
      v.header.serialize T.E = .ok hb ∧ cr.verifyHmac T.keys hb v.hmac = .ok () ∧
      cr.keyHash = ⟨.sha384, T.E.digest .sha384 (T.E.encPub i.mfgKey)⟩ ∧ v.header.mfgKey = i.mfgKey ∧ v.entries.contents = [] := by
  unfold initDevice at h
  obtain ⟨_, _, u1, rfl, e1, h1⟩ := Proc.ends_bind h
  obtain ⟨_, _, u2, rfl, e2, h2⟩ := Proc.ends_bind h1
  obtain ⟨_, _, u3, rfl, e3, h3⟩ := Proc.ends_bind h2
  obtain ⟨_, _, u4, rfl, e4, h4⟩ := Proc.ends_bind h3
  obtain ⟨⟨v, cr⟩, _, u5, rfl, e5, h5⟩ := Proc.ends_bind h4
  obtain ⟨pem, _, u6, rfl, e6, h6⟩ := Proc.ends_bind h5
  obtain ⟨_, w1, w2, rfl, e7, h7⟩ := Proc.ends_bind h6
  obtain ⟨rfl, hpair⟩ := Proc.ends_lift e5
  obtain ⟨rfl, hpem⟩ := Proc.ends_lift e6
  have hpair := liftE_ok hpair
  have hpem := liftE_ok hpem
  obtain ⟨_, _, hr⟩ := run_append hr
  obtain ⟨_, _, hr⟩ := run_append hr
  obtain ⟨_, _, hr⟩ := run_append hr
  obtain ⟨_, _, hr⟩ := run_append hr
  rw [List.nil_append, List.nil_append] at hr
  obtain ⟨a, r1, r2⟩ := run_append hr
  have f1 := writeFile_ends e7 r1
  have f2 := writeFile_ends h7 r2
  have f3 := (writeFile_does ⟨_, h7⟩ r2).1 ovPath hne
  unfold initPair at hpair
  simp only at hpair
  obtain ⟨hb, g1, hpair⟩ := Res.bind_eq_ok.1 hpair
  obtain ⟨kh, g2, hpair⟩ := Res.bind_eq_ok.1 hpair
  obtain ⟨hmac, g3, hpair⟩ := Res.bind_eq_ok.1 hpair
  obtain ⟨v0, g4, hpair⟩ := Res.bind_eq_ok.1 hpair
  cases hpair
  have hok : deviceInfoOk (T.trim i.id) = true := by
    unfold Header.serialize at g1
    split at g1
    · cases g1
    · next hn => simpa [Header.new] using hn
  have hmac' : hmac = ⟨.hmacSha384, T.keys.hmac .hmacSha384 i.secret hb⟩ ∧
      (T.keys.hmac .hmacSha384 i.secret hb).length = 48 := by
    unfold Hash.fromDigest at g3
    split at g3
    · cases g3
    · next hl =>
      cases g3
      exact ⟨rfl, by simpa [HashType.digestSize] using hl⟩
  obtain ⟨v1, n1, n2, n3, n4, n5, n6, n7⟩ := rewritable_new (c := c) L C (headerWf_new L (.inr rfl) hg hok hs)
    (hmac := hmac) (by rw [hmac'.1]; exact hm _ hmac'.2) hch hsz
  rw [g4] at n1
  cases n1
  obtain ⟨raw, pem', p1, p2, p3, _⟩ := C66_forms_partial P v n2
  rw [hpem] at p2
  cases p2
  refine ⟨pem, _, v, _, hb, by rw [f3, f1], f2, p3, hC _ rfl hg rfl f2, rfl, by rw [n3]; rfl, by rw [n3]; rfl, by rw [n3]; exact g1,
    ?_, ?_, by rw [n3]; rfl, by rw [n6]⟩
  · have hp : Credential.KeyStorage.performHmac T.keys (.plain i.secret i.privateKey) hb v.hmac.type = .ok v.hmac := by
      rw [n4, hmac'.1]
      unfold Credential.KeyStorage.performHmac Hash.fromDigest
      show (if _ then _ else _) = _
      rw [if_neg (by simp [hmac'.2, HashType.digestSize])]
    unfold Credential.Cred.verifyHmac
    simp only
    rw [hp, Res.bind_ok]
    simp [Hash.compare, memcmpEq]
  · unfold mfgKeyHash at g2
    obtain ⟨raw, hraw, g2⟩ := Res.bind_eq_ok.1 g2
    have : raw = T.E.encPub i.mfgKey := by
      simpa [getRaw, Header.new] using hraw.symm
    rw [this] at g2
    unfold Env.hashData at g2
    cases g2
    rfl

/-! ### A concrete run -/

namespace Toy

/-- The toy environment of the voucher examples with the simplest formats: two dashes mark PEM. -/
@[reducible] def tool : Tool where
  E := Verif.Toy.env
  pemParse b := match b with
    | 45 :: 45 :: r => some ("OWNERSHIP VOUCHER".toList, r)
    | _ => none
  pemEncode _ b := 45 :: 45 :: b
  privateKey b := b.head?
  certKey b := b.head?
  trim s := s
  codec := { enc := fun cr => if cr.active then 1 :: cr.guid else [0], dec := fun _ => none }
  keys := { hmac := fun t k d => Verif.Toy.digest t (k ++ d), tpm := fun _ _ _ => none }

theorem pemLaws : PemLaws tool := ⟨fun _ => ⟨_, rfl⟩, fun _ => rfl⟩

def input : InitInput tool where
  id := "FDO device 1"
  mfgKey := (7 : UInt8)
  rv := ()
  chain := (9 : UInt8)
  chainHash := ⟨.sha384, List.replicate 48 1⟩
  secret := [1, 2, 3]
  privateKey := [4]
  guid := List.replicate 16 0xaa

def ov : Path := "device.ov".toList
def cred : Path := "device.dc".toList
def key : Path := "owner.key".toList
def cert : Path := "new.crt".toList

/-- Before: the manufacturer's key and the certificate of the new owner, whose key is 11. -/
def before : Files := fun q => if q = key then some [7] else if q = cert then some [11] else none

/-- After initialising a device. -/
def made : Files := (Prog.exec faithful before (initDevice tool input ov cred)).1

/-- After extending its voucher. -/
def sold : Files := (Prog.exec faithful made (extendVoucher tool true ov key cert)).1

/-- The device is initialised, its voucher read and extended to the owner with key 11, read again and verified. -/
def check : Bool :=
  (match (Prog.exec faithful before (initDevice tool input ov cred)).2 with
    | .ok () => true
    | _ => false) &&
  (match (Prog.exec faithful made (extendVoucher tool true ov key cert)).2 with
    | .ok () => true
    | _ => false) &&
  (match made ov, sold ov with
    | some a, some b => match fromPemOrRaw tool true a, fromPemOrRaw tool true b with
      | .ok v, .ok v' => v.entries.contents.length == 0 && v'.entries.contents.length == 1 &&
        (match verifyAll true v' with
          | .ok ps => (ps.map (·.publicKey) : List UInt8) == [11]
          | _ => false)
      | _, _ => false
    | _, _ => false) && sold (newName ov) == none && (made cred).isSome

end Toy

/-- The runs of C62 and C67 exist and do what is expected. -/
example : Toy.check = true := by decide +kernel

end Verif.OwnerTool

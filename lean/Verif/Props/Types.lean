import Verif.Model.Types
import Verif.Lemmas.Cbor
import Mathlib.Data.List.Forall2
/-!
Properties C13–C17, C20, C21: digests, GUIDs, key exchange, service info.
-/
namespace Verif.Types
open Verif Verif.Cbor

/-! ### C13 -/

/-- **C13** for values of equal length: the comparison decides equality of the bytes. Missing: values
of different lengths (`C13_compare_violated`) and the digest type, which is not looked at
(`C13_type_ignored_violated`). -/
theorem C13_compare_partial (a b : Hash) (h : a.value.length = b.value.length) :
    (a.value = b.value → a.compare b = .ok ()) ∧
    (a.value ≠ b.value → a.compare b = .err .incorrectHash) := by
  unfold Hash.compare memcmpEq
  rw [if_neg (by simpa using h)]
  constructor
  · intro he; simp [he]
  · intro hne
    have : (a.value == b.value) = false := by simpa using hne
    rw [this]

/-- Comparison aborts exactly if the lengths differ. -/
theorem C13_compare_violated (a b : Hash) :
    a.compare b = .panic ↔ a.value.length ≠ b.value.length := by
  unfold Hash.compare memcmpEq
  by_cases h : a.value.length = b.value.length
  · rw [if_neg (by simpa using h)]
    simp only [h, ne_eq, not_true, iff_false]
    split <;> simp_all
  · rw [if_pos h]; simp [h]

/-- Two digests of different types compare as equal. -/
theorem C13_type_ignored_violated : ∃ a b : Hash, a.type ≠ b.type ∧ a.compare b = .ok () :=
  ⟨⟨.sha256, [1, 2]⟩, ⟨.hmacSha384, [1, 2]⟩, by decide, by decide⟩

/-- The header HMAC check of the device: for a received value of the right length it accepts exactly
the right HMAC; a received value of any other length aborts the client. -/
theorem C13_verify_hmac_partial (hmac : HashType → Bytes → Bytes)
    (hlen : ∀ t d, (hmac t d).length = t.digestSize) (data : Bytes) (h : Hash) :
    (h.value.length = h.type.digestSize →
      (verifyHmac hmac data h = .ok () ↔ h.value = hmac h.type data) ∧
      (h.value ≠ hmac h.type data → verifyHmac hmac data h = .err .incorrectHash)) ∧
    (h.value.length ≠ h.type.digestSize → verifyHmac hmac data h = .panic) := by
  have e : verifyHmac hmac data h = h.compare ⟨h.type, hmac h.type data⟩ := by
    unfold verifyHmac Hash.fromDigest
    rw [if_neg (by simp [hlen])]
    rfl
  rw [e]
  constructor
  · intro hl
    obtain ⟨p1, p2⟩ := C13_compare_partial h ⟨h.type, hmac h.type data⟩ (by simp [hl, hlen])
    refine ⟨⟨?_, p1⟩, p2⟩
    intro hk
    by_cases hv : h.value = hmac h.type data
    · exact hv
    · rw [p2 hv] at hk; cases hk
  · intro hl
    exact (C13_compare_violated _ _).2 (by simp [hlen, hl])

example : (⟨.sha256, List.replicate 32 1⟩ : Hash).compare ⟨.sha256, List.replicate 32 2⟩ = .err .incorrectHash :=
  (C13_compare_partial _ _ (by decide)).2 (by decide)

example : verifyHmac (fun t _ => List.replicate t.digestSize 7) [1, 2, 3] ⟨.hmacSha256, []⟩ = .panic :=
  (C13_verify_hmac_partial _ (by simp) _ _).2 (by decide)

/-! ### C14 -/

/-- **C14**: a digest constructed from raw bytes exists exactly if the length is that of the
algorithm, and holds those bytes. -/
theorem C14_from_digest (t : HashType) (v : Bytes) :
    (v.length = t.digestSize → Hash.fromDigest t v = .ok ⟨t, v⟩) ∧
    (∀ h, Hash.fromDigest t v = .ok h → h = ⟨t, v⟩ ∧ h.value.length = t.digestSize) ∧
    Hash.fromDigest t v ≠ .panic := by
  unfold Hash.fromDigest
  refine ⟨?_, ?_, ?_⟩
  · intro h; rw [if_neg (by simpa using h)]
  · intro h hk
    split at hk
    · cases hk
    · rename_i hl
      cases hk
      exact ⟨rfl, by simpa using hl⟩
  · split <;> simp

/-- **C14**: a digest computed from data verifies against that data, and against other data exactly if
that has the same digest. -/
theorem C14_from_data (E : Env) (hlen : ∀ t d, (E.digest t d).length = t.digestSize) (t : HashType)
    (data other : Bytes) (h : Hash) (hd : E.hashData t data = .ok h) :
    E.compareData h data = .ok () ∧
    (E.compareData h other = .ok () ↔ E.digest t other = E.digest t data) := by
  unfold Env.hashData at hd
  split at hd
  · rename_i hp
    cases hd
    have key : ∀ o, (E.compareData ⟨t, E.digest t data⟩ o = .ok () ↔ E.digest t o = E.digest t data) := by
      intro o
      unfold Env.compareData
      simp only [hp, if_true]
      obtain ⟨p1, p2⟩ := C13_compare_partial ⟨t, E.digest t data⟩ ⟨t, E.digest t o⟩ (by simp [hlen])
      constructor
      · intro hk
        by_cases hv : E.digest t data = E.digest t o
        · exact hv.symm
        · have hc := hk.symm.trans (p2 hv)
          cases hc
      · intro hv; exact p1 hv.symm
    exact ⟨(key data).2 rfl, key other⟩
  · cases hd

theorem hexVal_hexDigit {n : Nat} (h : n < 16) : hexVal (hexDigit n) = some n := by
  have : ∀ m : Fin 16, hexVal (hexDigit m.val) = some m.val := by decide
  exact this ⟨n, h⟩

theorem hexDecode_encode (b : Bytes) : hexDecode (hexEncode b) = some b := by
  induction b with
  | nil => rfl
  | cons x r ih =>
    have hx := x.toNat_lt
    simp only [hexEncode, hexDecode, hexVal_hexDigit (show x.toNat / 16 < 16 by omega),
      hexVal_hexDigit (show x.toNat % 16 < 16 by omega), ih]
    rw [show 16 * (x.toNat / 16) + x.toNat % 16 = x.toNat by omega, UInt8.ofNat_toNat]

theorem splitFirst_append {c : Char} {a b : List Char} (h : c ∉ a) :
    splitFirst c (a ++ c :: b) = some (a, b) := by
  induction a with
  | nil => simp [splitFirst]
  | cons x a ih =>
    simp only [List.mem_cons, not_or] at h
    simp only [List.cons_append, splitFirst, if_neg (Ne.symm h.1), ih h.2]

theorem splitFirst_sound {c : Char} {s a b : List Char} (h : splitFirst c s = some (a, b)) :
    s = a ++ c :: b ∧ c ∉ a := by
  induction s generalizing a b with
  | nil => cases h
  | cons x s ih =>
    simp only [splitFirst] at h
    split at h
    · rename_i hx; cases h; subst hx; simp
    · rename_i hx
      split at h
      · rename_i a' b' hs
        cases h
        obtain ⟨e, hn⟩ := ih hs
        refine ⟨by rw [e]; rfl, ?_⟩
        simp only [List.mem_cons, not_or]
        exact ⟨Ne.symm hx, hn⟩
      · cases h

theorem splitFirst_none {c : Char} {s : List Char} : splitFirst c s = none ↔ c ∉ s := by
  induction s with
  | nil => simp [splitFirst]
  | cons x s ih =>
    simp only [splitFirst, List.mem_cons, not_or]
    split
    · rename_i hx; simp [hx]
    · rename_i hx
      split
      · rename_i hs
        constructor
        · intro h; cases h
        · rintro ⟨_, h⟩
          rw [ih.2 h] at hs; cases hs
      · rename_i hs
        simp [Ne.symm hx, ih.1 hs]

/-- **C14** (text form): every accepted text yields a digest of the algorithm's length, parsing never
aborts, and the printed form `algorithm:hex` of every digest of the right length is accepted. -/
theorem C14_from_text (s : List Char) :
    (∀ h, hashFromStr s = .ok h → h.value.length = h.type.digestSize ∧ h.type.isPlain = true) ∧
    hashFromStr s ≠ .panic := by
  unfold hashFromStr
  split
  · simp
  · rename_i alg val _
    constructor
    · intro h hk
      obtain ⟨t, h1, hk⟩ := Res.bind_eq_ok.1 hk
      obtain ⟨v, h2, hk⟩ := Res.bind_eq_ok.1 hk
      obtain ⟨e1, e2⟩ := (C14_from_digest t v).2.1 h hk
      subst e1
      refine ⟨e2, ?_⟩
      unfold hashTypeFromStr at h1
      split at h1
      · cases h1; rfl
      · split at h1
        · cases h1; rfl
        · cases h1
    · intro hk
      rcases Res.bind_eq_panic.1 hk with h1 | ⟨t, _, hk⟩
      · unfold hashTypeFromStr at h1
        split at h1
        · cases h1
        · split at h1 <;> cases h1
      · rcases Res.bind_eq_panic.1 hk with h2 | ⟨v, _, hk⟩
        · exact ofOpt_ne_panic h2
        · exact (C14_from_digest t v).2.2 hk

theorem C14_from_text_accepts (v : Bytes) :
    (v.length = 32 → hashFromStr ("sha256".toList ++ ':' :: hexEncode v) = .ok ⟨.sha256, v⟩) ∧
    (v.length = 48 → hashFromStr ("sha384".toList ++ ':' :: hexEncode v) = .ok ⟨.sha384, v⟩) := by
  constructor
  · intro hl
    unfold hashFromStr
    rw [splitFirst_append (by decide)]
    simp only [hexDecode_encode, ofOpt_some, Res.bind_ok]
    have : hashTypeFromStr "sha256".toList = .ok .sha256 := by decide
    rw [this, Res.bind_ok]
    exact (C14_from_digest _ _).1 hl
  · intro hl
    unfold hashFromStr
    rw [splitFirst_append (by decide)]
    simp only [hexDecode_encode, ofOpt_some, Res.bind_ok]
    have : hashTypeFromStr "sha384".toList = .ok .sha384 := by decide
    rw [this, Res.bind_ok]
    exact (C14_from_digest _ _).1 hl

example : (hashFromStr ("sha256".toList ++ ':' :: hexEncode (List.replicate 32 0xab))) =
    .ok ⟨.sha256, List.replicate 32 0xab⟩ := (C14_from_text_accepts _).1 rfl

/-! ### C15 -/

/-- **C15** (round trip, and rejection of a wrong prefix). Missing: the empty string aborts and the
length is not checked (`C15_ueid_violated`). -/
theorem C15_ueid_partial (g : Bytes) : fromUeid (asUeid g) = .ok g ∧
    (∀ b r, b ≠ 0x01 → fromUeid (b :: r) = .err .inconsistentValue) ∧
    (∀ u, fromUeid u = .ok g → u = asUeid g) := by
  refine ⟨rfl, ?_, ?_⟩
  · intro b r h
    simp [fromUeid, h]
  · intro u h
    unfold fromUeid at h
    split at h
    · cases h
    · split at h
      · cases h
      · rename_i hb
        simp only [ne_eq, Decidable.not_not] at hb
        cases h
        rw [hb]; rfl

/-- The full C15 is false: an empty UEID aborts, and UEIDs of every length are accepted, giving GUIDs
which are not 16 bytes long. -/
theorem C15_ueid_violated : fromUeid [] = .panic ∧
    ∀ g : Bytes, fromUeid (0x01 :: g) = .ok g := ⟨rfl, fun _ => rfl⟩

example : fromUeid (asUeid (List.replicate 16 0xaa)) = .ok (List.replicate 16 0xaa) :=
  (C15_ueid_partial _).1

/-! ### C16 -/

theorem takeEcdh_of {x : Bytes} (h : x.length < 65536) (rest : Bytes) :
    takeEcdh (be16 x.length ++ x ++ rest) = .ok (x, rest) := by
  have hb : (be16 x.length).length = 2 := by simp [be16, toBe_length]
  have e1 : (be16 x.length ++ x ++ rest).take 2 = be16 x.length := by
    rw [List.append_assoc, List.take_append_of_le_length (by omega), List.take_of_length_le (by omega)]
  have e2 : (be16 x.length ++ x ++ rest).drop 2 = x ++ rest := by
    rw [List.append_assoc, List.drop_append_of_le_length (by omega), List.drop_of_length_le (by omega)]
    rfl
  have e3 : beNat (be16 x.length) = x.length := by
    unfold be16
    rw [beNat_toBe _ _ (by omega)]
    omega
  unfold takeEcdh
  rw [if_neg (by simp [hb])]
  simp only [e1, e2, e3]
  rw [if_neg (by simp)]
  simp

theorem toBe_beNat_two (a b : UInt8) : toBe 2 (beNat [a, b]) = [a, b] := by
  have ha := a.toNat_lt
  have hb := b.toNat_lt
  have e : beNat [a, b] = a.toNat * 256 + b.toNat := by simp [beNat]
  rw [e]
  simp only [toBe, List.nil_append, List.cons_append]
  have h1 : (a.toNat * 256 + b.toNat) / 256 = a.toNat := by omega
  rw [h1]
  simp

theorem takeEcdh_sound {b x rest : Bytes} (h : takeEcdh b = .ok (x, rest)) :
    x.length < 65536 ∧ b = be16 x.length ++ x ++ rest := by
  unfold takeEcdh at h
  split at h
  · cases h
  · rename_i hl
    simp only at h
    split at h
    · cases h
    · rename_i hn
      cases h
      match b, hl, hn with
      | [], hl, _ => simp at hl
      | [_], hl, _ => simp at hl
      | a :: c :: t, _, hn =>
        have ha := a.toNat_lt
        have hc := c.toNat_lt
        have e : beNat [a, c] = a.toNat * 256 + c.toNat := by simp [beNat]
        simp only [List.take_succ_cons, List.take_zero, List.drop_succ_cons, List.drop_zero] at hn ⊢
        have hlen : (t.take (beNat [a, c])).length = beNat [a, c] := by
          rw [List.length_take]; omega
        refine ⟨by rw [hlen, e]; omega, ?_⟩
        rw [hlen]
        unfold be16
        rw [Nat.mod_eq_of_lt (by omega), toBe_beNat_two]
        simp

theorem takeEcdh_not_err {b : Bytes} {e : Err} : takeEcdh b ≠ .err e := by
  unfold takeEcdh
  split
  · simp
  · simp only
    split <;> simp

/-- **C16**: the decoder returns `(x, y, r)` exactly for the encoding of `(x, y, r)` with components
shorter than 65536; an encoding followed by further bytes is an error. Missing: truncated input
aborts instead of being reported (`C16_truncated_violated`). -/
theorem C16_ecdh_partial (x y r : Bytes) (b : Bytes) :
    (decodeEcdh b = .ok (x, y, r) ↔
      b = encodeEcdh x y r ∧ x.length < 65536 ∧ y.length < 65536 ∧ r.length < 65536) ∧
    (x.length < 65536 → y.length < 65536 → r.length < 65536 → b ≠ [] →
      decodeEcdh (encodeEcdh x y r ++ b) = .err .inconsistentValue) := by
  have run : ∀ b, x.length < 65536 → y.length < 65536 → r.length < 65536 →
      decodeEcdh (encodeEcdh x y r ++ b) = if b ≠ [] then .err .inconsistentValue else .ok (x, y, r) := by
    intro b hx hy hr
    unfold decodeEcdh encodeEcdh
    have e1 : be16 x.length ++ x ++ (be16 y.length ++ y) ++ (be16 r.length ++ r) ++ b =
        be16 x.length ++ x ++ (be16 y.length ++ y ++ (be16 r.length ++ r ++ b)) := by simp
    rw [e1, takeEcdh_of hx, Res.bind_ok]
    simp only
    rw [takeEcdh_of hy, Res.bind_ok]
    simp only
    rw [takeEcdh_of hr, Res.bind_ok]
    simp only [Res.pure_eq]
  refine ⟨⟨?_, ?_⟩, ?_⟩
  · intro h
    unfold decodeEcdh at h
    obtain ⟨⟨x', b1⟩, h1, h⟩ := Res.bind_eq_ok.1 h
    obtain ⟨⟨y', b2⟩, h2, h⟩ := Res.bind_eq_ok.1 h
    obtain ⟨⟨r', b3⟩, h3, h⟩ := Res.bind_eq_ok.1 h
    simp only at h2 h3 h
    split at h
    · cases h
    · rename_i hb
      cases h
      obtain ⟨l1, e1⟩ := takeEcdh_sound h1
      obtain ⟨l2, e2⟩ := takeEcdh_sound h2
      obtain ⟨l3, e3⟩ := takeEcdh_sound h3
      refine ⟨?_, l1, l2, l3⟩
      simp only [ne_eq, Decidable.not_not] at hb
      rw [e1, e2, e3, hb]
      simp [encodeEcdh]
  · rintro ⟨rfl, hx, hy, hr⟩
    have := run [] hx hy hr
    simpa using this
  · intro hx hy hr hb
    rw [run b hx hy hr, if_pos hb]

/-- The full C16 is false: every proper prefix of an encoding aborts the process (this is data
received from the peer). -/
theorem C16_truncated_violated (x y r : Bytes) (hx : x.length < 65536) (hy : y.length < 65536)
    (hr : r.length < 65536) (b t : Bytes) (ht : t ≠ []) (h : b ++ t = encodeEcdh x y r) :
    decodeEcdh b = .panic := by
  cases hd : decodeEcdh b with
  | panic => rfl
  | ok p =>
    exfalso
    obtain ⟨x', y', r'⟩ := p
    obtain ⟨e, l1, l2, l3⟩ := (C16_ecdh_partial x' y' r' b).1.1 hd
    have h1 := (C16_ecdh_partial x' y' r' t).2 l1 l2 l3 ht
    rw [← e, h] at h1
    have h2 := (C16_ecdh_partial x y r (encodeEcdh x y r)).1.2 ⟨rfl, hx, hy, hr⟩
    rw [h2] at h1
    cases h1
  | err e =>
    exfalso
    unfold decodeEcdh at hd
    rcases Res.bind_eq_err.1 hd with hd | ⟨⟨x', b1⟩, h1, hd⟩
    · exact takeEcdh_not_err hd
    rcases Res.bind_eq_err.1 hd with hd | ⟨⟨y', b2⟩, h2, hd⟩
    · exact takeEcdh_not_err hd
    rcases Res.bind_eq_err.1 hd with hd | ⟨⟨r', b3⟩, h3, hd⟩
    · exact takeEcdh_not_err hd
    simp only at h2 h3 hd
    split at hd
    · rename_i hb3
      obtain ⟨l1, e1⟩ := takeEcdh_sound h1
      obtain ⟨l2, e2⟩ := takeEcdh_sound h2
      obtain ⟨l3, e3⟩ := takeEcdh_sound h3
      have eb : b = encodeEcdh x' y' r' ++ b3 := by
        rw [e1, e2, e3]; simp [encodeEcdh]
      have hk := (C16_ecdh_partial x' y' r' (b3 ++ t)).2 l1 l2 l3 (by simp [hb3])
      rw [← List.append_assoc, ← eb, h] at hk
      have h2 := (C16_ecdh_partial x y r (encodeEcdh x y r)).1.2 ⟨rfl, hx, hy, hr⟩
      rw [h2] at hk
      cases hk
    · cases hd

example : decodeEcdh (encodeEcdh [1, 2, 3] [4] []) = .ok ([1, 2, 3], [4], []) :=
  (C16_ecdh_partial _ _ _ _).1.2 ⟨rfl, by decide, by decide, by decide⟩

example : decodeEcdh [0, 3, 1] = .panic :=
  C16_truncated_violated [1, 2, 3] [] [] (by decide) (by decide) (by decide) _ [2, 3, 0, 0, 0, 0] (by simp) rfl

/-! ### C17 -/

/-- Assumptions about the key exchange primitives: commutativity, coordinates that fit the wire
format, and a KDF yielding the requested number of bytes. -/
structure KexLaws (K : KexEnv) : Prop where
  ec_comm : ∀ s a b, K.ecShared s a (K.ecPublic s b) = K.ecShared s b (K.ecPublic s a)
  ec_len : ∀ s a, (K.ecPublic s a).1.length < 65536 ∧ (K.ecPublic s a).2.length < 65536
  dh_comm : ∀ s a b, K.dhShared s a (K.dhPublic s b) = K.dhShared s b (K.dhPublic s a)
  kdf_len : ∀ n l i k len out, K.kdf n l i k len = some out → out.length = len

/-- Two key exchanges as `KeyExchange::new` makes them: same suite, randoms of the suite's size. -/
def SameSuite {K : KexEnv} : KeyExchange K → KeyExchange K → Prop
  | .ecdh s _ r, .ecdh s' _ r' => s = s' ∧ s.isEcdh = true ∧ r.length = s.randomSize ∧ r'.length = s.randomSize
  | .dh s _, .dh s' _ => s = s'
  | _, _ => False

theorem deriveEcdh_public {K : KexEnv} (L : KexLaws K) (s : KexSuite) (k k' : K.Key) (r r' : Bytes)
    (hs : s.isEcdh = true) (hr' : r'.length = s.randomSize) (side : Side) :
    deriveEcdh s k r side ((KeyExchange.ecdh s k' r' : KeyExchange K).getPublic) =
      match K.ecShared s k (K.ecPublic s k') with
      | none => .err .crypto
      | some dx => .ok (match side with
        | .device => dx ++ (r ++ r')
        | .owner => dx ++ (r' ++ r)) := by
  have hsz : s.randomSize < 65536 := by cases s <;> simp [KexSuite.randomSize]
  have hl := L.ec_len s k'
  unfold deriveEcdh KeyExchange.getPublic
  rw [(C16_ecdh_partial _ _ _ _).1.2 ⟨rfl, hl.1, hl.2, by omega⟩, Res.bind_ok]
  simp only [hr', ne_eq, not_true, if_false]
  cases K.ecShared s k (K.ecPublic s k') with
  | none => rfl
  | some dx => rfl

/-- **C17**: device and owner service derive the same key (or both fail) from each other's public
parameters, for every suite and cipher, and a derived key has the length the cipher needs. -/
theorem C17_same_key {K : KexEnv} (L : KexLaws K) (dev own : KeyExchange K) (h : SameSuite dev own)
    (c : CipherSuite) (ni : Bool) :
    dev.deriveKey .device c ni own.getPublic = own.deriveKey .owner c ni dev.getPublic ∧
    (∀ k, dev.deriveKey .device c ni own.getPublic = .ok k → k.length = c.keyLen) := by
  constructor
  · match dev, own, h with
    | .ecdh s k r, .ecdh s' k' r', h =>
      obtain ⟨rfl, h2, h3, h4⟩ := h
      unfold KeyExchange.deriveKey KeyExchange.secret
      simp only
      rw [deriveEcdh_public L s k k' r r' h2 h4, deriveEcdh_public L s k' k r' r h2 h3,
        L.ec_comm s k k']
    | .dh s k, .dh s' k', h =>
      cases h
      unfold KeyExchange.deriveKey KeyExchange.secret KeyExchange.getPublic
      simp only
      rw [L.dh_comm s k k']
  · intro k hk
    unfold KeyExchange.deriveKey at hk
    obtain ⟨sec, _, hk⟩ := Res.bind_eq_ok.1 hk
    exact L.kdf_len _ _ _ _ _ _ (ofOpt_eq_ok.1 hk)

/-- **C17** (roles): with ECDH, deriving with the roles confused changes the KDF input unless the two
randoms happen to be equal. -/
theorem C17_roles_matter {K : KexEnv} (L : KexLaws K) (s : KexSuite) (hs : s.isEcdh = true)
    (k k' : K.Key) (r r' : Bytes) (hr : r.length = s.randomSize) (hr' : r'.length = s.randomSize)
    (x1 x2 : Bytes)
    (h1 : (KeyExchange.ecdh s k r : KeyExchange K).secret .device ((.ecdh s k' r' : KeyExchange K).getPublic) = .ok x1)
    (h2 : (KeyExchange.ecdh s k r : KeyExchange K).secret .owner ((.ecdh s k' r' : KeyExchange K).getPublic) = .ok x2)
    (h : x1 = x2) : r = r' := by
  unfold KeyExchange.secret at h1 h2
  simp only at h1 h2
  rw [deriveEcdh_public L s k k' r r' hs hr'] at h1 h2
  cases hd : K.ecShared s k (K.ecPublic s k') with
  | none => rw [hd] at h1; cases h1
  | some dx =>
    rw [hd] at h1 h2
    simp only [Res.ok.injEq] at h1 h2
    rw [← h1, ← h2] at h
    have := List.append_cancel_left h
    exact (List.append_inj this (by rw [hr, hr'])).1

/-- A toy group: keys are numbers, "points" are 8-byte numbers, the product is addition; the KDF is
a truncating padding of its input. -/
def toyKex : KexEnv where
  Key := UInt8
  ecPublic := fun _ k => ([k], [])
  ecShared := fun _ k p => match p with
    | ([x], _) => some [k + x]
    | _ => none
  dhPublic := fun _ k => [k]
  dhShared := fun _ k p => match p with
    | [x] => some [k + x]
    | _ => none
  kdf := fun _ _ _ k n => some ((k ++ List.replicate n 0).take n)

theorem toyKex_laws : KexLaws toyKex where
  ec_comm := by
    intro s a b
    exact congrArg (fun x => some [x]) (UInt8.add_comm a b)
  ec_len := by intro s a; exact ⟨(by decide : (1:Nat) < 65536), (by decide : (0:Nat) < 65536)⟩
  dh_comm := by
    intro s a b
    exact congrArg (fun x => some [x]) (UInt8.add_comm a b)
  kdf_len := by
    intro n l i k len out h
    simp only [toyKex, Option.some.injEq] at h
    subst h
    simp

/-- Example keys of the toy group. -/
def toyDev : KeyExchange toyKex := .ecdh .ecdh256 (3 : UInt8) (List.replicate 16 1)
def toyOwn : KeyExchange toyKex := .ecdh .ecdh256 (5 : UInt8) (List.replicate 16 2)

example : SameSuite toyDev toyOwn := ⟨rfl, rfl, rfl, rfl⟩

example : ∃ k, toyDev.deriveKey .device .a256gcm false toyOwn.getPublic = .ok k := by
  unfold KeyExchange.deriveKey KeyExchange.secret
  have := deriveEcdh_public toyKex_laws .ecdh256 (3 : UInt8) (5 : UInt8) (List.replicate 16 1)
    (List.replicate 16 2) rfl rfl .device
  simp only [toyDev, toyOwn]
  erw [this]
  exact ⟨_, rfl⟩

/-! ### C21 -/

/-- The modules the implementation knows. -/
def SiModule.known (m : SiModule) : Prop := ∀ s, m ≠ .unsupported s

/-- **C21**: known modules round-trip, distinct known modules have distinct names, every string parses
to a module printing that very string, and a string that is no known name is kept verbatim. -/
theorem C21_module_names :
    (∀ m : SiModule, m.known → SiModule.fromStr m.display = m) ∧
    (∀ m m' : SiModule, m.known → m'.known → m.display = m'.display → m = m') ∧
    (∀ s, (SiModule.fromStr s).display = s) ∧
    (∀ s, (∀ m : SiModule, m.known → m.display ≠ s) → SiModule.fromStr s = .unsupported s) := by
  have h1 : ∀ m : SiModule, m.known → SiModule.fromStr m.display = m := by
    intro m hm
    cases m with
    | unsupported s => exact absurd rfl (hm s)
    | _ => decide
  have h3 : ∀ s, (SiModule.fromStr s).display = s := by
    intro s
    unfold SiModule.fromStr
    split
    · rename_i h; rw [h]; decide
    split
    · rename_i h; rw [h]; decide
    split
    · rename_i h; rw [h]; decide
    split
    · rename_i h; rw [h]; decide
    split
    · rename_i h; rw [h]; decide
    split
    · rename_i h; rw [h]; decide
    split
    · rename_i h; rw [h]; decide
    · rfl
  refine ⟨h1, ?_, h3, ?_⟩
  · intro m m' hm hm' h
    rw [← h1 m hm, ← h1 m' hm', h]
  · intro s hs
    by_cases hk : (SiModule.fromStr s).known
    · exact absurd (h3 s) (hs _ hk)
    · unfold SiModule.known at hk
      simp only [Classical.not_forall, Classical.not_not] at hk
      obtain ⟨t, ht⟩ := hk
      have := h3 s
      rw [ht] at this ⊢
      have e : t = s := this
      rw [e]

example : SiModule.known .reboot ∧ SiModule.fromStr "org.fedoraiot.reboot".toList = .reboot ∧
    SiModule.fromStr "no.such.module".toList = .unsupported "no.such.module".toList :=
  ⟨(by intro s h; cases h), by decide, by decide⟩

/-! ### C20 -/

/-- A module that survives being printed and parsed and whose name contains no colon. -/
def SiModule.plain (m : SiModule) : Prop := SiModule.fromStr m.display = m ∧ ':' ∉ m.display

theorem plain_of_known {m : SiModule} (h : m.known) : m.plain := by
  refine ⟨C21_module_names.1 m h, ?_⟩
  cases m with
  | unsupported s => exact absurd rfl (h s)
  | _ => decide

/-- Adding a list of entries to an empty service info. -/
def siAddAll (es : List (SiModule × List Char × Bytes)) : ServiceInfo :=
  es.foldl (fun si e => siAdd si e.1 e.2.1 e.2.2) []

theorem siAddAll_eq (es : List (SiModule × List Char × Bytes)) :
    siAddAll es = es.map (fun e => (e.1.display ++ ':' :: e.2.1, e.2.2)) := by
  have : ∀ (es : List (SiModule × List Char × Bytes)) (si : ServiceInfo),
      es.foldl (fun si e => siAdd si e.1 e.2.1 e.2.2) si =
        si ++ es.map (fun e => (e.1.display ++ ':' :: e.2.1, e.2.2)) := by
    intro es
    induction es with
    | nil => intro si; simp
    | cons e es ih => intro si; rw [List.foldl_cons, ih]; simp [siAdd]
  exact (this es []).trans (by simp)

/-- Entry `e` of a received list denotes `(m, k, v)`: its name is a module name without colon, a colon
and the key, and its value decodes to `v`. -/
def Denotes {V : Type} (dec : Bytes → Option V) (e : List Char × Bytes) (x : SiModule × List Char × V) : Prop :=
  ∃ name, e.1 = name ++ ':' :: x.2.1 ∧ ':' ∉ name ∧ x.1 = SiModule.fromStr name ∧ dec e.2 = some x.2.2

/-- An entry is malformed if its name has no colon or its value does not decode. -/
def Malformed {V : Type} (dec : Bytes → Option V) (e : List Char × Bytes) : Prop :=
  ':' ∉ e.1 ∨ dec e.2 = none

/-- The visited list, from position `pos` on. -/
theorem siIter_spec {V : Type} (dec : Bytes → Option V) (si : ServiceInfo) :
    ∀ (fuel pos : Nat), si.length ≤ pos + fuel →
    ∃ good rest, si.drop pos = good ++ rest ∧
      List.Forall₂ (Denotes dec) good (siIter dec si (fuel + 1) pos) ∧
      (∀ e r, rest = e :: r → Malformed dec e) := by
  intro fuel
  induction fuel with
  | zero =>
    intro pos h
    have h0 : si[pos]? = none := List.getElem?_eq_none (by omega)
    have h1 : si.drop pos = [] := List.drop_eq_nil_of_le (by omega)
    refine ⟨[], [], by simp [h1], ?_, by simp⟩
    simp [siIter, siNext, h0]
  | succ fuel ih =>
    intro pos h
    cases hp : si[pos]? with
    | none =>
      have h1 : si.drop pos = [] := List.drop_eq_nil_of_le (by simpa using hp)
      refine ⟨[], [], by simp [h1], ?_, by simp⟩
      rw [siIter]
      simp [siNext, hp]
    | some e =>
      obtain ⟨mk, raw⟩ := e
      have hlt : pos < si.length := by
        rcases Nat.lt_or_ge pos si.length with h' | h'
        · exact h'
        · rw [List.getElem?_eq_none h'] at hp; cases hp
      have hd : si.drop pos = (mk, raw) :: si.drop (pos + 1) := by
        rw [List.drop_eq_getElem_cons hlt]
        rw [List.getElem?_eq_getElem hlt] at hp
        rw [Option.some.inj hp]
      rw [siIter, hd]
      simp only [siNext, hp]
      cases hs : splitFirst ':' mk with
      | none =>
        exact ⟨[], _, rfl, .nil, fun e r he => by
          cases he; exact .inl (splitFirst_none.1 hs)⟩
      | some mkey =>
        obtain ⟨m, key⟩ := mkey
        simp only
        cases hv : dec raw with
        | none =>
          exact ⟨[], _, rfl, .nil, fun e r he => by
            cases he; exact .inr hv⟩
        | some v =>
          obtain ⟨good, rest, h1, h2, h3⟩ := ih (pos + 1) (by omega)
          obtain ⟨e1, e2⟩ := splitFirst_sound hs
          exact ⟨(mk, raw) :: good, rest, by rw [h1]; rfl, .cons ⟨m, e1, e2, rfl, hv⟩ h2, h3⟩

/-- **C20** (received lists): a loop over the entries visits exactly the entries in front of the first
malformed one, in order, each as the triple it denotes. -/
theorem C20_iteration {V : Type} (dec : Bytes → Option V) (si : ServiceInfo) :
    ∃ good rest, si = good ++ rest ∧
      List.Forall₂ (Denotes dec) good (siItems dec si) ∧
      (∀ e r, rest = e :: r → Malformed dec e) := by
  have := siIter_spec dec si si.length 0 (by omega)
  rw [List.drop_zero] at this
  exact this

theorem denotes_det {V : Type} {dec : Bytes → Option V} {e : List Char × Bytes}
    {x y : SiModule × List Char × V} (hx : Denotes dec e x) (hy : Denotes dec e y) : x = y := by
  obtain ⟨n, h1, h2, h3, h4⟩ := hx
  obtain ⟨n', g1, g2, g3, g4⟩ := hy
  have a := splitFirst_append (b := x.2.1) h2
  have b := splitFirst_append (b := y.2.1) g2
  rw [← h1] at a
  rw [← g1] at b
  rw [a] at b
  simp only [Option.some.injEq, Prod.mk.injEq] at b
  obtain ⟨x1, x2, x3⟩ := x
  obtain ⟨y1, y2, y3⟩ := y
  simp only at *
  rw [h4] at g4
  cases g4
  rw [h3, g3, b.1, b.2]

/-- **C20** (what was added is iterated), for plain modules: in particular all modules known to the
implementation. Missing: `Unsupported` modules whose name contains a colon
(`C20_colon_violated`). `enc`/`dec` are the CBOR writer and reader of values, which must be able to read the values
written. -/
theorem C20_added_partial {V : Type} (enc : V → Bytes) (dec : Bytes → Option V)
    (es : List (SiModule × List Char × V)) (hdec : ∀ e ∈ es, dec (enc e.2.2) = some e.2.2)
    (hp : ∀ e ∈ es, e.1.plain) :
    siItems dec (siAddAll (es.map fun e => (e.1, e.2.1, enc e.2.2))) = es := by
  rw [siAddAll_eq]
  simp only [List.map_map, Function.comp_def]
  obtain ⟨good, rest, h1, h2, h3⟩ := C20_iteration dec
    (es.map fun e => (e.1.display ++ ':' :: e.2.1, enc e.2.2))
  have hr : rest = [] := by
    cases rest with
    | nil => rfl
    | cons e r =>
      exfalso
      have hm : e ∈ es.map fun e => (e.1.display ++ ':' :: e.2.1, enc e.2.2) := by
        rw [h1]; simp
      obtain ⟨x, hx, rfl⟩ := List.mem_map.1 hm
      rcases h3 _ _ rfl with h | h
      · simp at h
      · simp [hdec x hx] at h
  subst hr
  rw [List.append_nil] at h1
  rw [h1]
  clear h3
  rw [← h1]
  rw [← h1] at h2
  clear h1
  generalize siItems dec (es.map fun e => (e.1.display ++ ':' :: e.2.1, enc e.2.2)) = out at h2 ⊢
  induction es generalizing out with
  | nil => cases h2; rfl
  | cons e es ih =>
    simp only [List.map_cons] at h2
    cases h2 with
    | cons hd ht =>
      rename_i x xs
      have he : Denotes dec (e.1.display ++ ':' :: e.2.1, enc e.2.2) e :=
        ⟨e.1.display, rfl, (hp e (by simp)).2, (hp e (by simp)).1.symm, hdec e (by simp)⟩
      rw [denotes_det hd he, ih (fun e h => hdec e (by simp [h])) (fun e h => hp e (by simp [h])) xs ht]

/-- The full C20 is false: an unsupported module whose name contains a colon comes back as another
module with another key. -/
theorem C20_colon_violated : ∃ (m : SiModule) (k : List Char) (v : Bytes),
    siItems (some : Bytes → Option Bytes) (siAddAll [(m, k, v)]) ≠ [(m, k, v)] :=
  ⟨.unsupported "a:b".toList, "c".toList, [], by decide⟩

/-- The other accessor, `ServiceInfo::values`, does not return the key but the key with the colon in
front of it. -/
theorem C20_values_violated {V : Type} (dec : Bytes → Option V) (m : SiModule) (hm : ':' ∉ m.display)
    (k : List Char) (raw : Bytes) (v : V) (hv : dec raw = some v) :
    siValues dec (siAdd [] m k raw) = some [(m.display, ':' :: k, v)] := by
  simp only [siAdd, List.nil_append, siValues, splitFirst_append hm, hv]

example : siItems (some : Bytes → Option Bytes)
    (siAddAll [(.devMod, "os".toList, [1]), (.sshKey, "a:b".toList, [2])]) =
    [(.devMod, "os".toList, [1]), (.sshKey, "a:b".toList, [2])] :=
  C20_added_partial (V := Bytes) id some
    [(.devMod, "os".toList, [1]), (.sshKey, "a:b".toList, [2])] (fun _ _ => rfl) (by
    intro e he
    simp only [List.mem_cons, List.not_mem_nil, or_false] at he
    rcases he with rfl | rfl <;> exact plain_of_known (by intro s h; cases h))

example : siItems (some : Bytes → Option Bytes) [("devmod:os".toList, [1]), ("nocolon".toList, []), ("devmod:x".toList, [2])]
    = [(.devMod, "os".toList, [1])] := by decide

end Verif.Types

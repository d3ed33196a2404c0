import Verif.Lemmas.Cbor
import Mathlib.Data.List.Forall2
/-!
Properties C01–C05: the CBOR array wrapper (`data-formats/src/cborparser.rs`) and reading
many items from a stream (`data-formats/src/serializable.rs`).

In all statements `c : Bool` is the build profile (`true`: debug, overflow panics; `false`: release,
overflow wraps) and `size` is the statically expected number of elements (`none`: dynamic array).
`IsHead` / `IsItem` is the independent CBOR grammar of `Spec/Cbor.lean`.
-/
namespace Verif.Cbor
open Spec

/-! ### Concrete values used by the examples -/

/-- Array element `[1, {2: h'0304'}]` as bytes. -/
def exItem : Bytes := [0x82, 0x01, 0xa1, 0x02, 0x42, 0x03, 0x04]

theorem exItem_isItem : IsItem exItem := by
  have i1 : IsItem [0x01] := .int (m := 0) (v := 1) (by simp) (.imm (by omega) (by omega))
  have i2 : IsItem [0x02] := .int (m := 0) (v := 2) (by simp) (.imm (by omega) (by omega))
  have i3 : IsItem ([0x42] ++ [0x03, 0x04]) :=
    .str (m := 2) (v := 2) (by simp) (.imm (by omega) (by omega)) rfl (by omega)
  have i4 : IsItem ([0xa1] ++ [[0x02], [0x42] ++ [0x03, 0x04]].flatten) :=
    .map (v := 1) (.imm (by omega) (by omega)) (by omega) rfl (by
      intro i hi; simp only [List.mem_cons, List.not_mem_nil, or_false] at hi
      rcases hi with rfl | rfl
      · exact i2
      · exact i3)
  exact .array (v := 2) (h := [0x82]) (items := [[0x01], [0xa1] ++ [[0x02], [0x42] ++ [0x03, 0x04]].flatten])
    (.imm (by omega) (by omega)) rfl (by
      intro i hi; simp only [List.mem_cons, List.not_mem_nil, or_false] at hi
      rcases hi with rfl | rfl
      · exact i1
      · exact i4)

/-- A tagged (18, COSE_Sign1) array with two elements. -/
def exArray : ParsedArray := ⟨some 18, [exItem, [0x18, 0xff]]⟩

theorem exArray_items : ∀ i ∈ exArray.contents, IsItem i := by
  intro i hi
  simp only [exArray, List.mem_cons, List.not_mem_nil, or_false] at hi
  rcases hi with rfl | rfl
  · exact exItem_isItem
  · exact .int (m := 0) (v := 255) (by simp) (.ext1 (m := 0) (arg := [0xff]) (by omega) rfl)

/-! ### C01 -/

/-- **C01**: serializing an array whose elements are complete items and reading it back (followed by
anything) gives the same tag and byte-identical elements and leaves the rest unread. -/
theorem C01_array_roundtrip (c : Bool) (size : Option Nat) (a : ParsedArray) (rest : Bytes)
    (hitems : ∀ i ∈ a.contents, IsItem i)
    (hlen : a.contents.length ≤ 65535) (htag : ∀ t, a.tag = some t → t ≤ 65535)
    (hsize : size = none ∨ (size = some a.contents.length ∧ a.contents ≠ [])) :
    ∃ bs, serialize a = .ok bs ∧ deserialize c size (bs ++ rest) = .ok (a, rest) := by
  obtain ⟨ah, hae, hah⟩ := isHead_encode (m := 4) (by omega) hlen
  obtain ⟨tag, l⟩ := a
  cases tag with
  | none =>
    refine ⟨[] ++ ah ++ l.flatten, ?_, ?_⟩
    · simp only [serialize]
      rw [show (pure [] : Res ParseErr Bytes) = .ok [] from rfl, Res.bind_ok, hae]
      rfl
    · exact deserialize_of_grammar (.inl ⟨rfl, rfl⟩) hah hitems hsize
  | some t =>
    obtain ⟨th, hte, hth⟩ := isHead_encode (m := 6) (by omega) (htag t rfl)
    refine ⟨th ++ ah ++ l.flatten, ?_, ?_⟩
    · simp only [serialize]
      rw [hte, Res.bind_ok, hae]
      rfl
    · exact deserialize_of_grammar (.inr ⟨t, rfl, hth⟩) hah hitems hsize

/-- The hypotheses of C01 hold for a tagged two-element array with nested contents. -/
example : ∃ bs, serialize exArray = .ok bs ∧
    deserialize false (some 2) (bs ++ [0xff, 0x00]) = .ok (exArray, [0xff, 0x00]) :=
  C01_array_roundtrip false (some 2) exArray _ exArray_items (by decide) (by
    intro t h; cases h; omega) (.inr ⟨rfl, by decide⟩)

/-! ### C02 -/

/-- **C02** (overflow-checked build): whatever the stream, if reading an array succeeds then the
bytes taken are an optional tag head, an array head announcing exactly the number of returned
elements, and the concatenation of the returned elements, each of which is exactly one complete
CBOR item; the rest of the stream is untouched; a static size is respected. -/
theorem C02_parse_sound (size : Option Nat) (h0 : size ≠ some 0) (inp rest : Bytes) (a : ParsedArray)
    (h : deserialize true size inp = .ok (a, rest)) :
    ∃ th ah, inp = th ++ ah ++ a.contents.flatten ++ rest ∧
      ((a.tag = none ∧ th = []) ∨ ∃ t, a.tag = some t ∧ IsHead 6 t th) ∧
      IsHead 4 a.contents.length ah ∧ (∀ i ∈ a.contents, IsItem i) ∧
      (∀ n, size = some n → a.contents.length = n) :=
  grammar_of_deserialize itemClass_isItem h0 h

example : ∃ a rest, deserialize true none
    [0xd2, 0x82, 0x82, 0x01, 0xa1, 0x02, 0x42, 0x03, 0x04, 0x18, 0xff, 0x99] = .ok (a, rest) ∧ a = exArray := by
  obtain ⟨bs, h1, h2⟩ := C01_array_roundtrip true none exArray [0x99] exArray_items (by decide)
    (by intro t h; cases h; omega) (.inl rfl)
  have : bs = [0xd2, 0x82, 0x82, 0x01, 0xa1, 0x02, 0x42, 0x03, 0x04, 0x18, 0xff] := by
    have : serialize exArray = .ok [0xd2, 0x82, 0x82, 0x01, 0xa1, 0x02, 0x42, 0x03, 0x04, 0x18, 0xff] := by
      decide
    rw [this] at h1; cases h1; rfl
  subst this
  exact ⟨_, _, h2, rfl⟩

/-- **C02** (any build): the same, except that in a release build a nested map announcing `2^63` or
more pairs is accepted with `2·v mod 2^64` elements. Missing with respect to the full property:
elements are complete items only up to that wrap-around; see `C02_parse_sound_violated`. -/
theorem C02_parse_sound_partial (c : Bool) (size : Option Nat) (h0 : size ≠ some 0)
    (inp rest : Bytes) (a : ParsedArray) (h : deserialize c size inp = .ok (a, rest)) :
    ∃ th ah, inp = th ++ ah ++ a.contents.flatten ++ rest ∧
      ((a.tag = none ∧ th = []) ∨ ∃ t, a.tag = some t ∧ IsHead 6 t th) ∧
      IsHead 4 a.contents.length ah ∧ (∀ i ∈ a.contents, IsItemWrap i) ∧
      (∀ n, size = some n → a.contents.length = n) := by
  cases c with
  | false => exact grammar_of_deserialize itemClass_isItemWrap h0 h
  | true =>
    obtain ⟨th, ah, h1, h2, h3, h4, h5⟩ := grammar_of_deserialize itemClass_isItem h0 h
    exact ⟨th, ah, h1, h2, h3, fun i hi => isItem_wrap (h4 i hi), h5⟩

/-- The bytes of the violation witness: an array of one map announcing `2^63+1` pairs, followed by two items. -/
def wrapWitness : Bytes := [0xbb, 0x80, 0, 0, 0, 0, 0, 0, 1, 0x00, 0x00]

theorem wrapWitness_elements :
    elemLoop false wrapWitness ⟨[1], [], []⟩ = .ok (⟨[], [], [wrapWitness]⟩, []) := by
  unfold wrapWitness
  rw [elemLoop_cons (by simp)]
  have e1 : elemStep false 0xbb [0x80, 0, 0, 0, 0, 0, 0, 1, 0x00, 0x00] ⟨[1], [], []⟩ =
      .ok (⟨[1, 1], [0xbb, 0x80, 0, 0, 0, 0, 0, 0, 1], []⟩, [0x00, 0x00]) := by decide
  rw [e1, Res.bind_ok, elemLoop_cons (by simp)]
  have e2 : elemStep false 0x00 [0x00] ⟨[1, 1], [0xbb, 0x80, 0, 0, 0, 0, 0, 0, 1], []⟩ =
      .ok (⟨[1], [0xbb, 0x80, 0, 0, 0, 0, 0, 0, 1, 0x00], []⟩, [0x00]) := by decide
  rw [e2, Res.bind_ok, elemLoop_cons (by simp)]
  have e3 : elemStep false 0x00 [] ⟨[1], [0xbb, 0x80, 0, 0, 0, 0, 0, 0, 1, 0x00], []⟩ =
      .ok (⟨[], [], [[0xbb, 0x80, 0, 0, 0, 0, 0, 0, 1, 0x00, 0x00]]⟩, []) := by decide
  rw [e3, Res.bind_ok, elemLoop_done rfl]

theorem wrapWitness_not_item : ¬ IsItem wrapWitness := by
  intro h
  -- an item with this first byte would be read by the debug build, which panics instead
  have := deserialize_of_grammar (c := true) (size := none) (tag := none) (th := []) (ah := [0x81])
    (l := [wrapWitness]) (rest := []) (.inl ⟨rfl, rfl⟩) (.imm (m := 4) (v := 1) (by omega) (by omega))
    (by intro i hi; simp only [List.mem_singleton] at hi; subst hi; exact h) (.inl rfl)
  have e : elemLoop true wrapWitness ⟨[1], [], []⟩ = .panic := by
    unfold wrapWitness
    rw [elemLoop_cons (by simp)]
    have e1 : elemStep true 0xbb [0x80, 0, 0, 0, 0, 0, 0, 1, 0x00, 0x00] ⟨[1], [], []⟩ = .panic := by
      decide
    rw [e1]; rfl
  have e' : deserialize true none ([] ++ [0x81] ++ [wrapWitness].flatten ++ []) = .panic := by
    have : ([] ++ [0x81] ++ [wrapWitness].flatten ++ [] : Bytes) = 0x81 :: wrapWitness := by simp
    rw [this]
    have hr : readTag 0x81 wrapWitness = .ok (none, 0x81, wrapWitness) := rfl
    have hl : readLen wrapWitness (0x81 : UInt8).toNat = .ok (1, [], wrapWitness) := rfl
    simp only [deserialize, hr]
    rw [show readArray true none none 0x81 wrapWitness = readElements true none none 1 wrapWitness from by
      simp only [readArray, hl]; rfl]
    simp only [readElements, e]
  rw [e'] at this
  cases this

/-- The unrestricted C02 is false of a release build: a stream is accepted whose returned element
is not a complete CBOR item. -/
theorem C02_parse_sound_violated :
    ∃ inp a rest, deserialize false none inp = .ok (a, rest) ∧ ∃ i ∈ a.contents, ¬ IsItem i := by
  refine ⟨0x81 :: wrapWitness, ⟨none, [wrapWitness]⟩, [], ?_, wrapWitness, by simp, wrapWitness_not_item⟩
  have hr : readTag 0x81 wrapWitness = .ok (none, 0x81, wrapWitness) := rfl
  have hl : readLen wrapWitness (0x81 : UInt8).toNat = .ok (1, [], wrapWitness) := rfl
  simp only [deserialize, hr]
  rw [show readArray false none none 0x81 wrapWitness = readElements false none none 1 wrapWitness from by
    simp only [readArray, hl]; rfl]
  simp only [readElements, wrapWitness_elements]

/-- **C02**: arrays are self-delimiting. Two serialized arrays that agree on a common prefix of a
stream are the same array: what is read does not depend on what follows. -/
theorem C02_parse_prefix_free (c : Bool) (size : Option Nat) (inp q rest : Bytes) (a : ParsedArray)
    (h : deserialize c size inp = .ok (a, rest)) :
    deserialize c size (inp ++ q) = .ok (a, rest ++ q) :=
  deserialize_mono h

/-! ### C03 -/

/-- **C03**, for lengths up to 65535: the head written for major type `m` and value `v` has major
type `m` and is read back as `v` with the following bytes untouched. Missing: larger values, on
which the code panics (`C03_header_violated`). -/
theorem C03_header_roundtrip_partial (m v : Nat) (hm : m < 8) (hv : v ≤ 65535) (rest : Bytes) :
    ∃ b lb, encodeItemStart m v = .ok (b :: lb) ∧ major b = m ∧
      readLen (lb ++ rest) b.toNat = .ok (v, lb, rest) := by
  obtain ⟨h, he, hh⟩ := isHead_encode hm hv
  obtain ⟨b, lb, rfl, hb, hr⟩ := readLen_of_isHead hh
  refine ⟨b, lb, he, hb, ?_⟩
  have := hr rest
  rwa [readLen_minor]

example : encodeItemStart 2 1000 = .ok [0x59, 0x03, 0xe8] ∧
    readLen [0x03, 0xe8, 0xaa] (0x59 : UInt8).toNat = .ok (1000, [0x03, 0xe8], [0xaa]) := by decide

/-- Writing the head of any value above 65535 panics (the buffer is too short). -/
theorem C03_header_violated (m v : Nat) (hv : 65535 < v) : encodeItemStart m v = .panic := by
  unfold encodeItemStart
  rw [if_neg (by omega), if_neg (by omega), if_neg (by omega)]

example : encodeItemStart 4 70000 = .panic := C03_header_violated 4 70000 (by omega)

/-! ### C04 -/

/-- Reading an array does panic on some streams: two bytes that end inside a length field. -/
theorem C04_no_panic_violated (c : Bool) (size : Option Nat) :
    deserialize c size [0x98] = .panic := by
  have hr : readTag 0x98 [] = .ok (none, 0x98, []) := rfl
  have hl : readLen [] (0x98 : UInt8).toNat = .panic := rfl
  simp only [deserialize, hr, readArray, hl]
  rfl

/-- **C04**, all inputs on which it holds: reading an array panics only if the stream ends inside
the length field of one of its bytes, or contains a string head announcing `2^63` bytes or more, or
(in an overflow-checked build only) a map head announcing `2^63` pairs or more. On every other
stream it returns a value or an error. -/
theorem C04_no_panic_partial (c : Bool) (size : Option Nat) (inp : Bytes)
    (h1 : ¬ EndsInsideHead inp) (h2 : ¬ AnnouncesHuge [2, 3] inp)
    (h3 : c = true → ¬ AnnouncesHuge [5] inp) :
    deserialize c size inp ≠ .panic := by
  intro h
  rcases deserialize_panic h with h | h | ⟨hc, h⟩
  · exact h1 h
  · exact h2 h
  · exact h3 hc h

/-- A malformed stream meeting the hypotheses of C04 (an array of two with one element, the break byte). -/
example : ¬ EndsInsideHead [0x82, 0x01, 0xff] ∧ ¬ AnnouncesHuge [2, 3] [0x82, 0x01, 0xff] ∧
    ¬ AnnouncesHuge [5] [0x82, 0x01, 0xff] := by
  have key : ∀ pre b post, ([0x82, 0x01, 0xff] : Bytes) = pre ++ b :: post →
      b = 0x82 ∨ b = 0x01 ∨ b = 0xff := by
    intro pre b post h
    have : b ∈ ([0x82, 0x01, 0xff] : Bytes) := by rw [h]; simp
    simpa using this
  refine ⟨?_, ?_, ?_⟩
  · rintro ⟨pre, b, post, h, hb⟩
    rcases key _ _ _ h with rfl | rfl | rfl <;> revert hb <;> simp
  · rintro ⟨pre, b, arg, post, h, hb⟩
    rcases key _ _ _ h with rfl | rfl | rfl <;> revert hb <;> simp
  · rintro ⟨pre, b, arg, post, h, hb⟩
    rcases key _ _ _ h with rfl | rfl | rfl <;> revert hb <;> simp

/-! ### C05 -/

/-- An array the writer can write and the reader must read back: complete items, at most 65535 of
them, tag at most 65535, matching the statically expected size. -/
def Writable (size : Option Nat) (a : ParsedArray) : Prop :=
  (∀ i ∈ a.contents, IsItem i) ∧ a.contents.length ≤ 65535 ∧ (∀ t, a.tag = some t → t ≤ 65535) ∧
    (size = none ∨ (size = some a.contents.length ∧ a.contents ≠ []))

theorem deserializeManyAux_concat (c : Bool) (size : Option Nat) (fuel : Nat) :
    ∀ (l : List ParsedArray) (bss : List Bytes), List.Forall₂ (fun a bs => serialize a = .ok bs) l bss →
      (∀ a ∈ l, Writable size a) → bss.flatten.length < fuel → size ≠ some 0 →
      deserializeManyAux c size fuel bss.flatten = .ok l := by
  induction fuel with
  | zero => intro l bss _ _ h; omega
  | succ fuel ih =>
    intro l bss hf hw hl h0
    cases hf with
    | nil => simp [deserializeManyAux, deserialize]
    | @cons a bs l bss ha hf =>
      obtain ⟨w1, w2, w3, w4⟩ := hw a (by simp)
      obtain ⟨bs', hs, hd⟩ := C01_array_roundtrip c size a bss.flatten w1 w2 w3 w4
      rw [ha] at hs; cases hs
      have hlt := deserialize_rest_lt hd h0
      simp only [List.flatten_cons] at hl ⊢
      rw [deserializeManyAux, hd]
      simp only
      rw [ih l bss hf (fun a h => hw a (by simp [h])) (by omega) h0]
      rfl

/-- **C05**: reading many items from the concatenation of serialized arrays returns exactly those
arrays, in order. -/
theorem C05_many_concat (c : Bool) (size : Option Nat) (h0 : size ≠ some 0) (l : List ParsedArray)
    (bss : List Bytes) (hser : List.Forall₂ (fun a bs => serialize a = .ok bs) l bss)
    (hw : ∀ a ∈ l, Writable size a) : deserializeMany c size bss.flatten = .ok l :=
  deserializeManyAux_concat c size _ l bss hser hw (Nat.lt_succ_self _) h0

theorem manyAux_split (c : Bool) (size : Option Nat) (fuel : Nat) :
    ∀ (inp : Bytes) (l : List ParsedArray), deserializeManyAux c size fuel inp = .ok l →
      ∃ bss : List Bytes, inp = bss.flatten ∧
        List.Forall₂ (fun a bs => deserialize c size bs = .ok (a, [])) l bss := by
  induction fuel with
  | zero => intro inp l h; cases h
  | succ fuel ih =>
    intro inp l h
    rw [deserializeManyAux] at h
    split at h
    · rename_i a rest hd
      obtain ⟨as, h1, h2⟩ := Res.bind_eq_ok.1 h
      cases h2
      obtain ⟨bss, rfl, hf⟩ := ih _ _ h1
      obtain ⟨bs, rfl⟩ := deserialize_suffix hd
      refine ⟨bs :: bss, by simp, .cons (deserialize_shrink hd) hf⟩
    · rename_i hd
      cases h
      refine ⟨[], ?_, .nil⟩
      cases inp with
      | nil => rfl
      | cons b inp => exact absurd hd deserialize_cons_not_noData
    · cases h
    · cases h

/-- **C05** (soundness): if reading many items succeeds, the stream is, without any remainder, the
concatenation of byte strings each of which is completely read as the corresponding array. -/
theorem C05_many_sound (c : Bool) (size : Option Nat) (inp : Bytes) (l : List ParsedArray)
    (h : deserializeMany c size inp = .ok l) :
    ∃ bss : List Bytes, inp = bss.flatten ∧
      List.Forall₂ (fun a bs => deserialize c size bs = .ok (a, [])) l bss :=
  manyAux_split c size _ inp l h

/-- **C05** (truncation): cutting the concatenation inside its last item is never a success, in
particular it does not yield the list without the last array. -/
theorem C05_many_truncated (c : Bool) (size : Option Nat) (h0 : size ≠ some 0) (l : List ParsedArray)
    (bss : List Bytes) (hser : List.Forall₂ (fun a bs => serialize a = .ok bs) l bss)
    (hw : ∀ a ∈ l, Writable size a) (a : ParsedArray) (cut cut' : Bytes)
    (ha : serialize a = .ok (cut ++ cut')) (hwa : Writable size a) (h1 : cut ≠ []) (h2 : cut' ≠ [])
    (out : List ParsedArray) : deserializeMany c size (bss.flatten ++ cut) ≠ .ok out := by
  intro h
  unfold deserializeMany at h
  generalize hfuel : (bss.flatten ++ cut).length + 1 = fuel at h
  have hfl : (bss.flatten ++ cut).length < fuel := by omega
  clear hfuel
  induction fuel generalizing l bss out with
  | zero => cases h
  | succ fuel ih =>
    cases hser with
    | nil =>
      simp only [List.flatten_nil, List.nil_append] at h
      rw [deserializeManyAux] at h
      obtain ⟨w1, w2, w3, w4⟩ := hwa
      obtain ⟨bs', hs, hd⟩ := C01_array_roundtrip c size a [] w1 w2 w3 w4
      rw [ha] at hs; cases hs
      rw [List.append_nil] at hd
      split at h
      · rename_i a' rest hd'
        have := deserialize_mono (q := cut') hd'
        rw [hd] at this
        simp at this
        exact h2 this.2.2
      · rename_i hd'
        cases cut with
        | nil => exact h1 rfl
        | cons b inp => exact absurd hd' deserialize_cons_not_noData
      · cases h
      · cases h
    | @cons a' bs l bss ha' hf =>
      obtain ⟨w1, w2, w3, w4⟩ := hw a' (by simp)
      obtain ⟨bs', hs, hd⟩ := C01_array_roundtrip c size a' (bss.flatten ++ cut) w1 w2 w3 w4
      rw [ha'] at hs; cases hs
      have hlt := deserialize_rest_lt hd h0
      simp only [List.flatten_cons, List.append_assoc] at h hfl
      rw [deserializeManyAux, hd] at h
      obtain ⟨as, h3, h4⟩ := Res.bind_eq_ok.1 h
      exact ih l bss hf (fun a h => hw a (by simp [h])) as h3 (by simp at hfl hlt ⊢; omega)

theorem exArray_writable : Writable none exArray :=
  ⟨exArray_items, by decide, by intro t h; cases h; omega, .inl rfl⟩

/-- The bytes of `exArray`. -/
def exArrayBytes : Bytes := [0xd2, 0x82, 0x82, 0x01, 0xa1, 0x02, 0x42, 0x03, 0x04, 0x18, 0xff]

/-- Two copies of the example array read back; cut short by one byte, never a success. -/
example : deserializeMany true none (exArrayBytes ++ exArrayBytes) = .ok [exArray, exArray] ∧
    ∀ out, deserializeMany true none (exArrayBytes ++ exArrayBytes.take 10) ≠ .ok out := by
  have hs : serialize exArray = .ok exArrayBytes := by decide
  refine ⟨?_, ?_⟩
  · exact C05_many_concat true none (by simp) [exArray, exArray] [exArrayBytes, exArrayBytes]
      (.cons hs (.cons hs .nil)) (by simp [exArray_writable])
  · intro out
    exact C05_many_truncated true none (by simp) [exArray] [exArrayBytes] (.cons hs .nil)
      (by simp [exArray_writable]) exArray (exArrayBytes.take 10) [0xff] hs exArray_writable
      (by decide) (by decide) out

end Verif.Cbor

import Verif.Spec.Wire
import Verif.Lemmas.Cbor
/-!
Facts about writing and reading CBOR items, and about the serde codecs.
-/
namespace Verif.Wire
open Verif Verif.Types Verif.Cbor Verif.Cbor.Spec

/-! ### Heads -/

theorem readArg_be {k n : Nat} (h : n < 256 ^ k) (r : Bytes) : readArg k (toBe k n ++ r) = some (n, r) := by
  have hl : (toBe k n).length = k := toBe_length _ _
  unfold readArg
  rw [if_neg (by simp [hl]), List.take_append_of_le_length (by omega), List.take_of_length_le (by omega),
    List.drop_append_of_le_length (by omega), List.drop_of_length_le (by omega), beNat_toBe _ _ h]
  rfl

theorem byte_split {m a : Nat} (hm : m < 8) (ha : a < 32) :
    (UInt8.ofNat (m * 32 + a)).toNat / 32 = m ∧ (UInt8.ofNat (m * 32 + a)).toNat % 32 = a := by
  have h : (UInt8.ofNat (m * 32 + a)).toNat = m * 32 + a := by
    rw [UInt8.toNat_ofNat']
    exact Nat.mod_eq_of_lt (by omega)
  rw [h]
  omega

theorem readHead_head {m n : Nat} (hm : m < 8) (hn : n < 2 ^ 64) (r : Bytes) :
    ∃ a, readHead (head m n ++ r) = some (m, a, n, r) := by
  unfold head
  split
  · rename_i h
    obtain ⟨h1, h2⟩ := byte_split hm (show n < 32 by omega)
    refine ⟨n, ?_⟩
    simp only [List.cons_append, List.nil_append, readHead, h1, h2, h, if_true]
  split
  · rename_i h
    obtain ⟨h1, h2⟩ := byte_split hm (show 24 < 32 by omega)
    refine ⟨24, ?_⟩
    simp only [List.cons_append, readHead, h1, h2, readArg_be (show n < 256 ^ 1 by omega)]
    simp
  split
  · rename_i h
    obtain ⟨h1, h2⟩ := byte_split hm (show 25 < 32 by omega)
    refine ⟨25, ?_⟩
    simp only [List.cons_append, readHead, h1, h2, readArg_be (show n < 256 ^ 2 by omega)]
    simp
  split
  · rename_i h
    obtain ⟨h1, h2⟩ := byte_split hm (show 26 < 32 by omega)
    refine ⟨26, ?_⟩
    simp only [List.cons_append, readHead, h1, h2, readArg_be (show n < 256 ^ 4 by omega)]
    simp
  · rename_i h
    obtain ⟨h1, h2⟩ := byte_split hm (show 27 < 32 by omega)
    refine ⟨27, ?_⟩
    simp only [List.cons_append, if_pos hn, readHead, h1, h2, readArg_be (show n < 256 ^ 8 by omega)]
    simp

theorem readHead_none {m n : Nat} (hn : ¬n < 2 ^ 64) (r : Bytes) : readHead (head m n ++ r) = none := by
  unfold head
  rw [if_neg (by omega), if_neg (by omega), if_neg (by omega), if_neg (by omega), if_neg hn]
  rfl

theorem head_pos (m n : Nat) : 0 < (head m n).length := by
  unfold head
  repeat' split
  all_goals simp

theorem readStr_append (b r : Bytes) : readStr b.length (b ++ r) = some (b, r) := by
  simp [readStr]

theorem ofUtf8_utf8 (s : String) : ofUtf8 (utf8 s) = some s := by
  have h : (⟨(utf8 s).toArray⟩ : ByteArray) = s.toUTF8 := by simp [utf8]
  unfold ofUtf8
  rw [h]
  unfold String.fromUTF8?
  split
  · rfl
  · rename_i h
    exact absurd s.isValidUTF8 h

/-! ### Reading what was written -/

theorem enc_pos (i : Item) : 0 < (enc i).length := by
  cases i with
  | float n =>
    simp only [enc]
    split <;> simp
  | _ =>
    simp only [enc, List.length_append]
    first
      | exact head_pos _ _
      | exact Nat.add_pos_left (head_pos _ _) _
      | simp

theorem encList_length (l : List Item) : l.length ≤ (encList l).length := by
  induction l with
  | nil => simp
  | cons i l ih =>
    have := enc_pos i
    simp only [encList, List.length_cons, List.length_append]
    omega

theorem encPairs_length (l : List (Item × Item)) : l.length ≤ (encPairs l).length := by
  induction l with
  | nil => simp
  | cons x l ih =>
    obtain ⟨k, v⟩ := x
    have := enc_pos k
    simp only [encPairs, List.length_cons, List.length_append]
    omega

theorem encList_mem {l : List Item} {i : Item} (h : i ∈ l) : (enc i).length ≤ (encList l).length := by
  induction l with
  | nil => simp at h
  | cons j l ih =>
    simp only [encList, List.length_append]
    rcases List.mem_cons.1 h with rfl | h
    · omega
    · have := ih h; omega

theorem encPairs_mem {l : List (Item × Item)} {x : Item × Item} (h : x ∈ l) :
    (enc x.1).length + (enc x.2).length ≤ (encPairs l).length := by
  induction l with
  | nil => simp at h
  | cons j l ih =>
    obtain ⟨k, v⟩ := j
    simp only [encPairs, List.length_append]
    rcases List.mem_cons.1 h with rfl | h
    · simp only; omega
    · have := ih h; omega

/-- Reading gives what was written, or nothing. -/
def Exact (f : Bytes → Option (Item × Bytes)) : Prop :=
  ∀ i r, f (enc i ++ r) = some (i, r) ∨ f (enc i ++ r) = none

theorem decList_exact {f : Bytes → Option (Item × Bytes)} (hf : Exact f) (l : List Item) (r : Bytes) :
    decList f l.length (encList l ++ r) = some (l, r) ∨ decList f l.length (encList l ++ r) = none := by
  induction l with
  | nil => exact .inl rfl
  | cons i l ih =>
    simp only [encList, List.length_cons, decList, List.append_assoc]
    rcases hf i (encList l ++ r) with h | h
    · simp only [h]
      rcases ih with ih | ih <;> simp [ih]
    · exact .inr (by simp [h])

theorem decPairs_exact {f : Bytes → Option (Item × Bytes)} (hf : Exact f) (l : List (Item × Item)) (r : Bytes) :
    decPairs f l.length (encPairs l ++ r) = some (l, r) ∨ decPairs f l.length (encPairs l ++ r) = none := by
  induction l with
  | nil => exact .inl rfl
  | cons x l ih =>
    obtain ⟨k, v⟩ := x
    simp only [encPairs, List.length_cons, decPairs, List.append_assoc]
    rcases hf k (enc v ++ (encPairs l ++ r)) with h | h
    · simp only [h]
      rcases hf v (encPairs l ++ r) with h | h
      · simp only [h]
        rcases ih with ih | ih <;> simp [ih]
      · exact .inr (by simp [h])
    · exact .inr (by simp [h])

theorem step_exact {o : Option (Bytes → Option (Item × Bytes))} (hf : ∀ f, o = some f → Exact f) : Exact (step o) := by
  intro i r
  cases i with
  | uint n =>
    by_cases hn : n < 2 ^ 64
    · obtain ⟨a, h⟩ := readHead_head (m := 0) (by omega) hn r
      exact .inl (by simp only [enc, step, h])
    · exact .inr (by simp only [enc, step, readHead_none hn])
  | nint n =>
    by_cases hn : n < 2 ^ 64
    · obtain ⟨a, h⟩ := readHead_head (m := 1) (by omega) hn r
      exact .inl (by simp only [enc, step, h])
    · exact .inr (by simp only [enc, step, readHead_none hn])
  | bytes b =>
    by_cases hn : b.length < 2 ^ 64
    · obtain ⟨a, h⟩ := readHead_head (m := 2) (by omega) hn (b ++ r)
      exact .inl (by simp only [enc, step, List.append_assoc, h, readStr_append, Option.map_some])
    · exact .inr (by simp only [enc, step, List.append_assoc, readHead_none hn])
  | text s =>
    by_cases hn : (utf8 s).length < 2 ^ 64
    · obtain ⟨a, h⟩ := readHead_head (m := 3) (by omega) hn (utf8 s ++ r)
      exact .inl (by simp only [enc, step, List.append_assoc, h, readStr_append, ofUtf8_utf8, Option.map_some])
    · exact .inr (by simp only [enc, step, List.append_assoc, readHead_none hn])
  | arr l =>
    by_cases hn : l.length < 2 ^ 64
    · obtain ⟨a, h⟩ := readHead_head (m := 4) (by omega) hn (encList l ++ r)
      simp only [enc, step, List.append_assoc, h]
      cases o with
      | none => exact .inr rfl
      | some f => rcases decList_exact (hf f rfl) l r with h | h <;> simp [h]
    · exact .inr (by simp only [enc, step, List.append_assoc, readHead_none hn])
  | map l =>
    by_cases hn : l.length < 2 ^ 64
    · obtain ⟨a, h⟩ := readHead_head (m := 5) (by omega) hn (encPairs l ++ r)
      simp only [enc, step, List.append_assoc, h]
      cases o with
      | none => exact .inr rfl
      | some f => rcases decPairs_exact (hf f rfl) l r with h | h <;> simp [h]
    · exact .inr (by simp only [enc, step, List.append_assoc, readHead_none hn])
  | tag t i =>
    by_cases hn : t < 2 ^ 64
    · obtain ⟨a, h⟩ := readHead_head (m := 6) (by omega) hn (enc i ++ r)
      simp only [enc, step, List.append_assoc, h]
      cases o with
      | none => exact .inr rfl
      | some f => rcases hf f rfl i r with h | h <;> simp [h]
    · exact .inr (by simp only [enc, step, List.append_assoc, readHead_none hn])
  | bool b => cases b <;> exact .inl rfl
  | null => exact .inl rfl
  | float n =>
    by_cases hn : n < 2 ^ 64
    · refine .inl ?_
      simp only [enc, if_pos hn, List.cons_append, step, readHead, readArg_be (show n < 256 ^ 8 by omega)]
      rfl
    · refine .inr ?_
      simp only [enc, if_neg hn]
      rfl

theorem dec_exact (d : Nat) : Exact (dec d) := by
  induction d with
  | zero => exact step_exact (by intro f h; cases h)
  | succ d ih => exact step_exact (by intro f h; cases h; exact ih)

/-- What is read from a written item is that item. -/
theorem fromSlice_exact {i j : Item} (h : fromSlice (enc i) = some j) : j = i := by
  have h' := dec_exact 127 i []
  rw [List.append_nil] at h'
  unfold fromSlice at h
  rcases h' with h' | h' <;> rw [h'] at h <;> simp at h
  exact h.symm

theorem decList_fits {f : Bytes → Option (Item × Bytes)} {l : List Item} (h : ∀ i ∈ l, ∀ r, f (enc i ++ r) = some (i, r)) (r : Bytes) :
    decList f l.length (encList l ++ r) = some (l, r) := by
  induction l with
  | nil => rfl
  | cons i l ih =>
    simp only [encList, List.length_cons, decList, List.append_assoc, h i (by simp), ih fun j hj => h j (by simp [hj]), Option.map_some]

theorem decPairs_fits {f : Bytes → Option (Item × Bytes)} {l : List (Item × Item)}
    (h : ∀ x ∈ l, (∀ r, f (enc x.1 ++ r) = some (x.1, r)) ∧ ∀ r, f (enc x.2 ++ r) = some (x.2, r)) (r : Bytes) :
    decPairs f l.length (encPairs l ++ r) = some (l, r) := by
  induction l with
  | nil => rfl
  | cons x l ih =>
    obtain ⟨k, v⟩ := x
    obtain ⟨h1, h2⟩ := h (k, v) (by simp)
    simp only [encPairs, List.length_cons, decPairs, List.append_assoc, h1, h2, ih fun j hj => h j (by simp [hj]), Option.map_some]

theorem dec_fits (d : Nat) {i : Item} (hf : i.Fits d) (hl : (enc i).length < 2 ^ 64) (r : Bytes) :
    dec d (enc i ++ r) = some (i, r) := by
  induction d generalizing i r with
  | zero =>
    rcases dec_exact 0 i r with h | h
    · exact h
    exfalso
    revert h
    cases i with
    | uint n =>
      obtain ⟨a, h⟩ := readHead_head (m := 0) (by omega) (show n < 2 ^ 64 from hf) r
      simp only [enc, dec, step, h]; simp
    | nint n =>
      obtain ⟨a, h⟩ := readHead_head (m := 1) (by omega) (show n < 2 ^ 64 from hf) r
      simp only [enc, dec, step, h]; simp
    | bytes b =>
      simp only [enc, List.length_append] at hl
      obtain ⟨a, h⟩ := readHead_head (m := 2) (by omega) (show b.length < 2 ^ 64 by omega) (b ++ r)
      simp only [enc, dec, step, List.append_assoc, h, readStr_append]; simp
    | text s =>
      simp only [enc, List.length_append] at hl
      obtain ⟨a, h⟩ := readHead_head (m := 3) (by omega) (show (utf8 s).length < 2 ^ 64 by omega) (utf8 s ++ r)
      simp only [enc, dec, step, List.append_assoc, h, readStr_append, ofUtf8_utf8]; simp
    | arr l => exact hf.elim
    | map l => exact hf.elim
    | tag t i => exact hf.elim
    | bool b => cases b <;> simp [enc, dec, step, readHead]
    | null => simp [enc, dec, step, readHead]
    | float n =>
      have hn : n < 2 ^ 64 := hf
      simp only [enc, if_pos hn, List.cons_append, dec, step, readHead, readArg_be (show n < 256 ^ 8 by omega)]
      simp
  | succ d ih =>
    cases i with
    | uint n =>
      obtain ⟨a, h⟩ := readHead_head (m := 0) (by omega) (show n < 2 ^ 64 from hf) r
      simp only [enc, dec, step, h]
    | nint n =>
      obtain ⟨a, h⟩ := readHead_head (m := 1) (by omega) (show n < 2 ^ 64 from hf) r
      simp only [enc, dec, step, h]
    | bytes b =>
      simp only [enc, List.length_append] at hl
      obtain ⟨a, h⟩ := readHead_head (m := 2) (by omega) (show b.length < 2 ^ 64 by omega) (b ++ r)
      simp only [enc, dec, step, List.append_assoc, h, readStr_append, Option.map_some]
    | text s =>
      simp only [enc, List.length_append] at hl
      obtain ⟨a, h⟩ := readHead_head (m := 3) (by omega) (show (utf8 s).length < 2 ^ 64 by omega) (utf8 s ++ r)
      simp only [enc, dec, step, List.append_assoc, h, readStr_append, ofUtf8_utf8, Option.map_some]
    | arr l =>
      simp only [enc, List.length_append] at hl
      have hf : ∀ x ∈ l, x.Fits d := hf
      have hn := encList_length l
      obtain ⟨a, h⟩ := readHead_head (m := 4) (by omega) (show l.length < 2 ^ 64 by omega) (encList l ++ r)
      have := decList_fits (f := dec d) (l := l)
        (fun i hi r => ih (hf i hi) (by have := encList_mem hi; omega) r) r
      simp only [enc, dec, step, List.append_assoc, h, this, Option.map_some]
    | map l =>
      simp only [enc, List.length_append] at hl
      have hf : ∀ x ∈ l, x.1.Fits d ∧ x.2.Fits d := hf
      have hn := encPairs_length l
      obtain ⟨a, h⟩ := readHead_head (m := 5) (by omega) (show l.length < 2 ^ 64 by omega) (encPairs l ++ r)
      have := decPairs_fits (f := dec d) (l := l)
        (fun i hi => ⟨ih (hf i hi).1 (by have := encPairs_mem hi; omega), ih (hf i hi).2 (by have := encPairs_mem hi; omega)⟩) r
      simp only [enc, dec, step, List.append_assoc, h, this, Option.map_some]
    | tag t i =>
      simp only [enc, List.length_append] at hl
      have hf : t < 2 ^ 64 ∧ i.Fits d := hf
      obtain ⟨a, h⟩ := readHead_head (m := 6) (by omega) hf.1 (enc i ++ r)
      simp only [enc, dec, step, List.append_assoc, h, ih hf.2 (by omega), Option.map_some]
    | bool b => cases b <;> rfl
    | null => rfl
    | float n =>
      have hn : n < 2 ^ 64 := hf
      simp only [enc, if_pos hn, List.cons_append, dec, step, readHead, readArg_be (show n < 256 ^ 8 by omega)]
      rfl

theorem fromSlice_fits {i : Item} (hf : i.Fits 127) (hl : (enc i).length < 2 ^ 64) : fromSlice (enc i) = some i := by
  have := dec_fits 127 hf hl []
  rw [List.append_nil] at this
  simp [fromSlice, this]

theorem Item.Fits.mono {i : Item} {d e : Nat} (h : d ≤ e) (hi : i.Fits d) : i.Fits e := by
  induction d generalizing i e with
  | zero => cases i <;> first | exact hi.elim | (cases e <;> exact hi)
  | succ d ih =>
    obtain ⟨e, rfl⟩ : ∃ e', e = e' + 1 := ⟨e - 1, by omega⟩
    have h : d ≤ e := by omega
    cases i with
    | arr l => exact fun x hx => ih h ((show ∀ x ∈ l, x.Fits d from hi) x hx)
    | map l => exact fun x hx => ⟨ih h ((show ∀ x ∈ l, x.1.Fits d ∧ x.2.Fits d from hi) x hx).1,
        ih h ((show ∀ x ∈ l, x.1.Fits d ∧ x.2.Fits d from hi) x hx).2⟩
    | tag t i => exact ⟨hi.1, ih h hi.2⟩
    | _ => exact hi

/-! ### Items without simple values -/

theorem isHead {m n : Nat} (hm : m < 8) (hn : n < 2 ^ 64) : IsHead m n (head m n) := by
  unfold head
  split
  · rename_i h; rw [Nat.mul_comm]; exact .imm hm h
  split
  · have := IsHead.ext1 (m := m) hm (toBe_length 1 n)
    rw [beNat_toBe _ _ (by omega)] at this; rw [Nat.mul_comm]; exact this
  split
  · have := IsHead.ext2 (m := m) hm (toBe_length 2 n)
    rw [beNat_toBe _ _ (by omega)] at this; rw [Nat.mul_comm]; exact this
  split
  · have := IsHead.ext4 (m := m) hm (toBe_length 4 n)
    rw [beNat_toBe _ _ (by omega)] at this; rw [Nat.mul_comm]; exact this
  · have := IsHead.ext8 (m := m) hm (toBe_length 8 n)
    rw [beNat_toBe _ _ (by omega)] at this; rw [Nat.mul_comm]; exact this

theorem encList_flatten (l : List Item) : encList l = (l.map enc).flatten := by
  induction l with
  | nil => rfl
  | cons i l ih => simp [encList, ih]

theorem encPairs_flatten (l : List (Item × Item)) : encPairs l = (l.flatMap fun x => [enc x.1, enc x.2]).flatten := by
  induction l with
  | nil => rfl
  | cons x l ih => obtain ⟨k, v⟩ := x; simp [encPairs, ih]

theorem pairs_length (l : List (Item × Item)) : (l.flatMap fun x => [enc x.1, enc x.2]).length = 2 * l.length := by
  induction l with
  | nil => rfl
  | cons x l ih => simp only [List.flatMap_cons, List.length_append, ih, List.length_cons, List.length_nil]; omega

theorem isItem_solid (d : Nat) {i : Item} (hs : i.Solid d) (hl : (enc i).length < 2 ^ 63) : IsItem (enc i) := by
  induction d generalizing i with
  | zero =>
    cases i with
    | uint n => exact .int (.inl rfl) (isHead (by omega) hs)
    | nint n => exact .int (.inr rfl) (isHead (by omega) hs)
    | bytes b =>
      simp only [enc, List.length_append] at hl
      exact .str (.inl rfl) (isHead (by omega) (by omega)) rfl (by omega)
    | text s =>
      simp only [enc, List.length_append] at hl
      exact .str (.inr rfl) (isHead (by omega) (by omega)) rfl (by omega)
    | _ => exact hs.elim
  | succ d ih =>
    cases i with
    | uint n => exact .int (.inl rfl) (isHead (by omega) hs)
    | nint n => exact .int (.inr rfl) (isHead (by omega) hs)
    | bytes b =>
      simp only [enc, List.length_append] at hl
      exact .str (.inl rfl) (isHead (by omega) (by omega)) rfl (by omega)
    | text s =>
      simp only [enc, List.length_append] at hl
      exact .str (.inr rfl) (isHead (by omega) (by omega)) rfl (by omega)
    | arr l =>
      simp only [enc, List.length_append] at hl ⊢
      have hs : ∀ x ∈ l, x.Solid d := hs
      have hn := encList_length l
      rw [encList_flatten]
      refine .array (isHead (by omega) (by omega)) (by simp) ?_
      intro x hx
      obtain ⟨i, hi, rfl⟩ := List.mem_map.1 hx
      exact ih (hs i hi) (by have := encList_mem hi; omega)
    | map l =>
      simp only [enc, List.length_append] at hl ⊢
      have hs : ∀ x ∈ l, x.1.Solid d ∧ x.2.Solid d := hs
      have hn := encPairs_length l
      rw [encPairs_flatten]
      refine .map (isHead (by omega) (by omega)) (by omega) ?_ ?_
      · exact pairs_length l
      · intro x hx
        obtain ⟨y, hy, hx⟩ := List.mem_flatMap.1 hx
        have := encPairs_mem hy
        simp only [List.mem_cons, List.not_mem_nil, or_false] at hx
        rcases hx with rfl | rfl
        · exact ih (hs y hy).1 (by omega)
        · exact ih (hs y hy).2 (by omega)
    | tag t i =>
      simp only [enc, List.length_append] at hl
      have hs : t < 2 ^ 64 ∧ i.Solid d := hs
      exact .tag (isHead (by omega) hs.1) (ih hs.2 (by omega))
    | _ => exact hs.elim

theorem Item.Solid.fits {i : Item} {d : Nat} (h : i.Solid d) : i.Fits d := by
  induction d generalizing i with
  | zero => cases i <;> first | exact h.elim | exact h
  | succ d ih =>
    cases i with
    | arr l => exact fun x hx => ih ((show ∀ x ∈ l, x.Solid d from h) x hx)
    | map l => exact fun x hx => ⟨ih ((show ∀ x ∈ l, x.1.Solid d ∧ x.2.Solid d from h) x hx).1,
        ih ((show ∀ x ∈ l, x.1.Solid d ∧ x.2.Solid d from h) x hx).2⟩
    | tag t i => exact ⟨h.1, ih h.2⟩
    | bool b => exact h.elim
    | null => exact h.elim
    | float n => exact h.elim
    | _ => exact h

theorem Item.Solid.mono {i : Item} {d e : Nat} (h : d ≤ e) (hi : i.Solid d) : i.Solid e := by
  induction d generalizing i e with
  | zero => cases i <;> first | exact hi.elim | (cases e <;> exact hi)
  | succ d ih =>
    obtain ⟨e, rfl⟩ : ∃ e', e = e' + 1 := ⟨e - 1, by omega⟩
    have h : d ≤ e := by omega
    cases i with
    | arr l => exact fun x hx => ih h ((show ∀ x ∈ l, x.Solid d from hi) x hx)
    | map l => exact fun x hx => ⟨ih h ((show ∀ x ∈ l, x.1.Solid d ∧ x.2.Solid d from hi) x hx).1,
        ih h ((show ∀ x ∈ l, x.1.Solid d ∧ x.2.Solid d from hi) x hx).2⟩
    | tag t i => exact ⟨hi.1, ih h hi.2⟩
    | _ => exact hi

end Verif.Wire

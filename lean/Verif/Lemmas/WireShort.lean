import Verif.Lemmas.WireMsg
/-!
What was read can be written again: in no more bytes, and it is read as before.
-/
namespace Verif.Wire
open Verif Verif.Types Verif.Cbor Verif.Cbor.Spec

theorem readArg_some {k n : Nat} {b r : Bytes} (h : readArg k b = some (n, r)) : n < 256 ^ k ∧ r.length + k = b.length := by
  unfold readArg at h
  split at h
  · cases h
  · cases h
    refine ⟨?_, by simp; omega⟩
    have := beNat_lt (b.take k)
    rwa [List.length_take, Nat.min_eq_left (by omega)] at this

theorem readHead_some {b r : Bytes} {m a n : Nat} (h : readHead b = some (m, a, n, r)) :
    n < 2 ^ 64 ∧ (∀ m', (head m' n).length + r.length ≤ b.length) ∧ r.length < b.length ∧ (a = 27 → r.length + 9 = b.length) := by
  cases b with
  | nil => cases h
  | cons x b =>
    have hd : ∀ m', (head m' n).length = if n ≤ 23 then 1 else if n ≤ 255 then 2 else if n ≤ 65535 then 3
        else if n < 2 ^ 32 then 5 else if n < 2 ^ 64 then 9 else 1 := by
      intro m'
      unfold head
      repeat' split
      all_goals simp [toBe_length]
    simp only [hd, List.length_cons, forall_const]
    simp only [readHead] at h
    split at h
    · cases h
      refine ⟨by omega, ?_, by omega, by omega⟩
      rw [if_pos (by assumption)]
      omega
    iterate 4
      split at h
      · obtain ⟨⟨n', r'⟩, h1, h2⟩ := Option.map_eq_some_iff.1 h
        cases h2
        obtain ⟨h3, h4⟩ := readArg_some h1
        refine ⟨by omega, ?_, by omega, by omega⟩
        repeat' split
        all_goals omega
    cases h

theorem readStr_some {n : Nat} {b s r : Bytes} (h : readStr n b = some (s, r)) : s.length = n ∧ s.length + r.length = b.length := by
  unfold readStr at h
  split at h
  · cases h
  · cases h
    simp
    omega

theorem ofUtf8_some {b : Bytes} {s : String} (h : ofUtf8 b = some s) : utf8 s = b := by
  unfold ofUtf8 String.fromUTF8? at h
  split at h
  · cases h
    simp [utf8, String.fromUTF8]
  · cases h

/-- Items read take no more bytes when they are written, and fit. -/
def Short (d : Nat) (f : Bytes → Option (Item × Bytes)) : Prop :=
  ∀ b i r, f b = some (i, r) → (enc i).length + r.length ≤ b.length ∧ i.Fits d

theorem decList_short {d : Nat} {f : Bytes → Option (Item × Bytes)} (hf : Short d f) {n : Nat} {b : Bytes} {l : List Item} {r : Bytes}
    (h : decList f n b = some (l, r)) : (encList l).length + r.length ≤ b.length ∧ (∀ i ∈ l, i.Fits d) ∧ l.length = n := by
  induction n generalizing b l r with
  | zero => cases h; simp [encList]
  | succ n ih =>
    simp only [decList] at h
    split at h
    · cases h
    · rename_i i r' h1
      obtain ⟨⟨l', r''⟩, h2, h3⟩ := Option.map_eq_some_iff.1 h
      cases h3
      obtain ⟨h4, h5⟩ := hf _ _ _ h1
      obtain ⟨h6, h7, h8⟩ := ih h2
      simp only [encList, List.length_append, List.length_cons, List.mem_cons, forall_eq_or_imp]
      exact ⟨by omega, ⟨h5, h7⟩, by omega⟩

theorem decPairs_short {d : Nat} {f : Bytes → Option (Item × Bytes)} (hf : Short d f) {n : Nat} {b : Bytes} {l : List (Item × Item)}
    {r : Bytes} (h : decPairs f n b = some (l, r)) :
    (encPairs l).length + r.length ≤ b.length ∧ (∀ x ∈ l, x.1.Fits d ∧ x.2.Fits d) ∧ l.length = n := by
  induction n generalizing b l r with
  | zero => cases h; simp [encPairs]
  | succ n ih =>
    simp only [decPairs] at h
    split at h
    · cases h
    · rename_i i r' h1
      split at h
      · cases h
      · rename_i j r2 h0
        obtain ⟨⟨l', r''⟩, h2, h3⟩ := Option.map_eq_some_iff.1 h
        cases h3
        obtain ⟨h4, h5⟩ := hf _ _ _ h1
        obtain ⟨h4', h5'⟩ := hf _ _ _ h0
        obtain ⟨h6, h7, h8⟩ := ih h2
        simp only [encPairs, List.length_append, List.length_cons, List.mem_cons, forall_eq_or_imp]
        exact ⟨by omega, ⟨⟨h5, h5'⟩, h7⟩, by omega⟩

theorem step_short {d : Nat} {o : Option (Bytes → Option (Item × Bytes))} (hf : ∀ f, o = some f → ∃ e, d = e + 1 ∧ Short e f) :
    Short d (step o) := by
  intro b i r h
  unfold step at h
  split at h
  · cases h
  · rename_i m a n r' h0
    obtain ⟨h1, h2, h3, h4⟩ := readHead_some h0
    split at h
    · cases h
      exact ⟨h2 0, by cases d <;> exact h1⟩
    · cases h
      exact ⟨h2 1, by cases d <;> exact h1⟩
    · obtain ⟨⟨s, r2⟩, h5, h6⟩ := Option.map_eq_some_iff.1 h
      cases h6
      obtain ⟨rfl, h7⟩ := readStr_some h5
      have := h2 2
      simp only [enc, List.length_append]
      exact ⟨by omega, by cases d <;> trivial⟩
    · split at h
      · cases h
      · rename_i s r2 h5
        obtain ⟨t, h6, h7⟩ := Option.map_eq_some_iff.1 h
        cases h7
        obtain ⟨rfl, h7⟩ := readStr_some h5
        cases ofUtf8_some h6
        have := h2 3
        simp only [enc, List.length_append]
        exact ⟨by omega, by cases d <;> trivial⟩
    · split at h
      · cases h
      · rename_i f
        obtain ⟨e, rfl, hs⟩ := hf f rfl
        obtain ⟨⟨l, r2⟩, h5, h6⟩ := Option.map_eq_some_iff.1 h
        cases h6
        obtain ⟨h7, h8, rfl⟩ := decList_short hs h5
        have := h2 4
        simp only [enc, List.length_append]
        exact ⟨by omega, h8⟩
    · split at h
      · cases h
      · rename_i f
        obtain ⟨e, rfl, hs⟩ := hf f rfl
        obtain ⟨⟨l, r2⟩, h5, h6⟩ := Option.map_eq_some_iff.1 h
        cases h6
        obtain ⟨h7, h8, rfl⟩ := decPairs_short hs h5
        have := h2 5
        simp only [enc, List.length_append]
        exact ⟨by omega, h8⟩
    · split at h
      · cases h
      · rename_i f
        obtain ⟨e, rfl, hs⟩ := hf f rfl
        obtain ⟨⟨l, r2⟩, h5, h6⟩ := Option.map_eq_some_iff.1 h
        cases h6
        obtain ⟨h7, h8⟩ := hs _ _ _ h5
        have := h2 6
        simp only [enc, List.length_append]
        exact ⟨by omega, h1, h8⟩
    · split at h
      · cases h
        exact ⟨by simp only [enc, List.length_singleton]; omega, by cases d <;> trivial⟩
      split at h
      · cases h
        exact ⟨by simp only [enc, List.length_singleton]; omega, by cases d <;> trivial⟩
      split at h
      · cases h
        exact ⟨by simp only [enc, List.length_singleton]; omega, by cases d <;> trivial⟩
      split at h
      · cases h
        refine ⟨?_, by cases d <;> exact h1⟩
        have := h4 (by assumption)
        simp only [enc, if_pos h1, List.length_cons, toBe_length]
        omega
      · cases h

theorem dec_short (d : Nat) : Short d (dec d) := by
  induction d with
  | zero => exact step_short (by intro f h; cases h)
  | succ d ih => exact step_short (by intro f h; cases h; exact ⟨d, rfl, ih⟩)

/-- An item that was read is written in no more bytes, and read again. -/
theorem fromSlice_short {b : Bytes} {i : Item} (h : fromSlice b = some i) :
    (enc i).length ≤ b.length ∧ i.Fits 127 ∧ (b.length < 2 ^ 64 → fromSlice (enc i) = some i) := by
  unfold fromSlice at h
  split at h
  · rename_i j h1
    cases h
    obtain ⟨h2, h3⟩ := dec_short _ _ _ _ h1
    simp only [List.length_nil, Nat.add_zero] at h2
    exact ⟨h2, h3, fun hb => fromSlice_fits h3 (by omega)⟩
  · cases h

end Verif.Wire

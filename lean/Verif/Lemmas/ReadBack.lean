import Verif.Lemmas.Voucher
/-!
A voucher which was read and can be written is read back from what is written.
-/
namespace Verif.Cbor
open Verif Verif.Cbor.Spec

/-- Reading an item of a release build from the loop's point of view. -/
theorem loop_itemWrap {it : Bytes} (hi : IsItemWrap it) :
    ∀ (x : Nat) (s : List Nat) (buf : Bytes) (items : List Bytes) (rest : Bytes), 1 ≤ x →
      elemLoop false (it ++ rest) ⟨x :: s, buf, items⟩ =
        elemLoop false rest (afterItem it x s buf items) := by
  induction hi with
  | int hm hh =>
    intro x s buf items rest hx
    obtain ⟨b, lb, rfl, hb, hr⟩ := readLen_of_isHead hh
    rw [List.cons_append, elemLoop_cons (by simp), elemStep_int hx (hb ▸ hm), hr rest]
    rfl
  | @str m v h body hm hh hl hv =>
    intro x s buf items rest hx
    obtain ⟨b, lb, rfl, hb, hr⟩ := readLen_of_isHead hh
    have e : b :: lb ++ body ++ rest = b :: (lb ++ (body ++ rest)) := by simp
    rw [e, elemLoop_cons (by simp), elemStep_str hx (hb ▸ hm), hr (body ++ rest)]
    have h1 : ¬ v ≥ 2 ^ 63 := by omega
    have h2 : ¬ (body ++ rest).length < v := by simp; omega
    have h3 : (body ++ rest).take v = body := by rw [← hl]; simp
    have h4 : (body ++ rest).drop v = rest := by rw [← hl]; simp
    simp only [Res.bind_ok, h1, h2, h3, h4, if_false]
  | @array v h l hh hl hi ih =>
    intro x s buf items rest hx
    obtain ⟨b, lb, rfl, hb, hr⟩ := readLen_of_isHead hh
    have e : b :: lb ++ l.flatten ++ rest = b :: (lb ++ (l.flatten ++ rest)) := by simp
    rw [e, elemLoop_cons (by simp), elemStep_array hx hb, hr (l.flatten ++ rest)]
    simp only [Res.bind_ok]
    by_cases hz : v = 0
    · subst hz
      have : l = [] := List.length_eq_zero_iff.1 hl
      subst this
      simp
    · rw [if_neg hz, ← hl, loop_list hx l ih (by intro h; simp [h] at hl; omega), afterItem_append]
  | @map v h l hh hl hne hi ih =>
    intro x s buf items rest hx
    obtain ⟨b, lb, rfl, hb, hr⟩ := readLen_of_isHead hh
    have e : b :: lb ++ l.flatten ++ rest = b :: (lb ++ (l.flatten ++ rest)) := by simp
    rw [e, elemLoop_cons (by simp), elemStep_map hx hb, hr (l.flatten ++ rest)]
    simp only [Res.bind_ok]
    by_cases hz : v = 0
    · subst hz
      have : l = [] := List.length_eq_zero_iff.1 (by simpa using hl)
      subst this
      simp
    · have hm : mapItems false v = some l.length := by
        unfold mapItems
        split
        · rw [hl, Nat.mod_eq_of_lt (by omega)]
        · rw [hl]; rfl
      rw [if_neg hz, hm]
      obtain ⟨n, hn⟩ : ∃ n, l.length = n + 1 := ⟨l.length - 1, by
        have := List.length_pos_iff.2 (hne hz); omega⟩
      have := loop_list (s := s) hx l ih (hne hz) (buf ++ b :: lb) items rest
      rw [hn] at this ⊢
      simp only [Res.bind_ok]
      rw [this, afterItem_append]
  | @tag v h body hh hi ih =>
    intro x s buf items rest hx
    obtain ⟨b, lb, rfl, hb, hr⟩ := readLen_of_isHead hh
    have e : b :: lb ++ body ++ rest = b :: (lb ++ (body ++ rest)) := by simp
    rw [e, elemLoop_cons (by simp), elemStep_tag hb, hr (body ++ rest)]
    simp only [Res.bind_ok]
    rw [ih x s _ items rest hx, afterItem_append]

theorem loop_topWrap (l : List Bytes) (hl : ∀ i ∈ l, IsItemWrap i) (hne : l ≠ [])
    (acc : List Bytes) (rest : Bytes) :
    elemLoop false (l.flatten ++ rest) ⟨[l.length], [], acc⟩ = .ok (⟨[], [], acc ++ l⟩, rest) := by
  induction l generalizing acc with
  | nil => exact absurd rfl hne
  | cons i l ih =>
    have e1 : (i :: l).flatten ++ rest = i ++ (l.flatten ++ rest) := by simp
    rw [e1, loop_itemWrap (hl i (by simp)) _ _ _ _ _ (by simp)]
    cases l with
    | nil => simp [afterItem, elemLoop_done]
    | cons j l =>
      have := ih (fun i hi => hl i (by simp [hi])) (by simp) (acc ++ [i])
      simpa [afterItem] using this

theorem readArray_of_grammarWrap {size tag : Option Nat} {b : UInt8} {lb : Bytes}
    {l : List Bytes} {rest : Bytes} (ha : IsHead 4 l.length (b :: lb)) (hl : ∀ i ∈ l, IsItemWrap i)
    (hs : size = none ∨ (size = some l.length ∧ l ≠ [])) :
    readArray false size tag b (lb ++ (l.flatten ++ rest)) = .ok (⟨tag, l⟩, rest) := by
  obtain ⟨b', lb', e, hb, hr⟩ := readLen_of_isHead ha
  cases e
  unfold readArray
  rw [readLen_minor, hr]
  simp only [hb, ne_eq, not_true_eq_false, if_false]
  rcases hs with rfl | ⟨rfl, hne⟩
  · by_cases hz : l = []
    · subst hz; simp
    · have : l.length ≠ 0 := by simpa using hz
      simp only [this, if_false, readElements]
      rw [loop_topWrap l hl hz]
      simp
  · simp only [not_true_eq_false, if_false, readElements]
    rw [loop_topWrap l hl hne]
    simp

/-- `deserialize` on a grammatical array (any head form). -/
theorem deserialize_of_grammarWrap {size : Option Nat} {tag : Option Nat} {th ah : Bytes}
    {l : List Bytes} {rest : Bytes}
    (ht : (tag = none ∧ th = []) ∨ ∃ t, tag = some t ∧ IsHead 6 t th)
    (ha : IsHead 4 l.length ah) (hl : ∀ i ∈ l, IsItemWrap i)
    (hs : size = none ∨ (size = some l.length ∧ l ≠ [])) :
    deserialize false size (th ++ ah ++ l.flatten ++ rest) = .ok (⟨tag, l⟩, rest) := by
  obtain ⟨b, lb, rfl, hb, hr⟩ := readLen_of_isHead ha
  rcases ht with ⟨rfl, rfl⟩ | ⟨t, rfl, hth⟩
  · have e : [] ++ (b :: lb) ++ l.flatten ++ rest = b :: (lb ++ (l.flatten ++ rest)) := by simp
    rw [e]
    simp only [deserialize, readTag, hb]
    exact readArray_of_grammarWrap ha hl hs
  · obtain ⟨tb, tlb, rfl, htb, htr⟩ := readLen_of_isHead hth
    have e : (tb :: tlb) ++ (b :: lb) ++ l.flatten ++ rest =
        tb :: (tlb ++ (b :: (lb ++ (l.flatten ++ rest)))) := by simp
    rw [e]
    simp only [deserialize, readTag, htb]
    rw [readLen_minor, htr]
    exact readArray_of_grammarWrap ha hl hs

theorem encodeItemStart_le {m v : Nat} {h : Bytes} (he : encodeItemStart m v = .ok h) : v ≤ 65535 := by
  refine Nat.le_of_not_lt fun hv => ?_
  unfold encodeItemStart at he
  rw [if_neg (by omega), if_neg (by omega), if_neg (by omega)] at he
  cases he

/-- What was read and can be written is read back from what is written. -/
theorem deserialize_again {c : Bool} {size : Option Nat} {a : ParsedArray} {inp rest bs : Bytes} (h0 : size ≠ some 0)
    (h : deserialize c size inp = .ok (a, rest)) (hs : serialize a = .ok bs) (q : Bytes) :
    deserialize c size (bs ++ q) = .ok (a, q) := by
  obtain ⟨tag, l⟩ := a
  obtain ⟨th, ah, rfl, hth, hah⟩ : ∃ th ah, bs = th ++ ah ++ l.flatten ∧
      ((tag = none ∧ th = []) ∨ ∃ t, tag = some t ∧ IsHead 6 t th) ∧ IsHead 4 l.length ah := by
    simp only [serialize] at hs
    cases tag with
    | none =>
      obtain ⟨th, h1, hs⟩ := Res.bind_eq_ok.1 hs
      obtain ⟨ah, h2, hs⟩ := Res.bind_eq_ok.1 hs
      cases hs
      obtain ⟨ah', e2, hh2⟩ := isHead_encode (m := 4) (by omega) (encodeItemStart_le h2)
      rw [e2] at h2
      cases h2
      cases h1
      exact ⟨[], _, rfl, .inl ⟨rfl, rfl⟩, hh2⟩
    | some t =>
      obtain ⟨th, h1, hs⟩ := Res.bind_eq_ok.1 hs
      obtain ⟨ah, h2, hs⟩ := Res.bind_eq_ok.1 hs
      cases hs
      obtain ⟨ah', e2, hh2⟩ := isHead_encode (m := 4) (by omega) (encodeItemStart_le h2)
      rw [e2] at h2
      cases h2
      obtain ⟨th', e1, hh1⟩ := isHead_encode (m := 6) (by omega) (encodeItemStart_le h1)
      rw [e1] at h1
      cases h1
      exact ⟨_, _, rfl, .inr ⟨t, rfl, hh1⟩, hh2⟩
  have fit : (∀ n, size = some n → l.length = n) → size = none ∨ (size = some l.length ∧ l ≠ []) := by
    intro hn
    cases size with
    | none => exact .inl rfl
    | some n =>
      have := hn n rfl
      subst this
      exact .inr ⟨rfl, by rintro rfl; exact h0 rfl⟩
  cases c with
  | true =>
    obtain ⟨_, _, _, _, _, hi, hn⟩ := grammar_of_deserialize itemClass_isItem h0 h
    exact deserialize_of_grammar hth hah hi (fit hn)
  | false =>
    obtain ⟨_, _, _, _, _, hi, hn⟩ := grammar_of_deserialize itemClass_isItemWrap h0 h
    exact deserialize_of_grammarWrap hth hah hi (fit hn)

end Verif.Cbor

namespace Verif.Voucher
open Verif Verif.Cbor Verif.Cbor.Spec
variable {E : Env} {c : Bool}

/-- A voucher which was read and can be written is read back from what is written. -/
theorem read_again {inp rest bs : Bytes} {v : Voucher E} (h : deserialize c inp = .ok (v, rest))
    (hs : serialize v = .ok bs) (q : Bytes) : deserialize c (bs ++ q) = .ok (v, q) := by
  have w := wf_of_deserialize h
  have hs : Cbor.serialize v.contents = .ok bs := liftP_eq_ok.1 hs
  unfold deserialize at h ⊢
  split at h
  · cases h
  · cases h
  · cases h
  · rename_i a r ha
    obtain ⟨v', h1, h2⟩ := Res.bind_eq_ok.1 h
    cases h2
    have hl : a.contents.length = 5 := by
      cases c with
      | false =>
        obtain ⟨_, _, _, _, _, _, hn⟩ := grammar_of_deserialize itemClass_isItemWrap (by simp) ha
        exact hn 5 rfl
      | true =>
        obtain ⟨_, _, _, _, _, _, hn⟩ := grammar_of_deserialize itemClass_isItem (by simp) ha
        exact hn 5 rfl
    rw [(wf_of_fromParsedArray hl h1).2] at hs
    rw [deserialize_again (by simp) ha hs q]
    simp only
    rw [h1]
    rfl

end Verif.Voucher

/-!
Bytes of strings: the UTF-8 form has a zero byte only for the character U+0000.
-/
namespace Verif.Utf8

theorem loop_eq (bs : ByteArray) (i : Nat) (r : List UInt8) :
    ByteArray.toList.loop bs i r = r.reverse ++ bs.data.toList.drop i := by
  induction h : bs.size - i generalizing i r with
  | zero =>
    unfold ByteArray.toList.loop
    rw [if_neg (by omega), List.drop_eq_nil_of_le (by rw [Array.length_toList]; exact Nat.le_of_sub_eq_zero h), List.append_nil]
  | succ n ih =>
    unfold ByteArray.toList.loop
    have hi : i < bs.size := by omega
    have hi' : i < bs.data.toList.length := by rw [Array.length_toList]; exact hi
    rw [if_pos hi, ih _ _ (by omega), List.drop_eq_getElem_cons hi']
    have : bs.get! i = bs.data.toList[i] := by
      cases bs
      simp only [ByteArray.get!, Array.getElem_toList]
      exact getElem!_pos _ _ _
    simp [this]

theorem toList_eq (bs : ByteArray) : bs.toList = bs.data.toList := by
  rw [ByteArray.toList, loop_eq]; rfl

theorem utf8_toList (s : String) : s.toUTF8.toList = s.toList.flatMap String.utf8EncodeChar := by
  rw [toList_eq]
  show s.toByteArray.data.toList = _
  rw [← String.utf8Encode_toList, List.utf8Encode, List.toList_data_toByteArray]

theorem encodeChar_zero (ch : Char) (h : (0 : UInt8) ∈ String.utf8EncodeChar ch) : ch.toNat = 0 := by
  unfold String.utf8EncodeChar at h
  have key : ∀ n, n < 256 → (0 : UInt8) = UInt8.ofNat n → n = 0 := by
    intro n hn he
    have := congrArg UInt8.toNat he
    simpa [Nat.mod_eq_of_lt hn] using this.symm
  simp only at h
  split at h
  · rw [List.mem_singleton] at h
    exact key ch.val.toNat (by omega) h
  split at h
  · exfalso
    simp only [List.mem_cons, List.not_mem_nil, or_false] at h
    rcases h with h | h <;> (have := key _ (by omega) h; omega)
  split at h
  · exfalso
    simp only [List.mem_cons, List.not_mem_nil, or_false] at h
    rcases h with h | h | h <;> (have := key _ (by omega) h; omega)
  · exfalso
    simp only [List.mem_cons, List.not_mem_nil, or_false] at h
    rcases h with h | h | h | h <;> (have := key _ (by omega) h; omega)

theorem zero_mem {s : String} (h : (0 : UInt8) ∈ s.toUTF8.toList) : ∃ ch ∈ s.toList, ch.toNat = 0 := by
  rw [utf8_toList] at h
  obtain ⟨ch, h1, h2⟩ := List.mem_flatMap.1 h
  exact ⟨ch, h1, encodeChar_zero ch h2⟩

end Verif.Utf8

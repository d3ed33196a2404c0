import Verif.Lemmas.WireShort
/-!
The form of device credentials.
-/
namespace Verif.Wire
open Verif Verif.Types Verif.Credential

theorem deAll_back {α : Type} {f : Item → Option α} {g : α → Item} (h : ∀ i a, f i = some a → g a = i) {l : List Item} {m : List α}
    (hl : Codec.deAll f l = some m) : m.map g = l ∧ ∀ a ∈ m, ∃ i, f i = some a := by
  induction l generalizing m with
  | nil => cases hl; simp
  | cons i l ih =>
    simp only [Codec.deAll] at hl
    split at hl
    · cases hl
    · rename_i a ha
      obtain ⟨m', h1, rfl⟩ := Option.map_eq_some_iff.1 hl
      obtain ⟨h2, h3⟩ := ih h1
      exact ⟨by rw [List.map_cons, h i a ha, h2], by
        intro x hx
        rcases List.mem_cons.1 hx with rfl | hx
        · exact ⟨i, ha⟩
        · exact h3 x hx⟩

theorem pair_back {i : Item} {x : Nat × Bytes} (h : (Codec.pair (.uint 15) .bytes).de i = some x) :
    (Codec.pair (.uint 15) .bytes).ser x = i ∧ x.1 < 15 := by
  simp only [Codec.pair] at h
  split at h
  · rename_i i j
    split at h
    · rename_i a b h1 h2
      cases h
      simp only [Codec.uint] at h1
      split at h1
      · split at h1
        · cases h1
          simp only [Codec.bytes] at h2
          split at h2
          · cases h2
            exact ⟨rfl, by assumption⟩
          · cases h2
        · cases h1
      · cases h1
    · cases h
  · cases h

/-- Rendezvous information that was read has variables there are, and is the item that was read. -/
theorem rvInfo_back {i : Item} {r : List (List (Nat × Bytes))} (h : rvInfo.de i = some r) :
    rvInfo.ser r = i ∧ ∀ d ∈ r, ∀ x ∈ d, x.1 < 15 := by
  have hd : ∀ i d, (Codec.list (.pair (.uint 15) .bytes)).de i = some d →
      (Codec.list (.pair (.uint 15) .bytes)).ser d = i ∧ ∀ x ∈ d, x.1 < 15 := by
    intro i d h
    simp only [Codec.list] at h
    split at h
    · obtain ⟨h1, h2⟩ := deAll_back (fun i a h => (pair_back h).1) h
      refine ⟨by simp only [Codec.list]; rw [h1], fun x hx => ?_⟩
      obtain ⟨j, hj⟩ := h2 x hx
      exact (pair_back hj).2
    · cases h
  rw [rvInfo, Codec.list] at h
  simp only at h
  split at h
  · obtain ⟨h1, h2⟩ := deAll_back (fun i a h => (hd i a h).1) h
    refine ⟨?_, fun d hd' x hx => ?_⟩
    · rw [rvInfo, Codec.list]
      simp only
      rw [h1]
    · obtain ⟨j, hj⟩ := h2 d hd'
      exact (hd j d hj).2 x hx
  · cases h

theorem keyStorage_de (k : KeyStorage) : keyStorage.de (keyStorage.ser k) = some k := by
  cases k with
  | plain a b =>
    have h1 : field "hmac_secret" [(.text "hmac_secret", Codec.numbers.ser a), (.text "private_key", Codec.numbers.ser b)] =
      some (Codec.numbers.ser a) := rfl
    have h2 : field "private_key" [(.text "hmac_secret", Codec.numbers.ser a), (.text "private_key", Codec.numbers.ser b)] =
      some (Codec.numbers.ser b) := rfl
    simp only [keyStorage, h1, h2, Option.bind_some, numbers_de, if_true]
  | tpm a b c d =>
    have h0 : ("Tpm" = "Plain") = False := by simp
    have h1 : ∀ w x y z, field "signing_public" [(.text "signing_public", w), (.text "signing_private", x), (.text "hmac_public", y),
      (.text "hmac_private", z)] = some w := fun _ _ _ _ => rfl
    have h2 : ∀ w x y z, field "signing_private" [(.text "signing_public", w), (.text "signing_private", x), (.text "hmac_public", y),
      (.text "hmac_private", z)] = some x := fun _ _ _ _ => rfl
    have h3 : ∀ w x y z, field "hmac_public" [(.text "signing_public", w), (.text "signing_private", x), (.text "hmac_public", y),
      (.text "hmac_private", z)] = some y := fun _ _ _ _ => rfl
    have h4 : ∀ w x y z, field "hmac_private" [(.text "signing_public", w), (.text "signing_private", x), (.text "hmac_public", y),
      (.text "hmac_private", z)] = some z := fun _ _ _ _ => rfl
    simp only [keyStorage, h0, if_false, h1, h2, h3, h4, Option.bind_some, numbers_de, if_true]

theorem keyStorage_fits (k : KeyStorage) (d : Nat) : (keyStorage.ser k).Fits (d + 3) := by
  cases k <;>
    simp only [keyStorage, Item.Fits, List.mem_cons, List.not_mem_nil, or_false, forall_eq_or_imp, forall_eq, true_and, numbers_fits, and_true]

/-- A credential as it should be is read as it was written. -/
theorem credential_rw {c : Cred} {r : List (List (Nat × Bytes))} (hv : c.version = 100 ∨ c.version = 101) (hg : c.guid.length = 16)
    (hr : c.rvinfo = rvInfo.write r) (hx : ∀ d ∈ r, ∀ x ∈ d, x.1 < 15) (hl : c.rvinfo.length < 2 ^ 64)
    (hs : (credential.write c).length < 2 ^ 64) : credential.read (credential.write c) = some c := by
  have h1 : fromSlice c.rvinfo = some (rvInfo.ser r) := by
    rw [hr] at hl ⊢
    exact fromSlice_fits (rvInfo_solid hx 124).fits hl
  refine Codec.read_write ?_ ?_ hs
  · obtain ⟨a, v, i, g, rv, h, k⟩ := c
    simp only at hv hg hr h1
    rw [hr] at h1
    simp only [credential, h1, Option.getD_some, version, if_pos hv, Codec.bytes16, if_pos hg, rvInfo_de hx, hash_de, keyStorage_de,
      String.toList_ofList, hr]
  · simp only [credential, h1, Option.getD_some, Item.Fits, List.mem_cons, List.not_mem_nil, or_false, forall_eq_or_imp, forall_eq, true_and]
    exact ⟨by omega, (rvInfo_solid hx 123).fits, (hash_solid _ 125).fits, keyStorage_fits _ 123⟩

/-- A credential that was read is as it should be. -/
theorem credential_back {b : Bytes} {c : Cred} (h : credential.read b = some c) : (c.version = 100 ∨ c.version = 101) ∧ c.guid.length = 16 ∧
    ∃ r, c.rvinfo = rvInfo.write r ∧ (∀ d ∈ r, ∀ x ∈ d, x.1 < 15) ∧ c.rvinfo.length ≤ b.length := by
  rw [Codec.read] at h
  obtain ⟨i, h1, h2⟩ := Option.bind_eq_some_iff.1 h
  have h3 := (fromSlice_short h1).1
  simp only [credential] at h2
  split at h2
  · rename_i a v s g r hh k
    split at h2
    · rename_i v' g' r' h' k' e1 e2 e3 e4 e5
      cases h2
      refine ⟨?_, ?_, r', rfl, (rvInfo_back e3).2, ?_⟩
      · simp only [version] at e1
        split at e1
        · split at e1
          · cases e1; assumption
          · cases e1
        · cases e1
      · simp only [Codec.bytes16] at e2
        split at e2
        · split at e2
          · cases e2; assumption
          · cases e2
        · cases e2
      · refine Nat.le_trans ?_ h3
        simp only [Codec.write, (rvInfo_back e3).1]
        rw [enc, List.length_append]
        have := encList_mem (l := [.bool a, v, .text s, g, r, hh, k]) (i := r) (by simp)
        omega
    · cases h2
  · cases h2

end Verif.Wire

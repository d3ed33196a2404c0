import Verif.Lemmas.Wire
/-!
Codecs: what is written is read again, or not read at all.
-/
namespace Verif.Wire
open Verif Verif.Types Verif.Cbor.Spec
variable {α β : Type}

theorem Codec.read_write {c : Codec α} {a : α} (h1 : c.de (c.ser a) = some a) (h2 : (c.ser a).Fits 127)
    (hl : (c.write a).length < 2 ^ 64) : c.read (c.write a) = some a := by
  rw [Codec.read, Codec.write, fromSlice_fits h2 hl]
  exact h1

/-- What is read is what was written. -/
def Codec.Exact (c : Codec α) : Prop := ∀ a b, c.de (c.ser a) = some b → b = a

theorem Codec.Exact.read {c : Codec α} (h : c.Exact) {a b : α} (hr : c.read (c.write a) = some b) : b = a := by
  rw [Codec.read, Codec.write] at hr
  obtain ⟨i, h1, h2⟩ := Option.bind_eq_some_iff.1 hr
  cases fromSlice_exact h1
  exact h a b h2

/-! ### Single types -/

theorem deAll_map {f : Item → Option α} {g : β → Item} {k : β → α} {l : List β} (h : ∀ a ∈ l, f (g a) = some (k a)) :
    Codec.deAll f (l.map g) = some (l.map k) := by
  induction l with
  | nil => rfl
  | cons a r ih =>
    simp only [List.map_cons, Codec.deAll, h a (by simp), ih fun b hb => h b (by simp [hb]), Option.map_some]

theorem deAll_exact {f : Item → Option α} {g : α → Item} (h : ∀ a b, f (g a) = some b → b = a) (l : List α) :
    ∀ l', Codec.deAll f (l.map g) = some l' → l' = l := by
  induction l with
  | nil => intro l' e; exact (Option.some.inj e).symm
  | cons a r ih =>
    intro l' e
    rw [List.map_cons, Codec.deAll] at e
    split at e
    · cases e
    · rename_i b hb
      obtain ⟨t, ht, rfl⟩ := Option.map_eq_some_iff.1 e
      rw [h a b hb, ih t ht]

theorem dePairs_map {γ : Type} {f : Item → Option α} {g : Item → Option β} {s : γ → Item × Item} {k : γ → α × β} {l : List γ}
    (h : ∀ a ∈ l, f (s a).1 = some (k a).1 ∧ g (s a).2 = some (k a).2) : dePairs f g (l.map s) = some (l.map k) := by
  induction l with
  | nil => rfl
  | cons a r ih =>
    obtain ⟨h1, h2⟩ := h a (by simp)
    rw [List.map_cons, dePairs, h1, h2]
    simp only [ih fun b hb => h b (by simp [hb]), Option.map_some, List.map_cons]

theorem asInt_int (n : Int) : Codec.asInt (Codec.int n) = some n := by cases n <;> rfl

theorem int_solid {n : Int} (d : Nat) (h1 : -(2 ^ 64 : Int) ≤ n) (h2 : n < 2 ^ 64) : (Codec.int n).Solid d := by
  cases n with
  | ofNat n =>
    simp only [Codec.int, Item.Solid]
    simp only [Int.ofNat_eq_natCast] at h2
    omega
  | negSucc n =>
    simp only [Codec.int, Item.Solid]
    omega

theorem hashType_de (t : HashType) : hashType.de (hashType.ser t) = some t := by cases t <;> decide
theorem kex_de (s : KexSuite) : kex.de (kex.ser s) = some s := by cases s <;> decide +kernel
theorem cipher_de (s : CipherSuite) : cipher.de (cipher.ser s) = some s := by cases s <;> decide
theorem storage_de (s : MfgServer.KeyStorage) : storage.de (storage.ser s) = some s := by cases s <;> decide
theorem keyType_de (s : MfgServer.KeyType) : keyType.de (keyType.ser s) = some s := by cases s <;> decide

theorem hash_de (h : Hash) : hash.de (hash.ser h) = some h := by
  simp only [hash, Codec.pair, hashType_de, Codec.bytes, Option.map_some]

theorem hashType_solid (t : HashType) (d : Nat) : (hashType.ser t).Solid d := by
  cases t
  · exact int_solid (n := -16) d (by decide) (by decide)
  · exact int_solid (n := -43) d (by decide) (by decide)
  · exact int_solid (n := 5) d (by decide) (by decide)
  · exact int_solid (n := 6) d (by decide) (by decide)

theorem hash_solid (h : Hash) (d : Nat) : (hash.ser h).Solid (d + 1) := by
  simp only [hash, Codec.pair, Item.Solid, List.mem_cons, List.not_mem_nil, or_false, forall_eq_or_imp, forall_eq]
  exact ⟨hashType_solid _ _, by simp only [Codec.bytes, Item.Solid]⟩

theorem cipher_solid (s : CipherSuite) (d : Nat) : (cipher.ser s).Solid d := by
  cases s
  · exact int_solid (n := 1) d (by decide) (by decide)
  · exact int_solid (n := 3) d (by decide) (by decide)

theorem repr_de {l : List Int} {n : Int} (h : n ∈ l) : (Codec.repr id l).de ((Codec.repr id l).ser n) = some n := by
  simp only [Codec.repr, asInt_int, Option.bind_some, id]
  induction l with
  | nil => cases h
  | cons a r ih =>
    rw [List.find?_cons]
    by_cases e : a = n
    · simp [e]
    · rw [show (a == n) = false by simpa using e]
      exact ih (by simpa [Ne.symm e] using h)

theorem sigInfo_de {n : Int} (b : Bytes) (h : n ∈ sigTypes) : sigInfo.de (sigInfo.ser (n, b)) = some (n, b) := by
  simp only [sigInfo, Codec.pair, repr_de h, Codec.bytes]

theorem sigTypes_range {n : Int} (h : n ∈ sigTypes) : -(2 ^ 64 : Int) ≤ n ∧ n < 2 ^ 64 := by
  simp only [sigTypes, List.mem_cons, List.not_mem_nil, or_false] at h
  omega

theorem sigInfo_solid {n : Int} (b : Bytes) (h : n ∈ sigTypes) (d : Nat) : (sigInfo.ser (n, b)).Solid (d + 1) := by
  obtain ⟨h1, h2⟩ := sigTypes_range h
  simp only [sigInfo, Codec.pair, Item.Solid, List.mem_cons, List.not_mem_nil, or_false, forall_eq_or_imp, forall_eq, Codec.repr, id]
  exact ⟨int_solid _ h1 h2, by simp only [Codec.bytes, Item.Solid]⟩

theorem sigNum_mem (t : OwnerServer.SigType) : sigNum t ∈ sigTypes := by cases t <;> decide
theorem sigOf_num (t : OwnerServer.SigType) : sigOf (sigNum t) = t := by cases t <;> decide

/-- A wire form of a public key with numbers there are. -/
def KeyForm (x : Int × Int × Bytes) : Prop := x.1 ∈ [1, 5, 6, 10, 11] ∧ x.2.1 ∈ [0, 1, 2, 3]

theorem publicKey_de {x : Int × Int × Bytes} (h : KeyForm x) : publicKey.de (publicKey.ser x) = some x := by
  obtain ⟨a, b, d⟩ := x
  have h1 := repr_de h.1
  have h2 := repr_de h.2
  simp only [Codec.repr, id] at h1 h2
  simp only [publicKey, Codec.repr, id, h1, h2]

theorem publicKey_solid {x : Int × Int × Bytes} (h : KeyForm x) (d : Nat) : (publicKey.ser x).Solid (d + 1) := by
  obtain ⟨h1, h2⟩ := h
  simp only [List.mem_cons, List.not_mem_nil, or_false] at h1 h2
  simp only [publicKey, Item.Solid, List.mem_cons, List.not_mem_nil, or_false, forall_eq_or_imp, forall_eq, and_true]
  exact ⟨int_solid _ (by omega) (by omega), int_solid _ (by omega) (by omega)⟩

theorem rvInfo_de {l : List (List (Nat × Bytes))} (h : ∀ r ∈ l, ∀ x ∈ r, x.1 < 15) : rvInfo.de (rvInfo.ser l) = some l := by
  have h1 : Codec.deAll (Codec.list (.pair (.uint 15) .bytes)).de (l.map (Codec.list (.pair (.uint 15) .bytes)).ser) = some (l.map id) :=
    deAll_map fun r hr => by
      have h2 : Codec.deAll (Codec.pair (.uint 15) .bytes).de (r.map (Codec.pair (.uint 15) .bytes).ser) = some (r.map id) :=
        deAll_map fun x hx => by simp only [Codec.pair, Codec.uint, Codec.bytes, if_pos (h r hr x hx), id]
      rw [List.map_id] at h2
      exact h2
  rw [List.map_id] at h1
  exact h1

theorem rvInfo_solid {l : List (List (Nat × Bytes))} (h : ∀ r ∈ l, ∀ x ∈ r, x.1 < 15) (d : Nat) : (rvInfo.ser l).Solid (d + 3) := by
  simp only [rvInfo, Codec.list, Codec.pair, Item.Solid, List.mem_map, forall_exists_index, and_imp, forall_apply_eq_imp_iff₂,
    List.mem_cons, List.not_mem_nil, or_false, forall_eq_or_imp, forall_eq, Codec.uint, Codec.bytes, and_true]
  intro r hr x hx
  have := h r hr x hx
  omega

theorem chain_de (l : List Bytes) : chain.de (chain.ser l) = some l := by
  have h1 : Codec.deAll Codec.bytes.de (l.map Codec.bytes.ser) = some (l.map id) := deAll_map fun _ _ => rfl
  rw [List.map_id] at h1
  exact h1

theorem chain_solid (l : List Bytes) (d : Nat) : (chain.ser l).Solid (d + 1) := by
  simp [chain, Codec.list, Item.Solid, Codec.bytes]

theorem extra_de {l : List (Nat × Bytes)} (h : ∀ x ∈ l, x.1 < 2 ^ 64) : extra.de (extra.ser l) = some l := by
  have h1 : dePairs Codec.u128.de Codec.bytes.de (l.map fun x => (Codec.u128.ser x.1, Item.bytes x.2)) = some (l.map id) :=
    dePairs_map fun x hx => by
      simp only [Codec.u128, if_pos (h x hx), Codec.bytes, id, and_self]
  rw [List.map_id] at h1
  exact h1

theorem extra_solid {l : List (Nat × Bytes)} (h : ∀ x ∈ l, x.1 < 2 ^ 64) (d : Nat) : (extra.ser l).Solid (d + 1) := by
  simp only [extra, Item.Solid, List.mem_map, forall_exists_index, and_imp, forall_apply_eq_imp_iff₂, and_true]
  intro x hx
  simp only [Codec.u128, if_pos (h x hx), Item.Solid]
  exact h x hx

theorem opt_de {c : Codec α} {a : α} (hn : c.ser a ≠ .null) (h : c.de (c.ser a) = some a) :
    (Codec.opt c).de ((Codec.opt c).ser (some a)) = some (some a) := by
  simp only [Codec.opt, h, Option.map_some]

theorem opt_none (c : Codec α) : (Codec.opt c).de ((Codec.opt c).ser none) = some none := rfl

theorem payload_de {p : EntryPayload (Int × Int × Bytes) (List (Nat × Bytes))} (h : ∀ e ∈ p.extra, ∀ x ∈ e, x.1 < 2 ^ 64)
    (hk : KeyForm p.publicKey) : payload.de (payload.ser p) = some p := by
  obtain ⟨a, b, e, k⟩ := p
  have he : (Codec.opt extra).de ((Codec.opt extra).ser e) = some e := by
    cases e with
    | none => rfl
    | some e => exact opt_de (by simp [extra]) (extra_de (h e rfl))
  simp only [payload, hash_de, he, publicKey_de hk]

theorem payload_fits {p : EntryPayload (Int × Int × Bytes) (List (Nat × Bytes))} (h : ∀ e ∈ p.extra, ∀ x ∈ e, x.1 < 2 ^ 64)
    (hk : KeyForm p.publicKey) (d : Nat) : (payload.ser p).Fits (d + 2) := by
  obtain ⟨a, b, e, k⟩ := p
  simp only [payload, Item.Fits, List.mem_cons, List.not_mem_nil, or_false, forall_eq_or_imp, forall_eq]
  refine ⟨(hash_solid a d).fits, (hash_solid b d).fits, ?_, (publicKey_solid hk d).fits⟩
  cases e with
  | none => simp only [Codec.opt, Item.Fits]
  | some e => exact (extra_solid (h e rfl) d).fits

theorem serviceInfo_de (l : ServiceInfo) : serviceInfo.de (serviceInfo.ser l) = some l := by
  have h1 : Codec.deAll (Codec.pair .text .bytes).de (l.map fun x => Item.arr [.text (String.ofList x.1), .bytes x.2]) =
      some (l.map fun x => (String.ofList x.1, x.2)) := deAll_map fun _ _ => rfl
  simp only [serviceInfo, Codec.list, h1, Option.map_some, List.map_map]
  congr 1
  clear h1
  induction l with
  | nil => rfl
  | cons a r ih => simpa using ih

theorem serviceInfo_solid (l : ServiceInfo) (d : Nat) : (serviceInfo.ser l).Solid (d + 2) := by
  simp only [serviceInfo, Item.Solid, List.mem_map, forall_exists_index, and_imp, forall_apply_eq_imp_iff₂, List.mem_cons,
    List.not_mem_nil, or_false, forall_eq_or_imp, forall_eq, and_self, implies_true]

/-! ### Header maps -/

theorem header_de (l : List (Int × Item)) : header.de (header.ser l) = some l := by
  have h1 : dePairs Codec.asInt some (l.map fun x => (Codec.int x.1, x.2)) = some (l.map id) :=
    dePairs_map fun x _ => ⟨asInt_int _, rfl⟩
  rw [List.map_id] at h1
  exact h1

theorem lookup_mem {l : List (Int × Item)} (hd : (l.map (·.1)).Nodup) {k : Int} {i : Item} (h : (k, i) ∈ l) : lookup l k = some i := by
  have hd' : (l.reverse.map (·.1)).Nodup := by rw [List.map_reverse]; exact (List.reverse_perm _).nodup_iff.2 hd
  have h' : (k, i) ∈ l.reverse := List.mem_reverse.2 h
  rw [lookup]
  generalize l.reverse = m at hd' h'
  induction m with
  | nil => cases h'
  | cons a r ih =>
    rw [List.find?_cons]
    rcases List.mem_cons.1 h' with rfl | hr
    · simp
    · have hne : a.1 ≠ k := by
        intro e
        rw [List.map_cons, List.nodup_cons] at hd'
        exact hd'.1 (e ▸ List.mem_map.2 ⟨_, hr, rfl⟩)
      rw [show (a.1 == k) = false by simpa using hne]
      rw [List.map_cons, List.nodup_cons] at hd'
      exact ih hd'.2 hr

theorem lookup_none {l : List (Int × Item)} {k : Int} (h : ∀ x ∈ l, x.1 ≠ k) : lookup l k = none := by
  rw [lookup, Option.map_eq_none_iff, List.find?_eq_none]
  intro x hx
  simpa using h x (List.mem_reverse.1 hx)

/-! ### Sizes -/

theorem head_le (m n : Nat) : (head m n).length ≤ 9 := by
  rw [head]
  split
  · simp
  split
  · simp [Cbor.toBe_length]
  split
  · simp [Cbor.toBe_length]
  split
  · simp [Cbor.toBe_length]
  split <;> simp [Cbor.toBe_length]

theorem enc_uint_le (n : Nat) : (enc (.uint n)).length ≤ 9 := by rw [enc]; exact head_le _ _
theorem enc_int_le (n : Int) : (enc (Codec.int n)).length ≤ 9 := by
  cases n <;> simp only [Codec.int, enc] <;> exact head_le _ _
theorem enc_bytes_le (b : Bytes) : (enc (.bytes b)).length ≤ b.length + 9 := by
  rw [enc, List.length_append]
  have := head_le 2 b.length
  omega
theorem enc_arr_le (l : List Item) : (enc (.arr l)).length ≤ (encList l).length + 9 := by
  rw [enc, List.length_append]
  have := head_le 4 l.length
  omega
theorem enc_map_le (l : List (Item × Item)) : (enc (.map l)).length ≤ (encPairs l).length + 9 := by
  rw [enc, List.length_append]
  have := head_le 5 l.length
  omega

theorem hash_le (h : Hash) : (enc (hash.ser h)).length ≤ h.value.length + 27 := by
  have h1 := enc_arr_le [hashType.ser h.type, .bytes h.value]
  have h2 : (enc (hashType.ser h.type)).length ≤ 9 := by
    simp only [hashType, Codec.repr]
    exact enc_int_le _
  have h3 := enc_bytes_le h.value
  simp only [encList, List.length_append, List.length_nil] at h1
  simp only [hash, Codec.pair, Codec.bytes]
  omega

theorem publicKey_le (x : Int × Int × Bytes) : (enc (publicKey.ser x)).length ≤ x.2.2.length + 36 := by
  have h1 := enc_arr_le [Codec.int x.1, Codec.int x.2.1, .bytes x.2.2]
  have h2 := enc_int_le x.1
  have h3 := enc_int_le x.2.1
  have h4 := enc_bytes_le x.2.2
  simp only [encList, List.length_append, List.length_nil] at h1
  simp only [publicKey]
  omega

theorem sigInfo_le (x : Int × Bytes) : (enc (sigInfo.ser x)).length ≤ x.2.length + 27 := by
  have h1 := enc_arr_le [Codec.int x.1, .bytes x.2]
  have h2 := enc_int_le x.1
  have h4 := enc_bytes_le x.2
  simp only [encList, List.length_append, List.length_nil] at h1
  simp only [sigInfo, Codec.pair, Codec.repr, Codec.bytes, id]
  omega

theorem numbers_le (b : Bytes) : (enc (Codec.numbers.ser b)).length ≤ 9 * b.length + 9 := by
  have h1 := enc_arr_le (b.map fun x => .uint x.toNat)
  have h2 : (encList (b.map fun x => Item.uint x.toNat)).length ≤ 9 * b.length := by
    clear h1
    induction b with
    | nil => simp [encList]
    | cons a r ih =>
      have := enc_uint_le a.toNat
      simp only [List.map_cons, encList, List.length_append, List.length_cons]
      omega
  simp only [Codec.numbers]
  omega

theorem encPairs_perm {l m : List (Item × Item)} (h : l.Perm m) : (encPairs l).length = (encPairs m).length := by
  induction h with
  | nil => rfl
  | cons x _ ih => simp [encPairs, ih]
  | swap x y l => simp [encPairs]; omega
  | trans _ _ h1 h2 => exact h1.trans h2

theorem header_perm {l m : List (Int × Item)} (h : l.Perm m) : (header.write l).length = (header.write m).length := by
  simp only [header, Codec.write, enc, List.length_append, List.length_map, h.length_eq, encPairs_perm (h.map _)]

end Verif.Wire

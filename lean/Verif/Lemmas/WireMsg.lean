import Verif.Lemmas.WireCodec
import Verif.Spec.Wire
/-!
The messages of data-formats: what is written is read again.
-/
namespace Verif.Wire
open Verif Verif.Types Verif.Cbor.Spec

/-! ### Parts of messages -/

theorem bytes_rw {b : Bytes} (h : b.length < 2 ^ 63) : Codec.bytes.read (Codec.bytes.write b) = some b ∧ IsItem (Codec.bytes.write b) := by
  have hl : (Codec.bytes.write b).length < 2 ^ 64 := by
    have := enc_bytes_le b
    simp only [Codec.write, Codec.bytes]
    omega
  refine ⟨Codec.read_write rfl (by simp only [Codec.bytes, Item.Fits]) hl, ?_⟩
  simp only [Codec.write, Codec.bytes, enc]
  exact .str (.inl rfl) (isHead (by omega) (by omega)) rfl h

theorem nonce_rw {n : Bytes} (h : n.length = 16) :
    Codec.bytes16.read (Codec.bytes16.write n) = some n ∧ IsItem (Codec.bytes16.write n) := by
  have hl : (Codec.bytes16.write n).length < 2 ^ 63 := by
    have := enc_bytes_le n
    simp only [Codec.write, Codec.bytes16]
    omega
  exact ⟨Codec.read_write (by simp only [Codec.bytes16, if_pos h]) (by simp only [Codec.bytes16, Item.Fits]) (by omega),
    isItem_solid 0 (by simp only [Codec.bytes16, Item.Solid]) hl⟩

theorem uint_rw {k n : Nat} (h : n < k) (hk : k ≤ 2 ^ 64) :
    (Codec.uint k).read ((Codec.uint k).write n) = some n ∧ IsItem ((Codec.uint k).write n) := by
  have hl : ((Codec.uint k).write n).length < 2 ^ 63 := by
    have := enc_uint_le n
    simp only [Codec.write, Codec.uint]
    omega
  have hs : ((Codec.uint k).ser n).Solid 127 := by simp only [Codec.uint, Item.Solid]; omega
  exact ⟨Codec.read_write (by simp only [Codec.uint, if_pos h]) hs.fits (by omega), isItem_solid 127 hs hl⟩

theorem hash_rw {h : Hash} (hl : (hash.write h).length < 2 ^ 63) : hash.read (hash.write h) = some h ∧ IsItem (hash.write h) :=
  ⟨Codec.read_write (hash_de h) (hash_solid h 126).fits (by omega), isItem_solid 1 (hash_solid h 0) hl⟩

theorem sigInfo_rw {n : Int} (h : n ∈ sigTypes) : sigInfo.read (sigInfo.write (n, [])) = some (n, []) ∧ IsItem (sigInfo.write (n, [])) := by
  have hl : (sigInfo.write (n, [])).length < 2 ^ 63 := by
    have := sigInfo_le (n, [])
    simp only [List.length_nil] at this
    simp only [Codec.write]
    omega
  exact ⟨Codec.read_write (sigInfo_de _ h) (sigInfo_solid _ h 126).fits (by omega), isItem_solid 1 (sigInfo_solid _ h 0) hl⟩

theorem nonceMsg_rw {n : Bytes} (h : n.length = 16) : nonceMsg.read (nonceMsg.write n) = some n := by
  refine Codec.read_write ?_ ?_ ?_
  · simp only [nonceMsg, Codec.one, Codec.bytes16, if_pos h]
  · simp only [nonceMsg, Codec.one, Codec.bytes16, Item.Fits, List.mem_cons, List.not_mem_nil, or_false, forall_eq]
  · have h1 := enc_arr_le [.bytes n]
    have h2 := enc_bytes_le n
    simp only [encList, List.length_append, List.length_nil] at h1
    simp only [Codec.write, nonceMsg, Codec.one, Codec.bytes16]
    omega

/-! ### Values -/

theorem serVals_map (l : List ServiceInfo.Val) : serVals l = l.map serVal := by
  induction l with
  | nil => rfl
  | cons a r ih => simp [serVals, ih]

theorem serPairs_map (l : List (ServiceInfo.Val × ServiceInfo.Val)) : serPairs l = l.map fun x => (serVal x.1, serVal x.2) := by
  induction l with
  | nil => rfl
  | cons a r ih => obtain ⟨k, v⟩ := a; simp [serPairs, ih]

theorem deVals_map (l : List Item) : deVals l = l.map deVal := by
  induction l with
  | nil => rfl
  | cons a r ih => simp [deVals, ih]

theorem deValPairs_map (l : List (Item × Item)) : deValPairs l = l.map fun x => (deVal x.1, deVal x.2) := by
  induction l with
  | nil => rfl
  | cons a r ih => obtain ⟨k, v⟩ := a; simp [deValPairs, ih]

theorem int_fits {n : Int} (d : Nat) (h : -(2 ^ 64) ≤ n ∧ n < 2 ^ 64) : (serVal (.int n)).Fits d ∧ deVal (serVal (.int n)) = .int n := by
  cases n with
  | ofNat n =>
    have : n < 2 ^ 64 := by have := h.2; simp only [Int.ofNat_eq_natCast] at this; omega
    simp only [serVal, if_pos this, Item.Fits, deVal, and_true]
    exact this
  | negSucc n =>
    have : n < 2 ^ 64 := by have := h.1; omega
    simp only [serVal, if_pos this, Item.Fits, deVal, and_true]
    exact this

theorem val_rw {v : ServiceInfo.Val} {d : Nat} (h : Plain d v) : (serVal v).Fits d ∧ deVal (serVal v) = v := by
  induction d generalizing v with
  | zero =>
    cases v with
    | null => simp [serVal, Item.Fits, deVal]
    | bool b => simp [serVal, Item.Fits, deVal]
    | int n => exact int_fits 0 h
    | float n => exact ⟨h, by simp only [serVal, deVal]⟩
    | text s => simp [serVal, Item.Fits, deVal]
    | bytes b => simp [serVal, Item.Fits, deVal]
    | array l => exact h.elim
    | map l => exact h.elim
  | succ d ih =>
    cases v with
    | null => simp [serVal, Item.Fits, deVal]
    | bool b => simp [serVal, Item.Fits, deVal]
    | int n => exact int_fits (d + 1) h
    | float n => exact ⟨h, by simp only [serVal, deVal]⟩
    | text s => simp [serVal, Item.Fits, deVal]
    | bytes b => simp [serVal, Item.Fits, deVal]
    | array l =>
      have h : ∀ v ∈ l, Plain d v := h
      simp only [serVal, Item.Fits, deVal, serVals_map, deVals_map, List.map_map, List.mem_map, forall_exists_index, and_imp,
        forall_apply_eq_imp_iff₂, ServiceInfo.Val.array.injEq]
      refine ⟨fun v hv => (ih (h v hv)).1, ?_⟩
      rw [List.map_congr_left (f := deVal ∘ serVal) (g := id) fun v hv => (ih (h v hv)).2, List.map_id]
    | map l =>
      have h : ∀ x ∈ l, Plain d x.1 ∧ Plain d x.2 := h
      simp only [serVal, Item.Fits, deVal, serPairs_map, deValPairs_map, List.map_map, List.mem_map, forall_exists_index, and_imp,
        forall_apply_eq_imp_iff₂, ServiceInfo.Val.map.injEq]
      refine ⟨fun x hx => ⟨(ih (h x hx).1).1, (ih (h x hx).2).1⟩, ?_⟩
      rw [List.map_congr_left (g := id) fun x hx => by
        simp only [Function.comp, (ih (h x hx).1).2, (ih (h x hx).2).2, id], List.map_id]

theorem value_rw {v : ServiceInfo.Val} (h : Plain 127 v) (hl : (value.write v).length < 2 ^ 64) : value.read (value.write v) = some v :=
  Codec.read_write (congrArg some (val_rw h).2) (val_rw h).1 hl

/-! ### Header maps -/

theorem header_rw {l : List (Int × Item)} (hs : ∀ x ∈ l, (-(2 ^ 64) ≤ x.1 ∧ x.1 < 2 ^ 64) ∧ x.2.Solid 3)
    (hl : (header.write l).length < 2 ^ 63) : header.read (header.write l) = some l ∧ IsItem (header.write l) := by
  have h1 : (header.ser l).Solid 4 := by
    simp only [header, Item.Solid, List.mem_map, forall_exists_index, and_imp, forall_apply_eq_imp_iff₂]
    exact fun x hx => ⟨int_solid _ (hs x hx).1.1 (hs x hx).1.2, (hs x hx).2⟩
  exact ⟨Codec.read_write (header_de l) (h1.mono (by decide)).fits (by omega), isItem_solid 4 h1 hl⟩

theorem bytes_solid (b : Bytes) (d : Nat) : (Item.bytes b).Solid d := by simp only [Item.Solid]

theorem headerValue_of {α : Type} {c : Codec α} {k : Int} {l : List (Int × Item)} {i : Item} {a : α}
    (hr : header.read (header.write l) = some l) (hd : (l.map (·.1)).Nodup) (hm : (k, i) ∈ l) (hi : c.de i = some a) :
    headerValue c k (header.write l) = some (some a) := by
  simp only [headerValue, hr, lookup_mem hd hm, hi, Option.map_some]

theorem claims_rw {n u : Bytes} (hn : n.length = 16) (hu : u.length = 17) {fdo : Option Item} (hf : ∀ i ∈ fdo, i.Solid 3)
    (hs : ∀ i ∈ fdo, (enc i).length < 2 ^ 40) {l : List (Int × Item)}
    (hl : l.Perm ((eatNonce, .bytes n) :: (eatUeid, .bytes u) :: fdo.toList.map fun i => (eatFdo, i))) :
    readClaims (header.write l) = some (some n, some u, fdo.map enc) ∧ (header.write l).length < 2 ^ 63 := by
  have hlen : (header.write l).length < 2 ^ 63 := by
    rw [header_perm hl]
    have h1 := enc_bytes_le n
    have h2 := enc_bytes_le u
    have h4 := enc_int_le eatNonce
    have h5 := enc_int_le eatUeid
    have h6 := enc_int_le eatFdo
    cases fdo with
    | none =>
      have h3 := enc_map_le [(Codec.int eatNonce, .bytes n), (Codec.int eatUeid, .bytes u)]
      simp only [encPairs, List.length_append, List.length_nil] at h3
      simp only [Codec.write, header, Option.toList, List.map_nil, List.map_cons]
      omega
    | some i =>
      have h3 := enc_map_le [(Codec.int eatNonce, .bytes n), (Codec.int eatUeid, .bytes u), (Codec.int eatFdo, i)]
      have h7 := hs i rfl
      simp only [encPairs, List.length_append, List.length_nil] at h3
      simp only [Codec.write, header, Option.toList, List.map_nil, List.map_cons]
      omega
  have hr := (header_rw (l := l) (fun x hx => by
    rcases List.mem_cons.1 (hl.mem_iff.1 hx) with rfl | hx
    · exact ⟨by dsimp only; decide, bytes_solid _ _⟩
    rcases List.mem_cons.1 hx with rfl | hx
    · exact ⟨by dsimp only; decide, bytes_solid _ _⟩
    obtain ⟨i, hi, rfl⟩ := List.mem_map.1 hx
    exact ⟨by dsimp only; decide, hf i (Option.mem_toList.1 hi)⟩) hlen).1
  have hd : (l.map (·.1)).Nodup := by
    refine (hl.map _).nodup_iff.2 ?_
    cases fdo <;> simp [eatNonce, eatUeid, eatFdo]
  refine ⟨?_, hlen⟩
  have h1 : lookup l eatNonce = some (.bytes n) := lookup_mem hd (hl.mem_iff.2 (by simp))
  have h2 : lookup l eatUeid = some (.bytes u) := lookup_mem hd (hl.mem_iff.2 (by simp))
  have h3 : lookup l eatFdo = fdo := by
    cases fdo with
    | none =>
      refine lookup_none fun x hx => ?_
      have := hl.mem_iff.1 hx
      simp only [Option.toList, List.map_nil, List.mem_cons, List.not_mem_nil, or_false] at this
      rcases this with rfl | rfl <;> (dsimp only; decide)
    | some i => exact lookup_mem hd (hl.mem_iff.2 (by simp))
  simp only [readClaims, hr, h1, h2, h3, Option.map_some, Codec.bytes16, Codec.bytes, if_pos hn, Option.join]
  rfl

/-! ### Messages -/

theorem deviceSi_rw {more : Bool} {si : ServiceInfo} (h : (deviceSi.write (more, si)).length < 2 ^ 63) :
    deviceSi.read (deviceSi.write (more, si)) = some (more, si) := by
  refine Codec.read_write ?_ ?_ (by omega)
  · simp only [deviceSi, Codec.pair, Codec.bool, serviceInfo_de]
  · simp only [deviceSi, Codec.pair, Item.Fits, List.mem_cons, List.not_mem_nil, or_false, forall_eq_or_imp, forall_eq]
    exact ⟨by simp only [Codec.bool, Item.Fits], (serviceInfo_solid si 124).fits⟩

theorem ownerSi_rw {m : ServiceInfo.OwnerSi} (h : (ownerSi.write m).length < 2 ^ 63) : ownerSi.read (ownerSi.write m) = some m := by
  refine Codec.read_write ?_ ?_ (by omega)
  · simp only [ownerSi, serviceInfo_de, Option.map_some]
  · simp only [ownerSi, Item.Fits, List.mem_cons, List.not_mem_nil, or_false, forall_eq_or_imp, forall_eq, true_and]
    exact (serviceInfo_solid _ 124).fits

theorem proveDevice_rw {b : Bytes} (h : b.length < 2 ^ 32) :
    proveDevice.read (proveDevice.write b) = some b ∧ (proveDevice.write b).length < 2 ^ 33 ∧ (proveDevice.ser b).Solid 3 := by
  have hl : (proveDevice.write b).length < 2 ^ 33 := by
    have h1 := enc_arr_le [.bytes b]
    have h2 := enc_bytes_le b
    simp only [encList, List.length_append, List.length_nil] at h1
    simp only [Codec.write, proveDevice, Codec.one, Codec.bytes]
    omega
  have hs : (proveDevice.ser b).Solid 3 := by
    simp only [proveDevice, Codec.one, Codec.bytes, Item.Solid, List.mem_cons, List.not_mem_nil, or_false, forall_eq]
  exact ⟨Codec.read_write rfl (hs.mono (by decide)).fits (by omega), (by omega), hs⟩

theorem kexName_le (s : KexSuite) : (enc (kex.ser s)).length ≤ 40 := by cases s <;> decide +kernel
theorem cipher_le (s : CipherSuite) : (enc (cipher.ser s)).length ≤ 9 := by cases s <;> decide +kernel

theorem hello_rw {m : Nat} {h : OwnerServer.Hello} (hm : m < 65536) (hg : h.guid.length = 16) (hn : h.nonce5.length = 16)
    (hi : h.sigInfo.length < 2 ^ 32) : helloDevice.read (helloDevice.write (m, h)) = some (m, h) := by
  obtain ⟨g, n, k, c, s, i⟩ := h
  refine Codec.read_write ?_ ?_ ?_
  · simp only [helloDevice, Codec.uint, if_pos hm, Codec.bytes16, if_pos hg, if_pos hn, kex_de, cipher_de, sigInfo_de _ (sigNum_mem s),
      sigOf_num]
  · simp only [helloDevice, Item.Fits, List.mem_cons, List.not_mem_nil, or_false, forall_eq_or_imp, forall_eq, true_and]
    exact ⟨by omega, by simp only [kex, Item.Fits], (cipher_solid c _).fits, (sigInfo_solid _ (sigNum_mem s) _).fits⟩
  · have h1 := enc_arr_le [.uint m, .bytes g, .bytes n, kex.ser k, cipher.ser c, sigInfo.ser (sigNum s, i)]
    have h2 := enc_bytes_le g
    have h3 := enc_bytes_le n
    have h4 := kexName_le k
    have h5 := cipher_le c
    have h6 := sigInfo_le (sigNum s, i)
    have h7 := enc_uint_le m
    simp only [encList, List.length_append, List.length_nil] at h1
    simp only at h6 hg hn hi
    simp only [Codec.write, helloDevice]
    omega

theorem helloRv_rw {g : Bytes} (hg : g.length = 16) : helloRv.read (helloRv.write (g, -35, [])) = some (g, -35, []) := by
  have hm : (-35 : Int) ∈ sigTypes := by decide
  refine Codec.read_write ?_ ?_ ?_
  · simp only [helloRv, Codec.pair, Codec.bytes16, if_pos hg]
    have := sigInfo_de [] hm
    simp only [this]
  · simp only [helloRv, Codec.pair, Item.Fits, List.mem_cons, List.not_mem_nil, or_false, forall_eq_or_imp, forall_eq]
    exact ⟨by simp only [Codec.bytes16, Item.Fits], (sigInfo_solid _ hm _).fits⟩
  · have h1 := enc_arr_le [.bytes g, sigInfo.ser (-35, [])]
    have h2 := enc_bytes_le g
    have h6 := sigInfo_le (-35, [])
    simp only [encList, List.length_append, List.length_nil] at h1
    simp only [List.length_nil] at h6
    simp only [Codec.write, helloRv, Codec.pair, Codec.bytes16]
    omega

theorem getEntry_rw {n : Nat} (h : n < 256) : getEntry.read (getEntry.write n) = some n := by
  refine Codec.read_write ?_ ?_ ?_
  · simp only [getEntry, Codec.one, Codec.uint, if_pos h]
  · simp only [getEntry, Codec.one, Codec.uint, Item.Fits, List.mem_cons, List.not_mem_nil, or_false, forall_eq]
    omega
  · have h1 := enc_arr_le [.uint n]
    have h2 := enc_uint_le n
    simp only [encList, List.length_append, List.length_nil] at h1
    simp only [Codec.write, getEntry, Codec.one, Codec.uint]
    omega

theorem acceptOwner_rw {n : Nat} (h : n < 2 ^ 32) : acceptOwner.read (acceptOwner.write n) = some n := by
  refine Codec.read_write ?_ ?_ ?_
  · simp only [acceptOwner, Codec.one, Codec.uint, if_pos h]
  · simp only [acceptOwner, Codec.one, Codec.uint, Item.Fits, List.mem_cons, List.not_mem_nil, or_false, forall_eq]
    omega
  · have h1 := enc_arr_le [.uint n]
    have h2 := enc_uint_le n
    simp only [encList, List.length_append, List.length_nil] at h1
    simp only [Codec.write, acceptOwner, Codec.one, Codec.uint]
    omega

theorem addr_de {x : Option Bytes × Option String × Nat × Nat} (h1 : ∀ b ∈ x.1, b.length = 4 ∨ b.length = 16) (h2 : x.2.2.1 < 65536)
    (h3 : 1 ≤ x.2.2.2 ∧ x.2.2.2 ≤ 6) : addr.de (addr.ser x) = some x := by
  obtain ⟨a, s, p, t⟩ := x
  have ha : (Codec.opt ip).de ((Codec.opt ip).ser a) = some a := by
    cases a with
    | none => rfl
    | some a => exact opt_de (by simp [ip]) (by simp only [ip, if_pos (h1 a rfl)])
  have hs : (Codec.opt Codec.text).de ((Codec.opt Codec.text).ser s) = some s := by
    cases s <;> rfl
  simp only at h2 h3
  simp only [addr, ha, hs, Codec.uint, if_pos h2, if_pos h3]

theorem addr_fits (x : Option Bytes × Option String × Nat × Nat) (h2 : x.2.2.1 < 65536) (h3 : x.2.2.2 ≤ 6) (d : Nat) :
    (addr.ser x).Fits (d + 1) := by
  obtain ⟨a, s, p, t⟩ := x
  simp only at h2 h3
  simp only [addr, Item.Fits, List.mem_cons, List.not_mem_nil, or_false, forall_eq_or_imp, forall_eq]
  refine ⟨?_, ?_, by omega, by omega⟩
  · cases a <;> simp only [Codec.opt, ip, Item.Fits]
  · cases s <;> simp only [Codec.opt, Codec.text, Item.Fits]

theorem to1_rw {l : List (Option Bytes × Option String × Nat × Nat)} (hl : Addresses l) {h : Hash} (hh : h.value.length ≤ 64) :
    to1Data.read (to1Data.write (l, h)) = some (l, h) ∧ (to1Data.write (l, h)).length < 2 ^ 63 := by
  obtain ⟨hs, hx⟩ := hl
  have hlen : (to1Data.write (l, h)).length < 2 ^ 63 := by
    have h1 := enc_arr_le [(Codec.list addr).ser l, hash.ser h]
    have h2 := hash_le h
    simp only [encList, List.length_append, List.length_nil] at h1
    simp only [to1Data, Codec.write, Codec.pair, enc, encList, List.length_append, List.length_nil] at hs
    simp only [to1Data, Codec.write, Codec.pair]
    omega
  refine ⟨Codec.read_write ?_ ?_ (by omega), hlen⟩
  · have h1 : Codec.deAll addr.de (l.map addr.ser) = some (l.map id) :=
      deAll_map fun x hx' => addr_de (hx x hx').1 (hx x hx').2.1 (hx x hx').2.2
    rw [List.map_id] at h1
    simp only [to1Data, Codec.pair, Codec.list, h1, hash_de]
  · simp only [to1Data, Codec.pair, Codec.list, Item.Fits, List.mem_cons, List.not_mem_nil, or_false, forall_eq_or_imp, forall_eq,
      List.mem_map, forall_exists_index, and_imp, forall_apply_eq_imp_iff₂]
    exact ⟨fun x hx' => addr_fits x (hx x hx').2.1 (hx x hx').2.2.2 _, (hash_solid h _).fits⟩

/-! ### Messages for manufacturing -/

theorem numbers_de (b : Bytes) : Codec.numbers.de (Codec.numbers.ser b) = some b := by
  have h1 : Codec.deAll (fun
        | .uint n => if n < 256 then some (UInt8.ofNat n) else none
        | _ => none) (b.map fun x => Item.uint x.toNat) = some (b.map id) :=
    deAll_map fun x _ => by
      have := x.toNat_lt
      simp only [id]
      rw [if_pos (by omega)]
      simp
  rw [List.map_id] at h1
  exact h1

theorem exact_of {α : Type} {c : Codec α} (h : ∀ a, c.de (c.ser a) = some a) : c.Exact := fun a b e => by
  rw [h a] at e
  exact (Option.some.inj e).symm

theorem connect_exact : connect.Exact := by
  intro a b h
  simp only [connect, kex_de, cipher_de, numbers_de] at h
  simp only [Codec.bytes16] at h
  split at h
  · rename_i h1 h2 h3 h4
    split at h1
    · cases h1; cases h2; cases h3; cases h4
      exact (Option.some.inj h).symm
    · cases h1
  · cases h

theorem acceptPayload_exact : acceptPayload.Exact := exact_of fun a => by
  simp only [acceptPayload, Codec.one, numbers_de]

theorem provideKey_exact : provideKey.Exact := exact_of fun a => by
  simp only [provideKey, Codec.pair, numbers_de, storage_de]

theorem appStart_exact : appStart.Exact := exact_of fun _ => rfl

theorem setHmac_exact : setHmac.Exact := exact_of fun a => by
  simp only [setHmac, Codec.one, hash_de]

theorem text_value {s : List Char} {v : ServiceInfo.Val} (h : value.read (value.write (.text s)) = some v) : v = .text s := by
  rw [Codec.read, Codec.write] at h
  obtain ⟨i, h1, h2⟩ := Option.bind_eq_some_iff.1 h
  cases fromSlice_exact h1
  simp only [value, serVal, deVal, Option.some.injEq] at h2
  rw [← h2, String.toList_ofList]

theorem acceptPayload_le {b : Bytes} (h : b.length < 2 ^ 32) : (acceptPayload.write b).length < 2 ^ 63 := by
  have h1 := enc_arr_le [Codec.numbers.ser b]
  have h2 := numbers_le b
  simp only [encList, List.length_append, List.length_nil] at h1
  simp only [Codec.write, acceptPayload, Codec.one]
  omega

theorem numbers_fits (b : Bytes) (d : Nat) : (Codec.numbers.ser b).Fits (d + 1) := by
  simp only [Codec.numbers, Item.Fits, List.mem_map, forall_exists_index, and_imp, forall_apply_eq_imp_iff₂]
  intro x _
  have := x.toNat_lt
  omega

theorem connect_rw {m : MfgServer.Connect} (hn : m.nonce.length = 16) (hk : m.keyExchange.length < 2 ^ 32) :
    connect.read (connect.write m) = some m := by
  obtain ⟨n, k, c, x⟩ := m
  refine Codec.read_write ?_ ?_ ?_
  · simp only [connect, Codec.bytes16, if_pos hn, kex_de, cipher_de, numbers_de]
  · simp only [connect, Item.Fits, List.mem_cons, List.not_mem_nil, or_false, forall_eq_or_imp, forall_eq, true_and]
    exact ⟨by simp only [kex, Item.Fits], (cipher_solid c _).fits, numbers_fits x _⟩
  · have h1 := enc_arr_le [.bytes n, kex.ser k, cipher.ser c, Codec.numbers.ser x]
    have h2 := enc_bytes_le n
    have h4 := kexName_le k
    have h5 := cipher_le c
    have h6 := numbers_le x
    simp only [encList, List.length_append, List.length_nil] at h1
    simp only at hn hk
    simp only [Codec.write, connect]
    omega

theorem acceptPayload_rw {b : Bytes} (h : b.length < 2 ^ 32) : acceptPayload.read (acceptPayload.write b) = some b := by
  refine Codec.read_write ?_ ?_ (by have := acceptPayload_le h; omega)
  · simp only [acceptPayload, Codec.one, numbers_de]
  · simp only [acceptPayload, Codec.one, Item.Fits, List.mem_cons, List.not_mem_nil, or_false, forall_eq]
    exact numbers_fits b _

theorem provideKey_rw {b : Bytes} (h : b.length < 2 ^ 32) (s : MfgServer.KeyStorage) :
    provideKey.read (provideKey.write (b, s)) = some (b, s) := by
  have h0 : (storage.ser s).Fits 126 ∧ (enc (storage.ser s)).length ≤ 9 := by
    cases s
    · exact ⟨(int_solid (n := 0) _ (by decide) (by decide)).fits, by decide +kernel⟩
    · exact ⟨(int_solid (n := 1) _ (by decide) (by decide)).fits, by decide +kernel⟩
  refine Codec.read_write ?_ ?_ ?_
  · simp only [provideKey, Codec.pair, numbers_de, storage_de]
  · simp only [provideKey, Codec.pair, Item.Fits, List.mem_cons, List.not_mem_nil, or_false, forall_eq_or_imp, forall_eq]
    exact ⟨numbers_fits b _, h0.1⟩
  · have h1 := enc_arr_le [Codec.numbers.ser b, storage.ser s]
    have h2 := numbers_le b
    have h3 := h0.2
    simp only [encList, List.length_append, List.length_nil] at h1
    simp only [Codec.write, provideKey, Codec.pair]
    omega

theorem setHmac_rw {h : Hash} (hl : h.value.length ≤ 64) : setHmac.read (setHmac.write h) = some h := by
  refine Codec.read_write ?_ ?_ ?_
  · simp only [setHmac, Codec.one, hash_de]
  · simp only [setHmac, Codec.one, Item.Fits, List.mem_cons, List.not_mem_nil, or_false, forall_eq]
    exact (hash_solid h _).fits
  · have h1 := enc_arr_le [hash.ser h]
    have h2 := hash_le h
    simp only [encList, List.length_append, List.length_nil] at h1
    simp only [Codec.write, setHmac, Codec.one]
    omega

theorem text_len {s : String} (h : (utf8 s).length < 2 ^ 32) : (enc (.text s)).length < 2 ^ 33 := by
  have := head_le 3 (utf8 s).length
  simp only [enc, List.length_append]
  omega

theorem appStart_rw {b : Bytes} (h : b.length < 2 ^ 33) : appStart.read (appStart.write b) = some b := by
  refine Codec.read_write rfl ?_ ?_
  · simp only [appStart, Codec.one, Codec.bytes, Item.Fits, List.mem_cons, List.not_mem_nil, or_false, forall_eq]
  · have h1 := enc_arr_le [.bytes b]
    have h2 := enc_bytes_le b
    simp only [encList, List.length_append, List.length_nil] at h1
    simp only [Codec.write, appStart, Codec.one, Codec.bytes]
    omega

/-! ### Error messages -/

theorem ofCode_code (t : MsgType) : MsgType.ofCode t.code = some t := by cases t <;> decide

theorem error_de {m : ErrorMsg} (h1 : m.code ∈ errorCodes) (h2 : m.stamp = none) (h3 : m.uuid < 2 ^ 64) :
    errorMsg.de (errorMsg.ser m) = some m := by
  obtain ⟨c, p, s, t, u⟩ := m
  simp only at h1 h2 h3
  subst h2
  simp only [errorMsg, ofCode_code, Codec.opt, Codec.u128, if_pos h3, if_pos h1]

theorem code_lt (t : MsgType) : t.code < 2 ^ 64 := by cases t <;> decide

theorem error_fits {m : ErrorMsg} (h1 : m.code ∈ errorCodes) (h2 : m.stamp = none) (h3 : m.uuid < 2 ^ 64) :
    (errorMsg.ser m).Fits 127 := by
  obtain ⟨c, p, s, t, u⟩ := m
  simp only at h1 h2 h3
  subst h2
  have hc : c < 2 ^ 64 := by
    simp only [errorCodes, List.mem_cons, List.not_mem_nil, or_false] at h1
    omega
  have hp := code_lt p
  simp only [errorMsg, Item.Fits, List.mem_cons, List.not_mem_nil, or_false, forall_eq_or_imp, forall_eq, Codec.opt, Codec.u128,
    if_pos h3, true_and]
  exact ⟨hc, hp, h3⟩

theorem read_none {α : Type} {c : Codec α} {a : α} (h : c.de (c.ser a) = none) : c.read (c.write a) = none := by
  rw [Codec.read, Codec.write]
  cases e : fromSlice (enc (c.ser a)) with
  | none => rfl
  | some i => cases fromSlice_exact e; exact h

theorem u128_none {n : Nat} (h : 2 ^ 64 ≤ n) : Codec.u128.de (Codec.u128.ser n) = none := by
  simp only [Codec.u128, if_neg (Nat.not_lt.2 h)]

theorem dePairs_none {α β γ : Type} {f : Item → Option α} {g : Item → Option β} {s : γ → Item × Item} {l : List γ} {a : γ}
    (ha : a ∈ l) (h : f (s a).1 = none) : dePairs f g (l.map s) = none := by
  induction l with
  | nil => cases ha
  | cons x r ih =>
    rw [List.map_cons, dePairs]
    rcases List.mem_cons.1 ha with rfl | hr
    · rw [h]
    · rw [ih hr]
      split <;> rfl

end Verif.Wire

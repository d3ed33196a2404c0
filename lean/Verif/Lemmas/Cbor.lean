import Verif.Model.Cbor
import Verif.Spec.Cbor
/-! Helper lemmas about the CBOR array parser. -/
namespace Verif.Cbor
open Spec

/-! ### Bytes and heads -/

theorem toNat_ofNat_lt {n : Nat} (h : n < 256) : (UInt8.ofNat n).toNat = n := by
  simp [UInt8.toNat_ofNat']; omega

theorem major_mk {m k : Nat} (hm : m < 8) (hk : k < 32) : major (UInt8.ofNat (32 * m + k)) = m := by
  unfold major; rw [toNat_ofNat_lt (by omega)]; omega

theorem minor_mk {m k : Nat} (hm : m < 8) (hk : k < 32) : minor (UInt8.ofNat (32 * m + k)) = k := by
  unfold minor; rw [toNat_ofNat_lt (by omega)]; omega

theorem toNat_lt (b : UInt8) : b.toNat < 256 := UInt8.toNat_lt b

theorem ofNat_major_minor (b : UInt8) : UInt8.ofNat (32 * major b + minor b) = b := by
  unfold major minor
  have : 32 * (b.toNat / 32) + b.toNat % 32 = b.toNat := by omega
  rw [this]; simp

theorem major_lt (b : UInt8) : major b < 8 := by
  have := toNat_lt b; unfold major; omega

theorem minor_lt (b : UInt8) : minor b < 32 := by
  unfold minor; omega

theorem toBe_length (n v : Nat) : (toBe n v).length = n := by
  induction n generalizing v with
  | zero => rfl
  | succ n ih => simp [toBe, ih]

theorem beNat_append_single (bs : Bytes) (b : UInt8) : beNat (bs ++ [b]) = beNat bs * 256 + b.toNat := by
  simp [beNat, List.foldl_append]

theorem beNat_toBe (n v : Nat) (h : v < 256 ^ n) : beNat (toBe n v) = v := by
  induction n generalizing v with
  | zero => simp [toBe, beNat]; omega
  | succ n ih =>
    simp only [toBe]
    rw [beNat_append_single, ih, toNat_ofNat_lt (by omega)]
    · omega
    · rw [Nat.pow_succ] at h; omega

theorem beNat_foldl_lt (bs : Bytes) (a : Nat) :
    bs.foldl (fun a b => a * 256 + b.toNat) a < (a + 1) * 256 ^ bs.length := by
  induction bs generalizing a with
  | nil => simp
  | cons b bs ih =>
    simp only [List.foldl_cons, List.length_cons]
    have h1 := ih (a * 256 + b.toNat)
    have h2 : (a * 256 + b.toNat + 1) ≤ (a + 1) * 256 := by have := toNat_lt b; omega
    calc _ < (a * 256 + b.toNat + 1) * 256 ^ bs.length := h1
      _ ≤ ((a + 1) * 256) * 256 ^ bs.length := Nat.mul_le_mul_right _ h2
      _ = (a + 1) * 256 ^ (bs.length + 1) := by rw [Nat.pow_succ, Nat.mul_assoc, Nat.mul_comm 256]

theorem beNat_lt (bs : Bytes) : beNat bs < 256 ^ bs.length := by
  have := beNat_foldl_lt bs 0
  simpa [beNat] using this

theorem readLen_ext {k n : Nat} (hk : lengthSize (k % 32) = some (n + 1)) {arg : Bytes}
    (ha : arg.length = n + 1) (rest : Bytes) :
    readLen (arg ++ rest) k = .ok (beNat arg, arg, rest) := by
  unfold readLen
  rw [hk]
  have h1 : ¬ (arg ++ rest).length < n + 1 := by simp; omega
  have h2 : (arg ++ rest).take (n + 1) = arg := by rw [← ha]; simp
  have h3 : (arg ++ rest).drop (n + 1) = rest := by rw [← ha]; simp
  simp only [h1, h2, h3, if_false]

theorem readLen_minor (inp : Bytes) (b : UInt8) : readLen inp b.toNat = readLen inp (minor b) := by
  unfold readLen
  have : b.toNat % 32 = minor b % 32 := by unfold minor; omega
  rw [this]

/-- Reading the length field of a grammatical head succeeds, and yields the argument. -/
theorem readLen_of_isHead {m v : Nat} {h : Bytes} (hh : IsHead m v h) :
    ∃ b lb, h = b :: lb ∧ major b = m ∧
      ∀ rest, readLen (lb ++ rest) (minor b) = .ok (v, lb, rest) := by
  cases hh with
  | imm hm hv =>
    refine ⟨_, [], rfl, major_mk hm (by omega), fun rest => ?_⟩
    rw [minor_mk hm (by omega)]
    have : v % 32 = v := by omega
    simp [readLen, lengthSize, this, hv]
  | ext1 hm ha =>
    refine ⟨_, _, rfl, major_mk hm (by omega), fun rest => ?_⟩
    rw [minor_mk hm (by omega)]
    exact readLen_ext (by decide) ha rest
  | ext2 hm ha =>
    refine ⟨_, _, rfl, major_mk hm (by omega), fun rest => ?_⟩
    rw [minor_mk hm (by omega)]
    exact readLen_ext (by decide) ha rest
  | ext4 hm ha =>
    refine ⟨_, _, rfl, major_mk hm (by omega), fun rest => ?_⟩
    rw [minor_mk hm (by omega)]
    exact readLen_ext (by decide) ha rest
  | ext8 hm ha =>
    refine ⟨_, _, rfl, major_mk hm (by omega), fun rest => ?_⟩
    rw [minor_mk hm (by omega)]
    exact readLen_ext (by decide) ha rest

theorem lengthSize_cases {k n : Nat} (h : lengthSize k = some (n + 1)) :
    (k = 24 ∧ n + 1 = 1) ∨ (k = 25 ∧ n + 1 = 2) ∨ (k = 26 ∧ n + 1 = 4) ∨ (k = 27 ∧ n + 1 = 8) := by
  unfold lengthSize at h
  repeat' split at h
  all_goals simp_all

/-- Conversely a successful length read has consumed a grammatical head. -/
theorem isHead_of_readLen {b : UInt8} {inp : Bytes} {v : Nat} {lb rest : Bytes}
    (h : readLen inp (minor b) = .ok (v, lb, rest)) :
    IsHead (major b) v (b :: lb) ∧ inp = lb ++ rest := by
  have hmod : minor b % 32 = minor b := by have := minor_lt b; omega
  unfold readLen at h
  rw [hmod] at h
  split at h
  · cases h
  · rename_i hs
    cases h
    refine ⟨?_, by simp⟩
    have hv : minor b ≤ 23 := by
      unfold lengthSize at hs
      repeat' split at hs
      all_goals first | assumption | simp at hs
    have := IsHead.imm (m := major b) (major_lt b) hv
    rwa [ofNat_major_minor] at this
  · rename_i n hn0 hs
    split at h
    · cases h
    · rename_i hl
      cases h
      refine ⟨?_, by simp⟩
      obtain ⟨n, rfl⟩ : ∃ k, n = k + 1 := by
        cases n with
        | zero => exact absurd rfl hn0
        | succ k => exact ⟨k, rfl⟩
      have hb := ofNat_major_minor b
      have ht : (inp.take (n + 1)).length = n + 1 := by simp; omega
      rcases lengthSize_cases hs with ⟨h1, h2⟩ | ⟨h1, h2⟩ | ⟨h1, h2⟩ | ⟨h1, h2⟩ <;>
        rw [h1] at hb
      · have := IsHead.ext1 (m := major b) (major_lt b) (ht.trans h2); rwa [hb] at this
      · have := IsHead.ext2 (m := major b) (major_lt b) (ht.trans h2); rwa [hb] at this
      · have := IsHead.ext4 (m := major b) (major_lt b) (ht.trans h2); rwa [hb] at this
      · have := IsHead.ext8 (m := major b) (major_lt b) (ht.trans h2); rwa [hb] at this

theorem isHead_ne_nil {m v : Nat} {h : Bytes} (hh : IsHead m v h) : h ≠ [] := by
  cases hh <;> simp

theorem isHead_lt {m v : Nat} {h : Bytes} (hh : IsHead m v h) : v < 2 ^ 64 := by
  cases hh with
  | imm hm hv => omega
  | ext1 hm ha => have := beNat_lt ‹Bytes›; rw [ha] at this; omega
  | ext2 hm ha => have := beNat_lt ‹Bytes›; rw [ha] at this; omega
  | ext4 hm ha => have := beNat_lt ‹Bytes›; rw [ha] at this; omega
  | ext8 hm ha => have := beNat_lt ‹Bytes›; rw [ha] at this; omega

/-- The header written by the code is grammatical. -/
theorem isHead_encode {m v : Nat} (hm : m < 8) (hv : v ≤ 65535) :
    ∃ h, encodeItemStart m v = .ok h ∧ IsHead m v h := by
  unfold encodeItemStart
  split
  · refine ⟨_, rfl, ?_⟩
    rw [Nat.mul_comm]; exact .imm hm ‹_›
  · split
    · refine ⟨_, rfl, ?_⟩
      have := IsHead.ext1 (m := m) hm (arg := [UInt8.ofNat v]) rfl
      have hb : beNat [UInt8.ofNat v] = v := by
        simp only [beNat, List.foldl]; rw [toNat_ofNat_lt (by omega)]; omega
      rw [hb] at this
      rwa [Nat.mul_comm 32 m] at this
    · refine ⟨_, rfl, ?_⟩
      have := IsHead.ext2 (m := m) hm (arg := toBe 2 v) (toBe_length 2 v)
      rw [beNat_toBe 2 v (by omega)] at this
      rwa [Nat.mul_comm 32 m] at this

/-! ### Loop equations -/

theorem elemLoop_done {c : Bool} {inp : Bytes} {st : LoopSt} (h : st.left = []) :
    elemLoop c inp st = .ok (st, inp) := by
  rw [elemLoop.eq_def]; simp [h]

theorem elemLoop_eof {c : Bool} {st : LoopSt} (h : st.left ≠ []) :
    elemLoop c [] st = .err .io := by
  rw [elemLoop.eq_def]; simp [h]

theorem elemLoop_cons {c : Bool} {b : UInt8} {inp : Bytes} {st : LoopSt} (h : st.left ≠ []) :
    elemLoop c (b :: inp) st =
      (elemStep c b inp st >>= fun p => elemLoop c p.2 p.1) := by
  rw [elemLoop]
  simp only [h, if_false]
  split <;> rename_i heq <;> rw [heq] <;> rfl

/-- State after one whole item `it` has been read on stack `x :: s` (with `x ≥ 1`). -/
def afterItem (it : Bytes) (x : Nat) (s : List Nat) (buf : Bytes) (items : List Bytes) : LoopSt :=
  { left := if x = 1 then s else (x - 1) :: s
    buf := if s = [] then [] else buf ++ it
    items := if s = [] then items ++ [buf ++ it] else items }

theorem finishElem_eq {x : Nat} (hx : 1 ≤ x) (s : List Nat) (buf : Bytes) (items : List Bytes) :
    finishElem { left := x :: s, buf := buf, items := items } =
      .ok (afterItem [] x s buf items) := by
  unfold finishElem afterItem
  match x, hx with
  | 1, _ => cases s <;> simp [popLeft]
  | n + 2, _ => cases s <;> simp [popLeft]

theorem afterItem_append (a b : Bytes) (x : Nat) (s : List Nat) (buf : Bytes) (items : List Bytes) :
    afterItem b x s (buf ++ a) items = afterItem (a ++ b) x s buf items := by
  simp [afterItem, List.append_assoc]

/-- Stack right after the head of a container with `n ≥ 1` elements was read on `x :: s`. -/
def stk (n x : Nat) (s : List Nat) : List Nat := if n = 1 then x :: s else (n - 1) :: x :: s

theorem afterItem_nil_push (n x : Nat) (s : List Nat) (buf : Bytes) (items : List Bytes) :
    afterItem [] n (x :: s) buf items = { left := stk n x s, buf := buf, items := items } := by
  simp [afterItem, stk]

theorem afterItem_push (it : Bytes) (n x : Nat) (s : List Nat) (buf : Bytes) (items : List Bytes) :
    afterItem it n (x :: s) buf items = { left := stk n x s, buf := buf ++ it, items := items } := by
  simp [afterItem, stk]

/-! ### One head byte -/

theorem elemStep_int {c : Bool} {b : UInt8} {inp : Bytes} {x : Nat} {s : List Nat} {buf : Bytes}
    {items : List Bytes} (hx : 1 ≤ x) (hb : major b = 0 ∨ major b = 1) :
    elemStep c b inp ⟨x :: s, buf, items⟩ =
      (readLen inp (minor b) >>= fun p => .ok (afterItem (b :: p.2.1) x s buf items, p.2.2)) := by
  unfold elemStep
  rcases hb with hb | hb <;> rw [hb] <;> simp only <;> congr 1 <;> funext p <;>
    simp [finishElem_eq hx, afterItem_append, List.append_assoc] <;>
    simp [afterItem]

theorem elemStep_tag {c : Bool} {b : UInt8} {inp : Bytes} {st : LoopSt} (hb : major b = 6) :
    elemStep c b inp st =
      (readLen inp (minor b) >>= fun p => .ok ({ st with buf := st.buf ++ b :: p.2.1 }, p.2.2)) := by
  unfold elemStep
  rw [hb]; simp only; congr 1; funext p; simp

theorem elemStep_str {c : Bool} {b : UInt8} {inp : Bytes} {x : Nat} {s : List Nat} {buf : Bytes}
    {items : List Bytes} (hx : 1 ≤ x) (hb : major b = 2 ∨ major b = 3) :
    elemStep c b inp ⟨x :: s, buf, items⟩ =
      (readLen inp (minor b) >>= fun p =>
        if p.1 ≥ 2 ^ 63 then .panic
        else if p.2.2.length < p.1 then .err .io
        else .ok (afterItem (b :: p.2.1 ++ p.2.2.take p.1) x s buf items, p.2.2.drop p.1)) := by
  unfold elemStep
  rcases hb with hb | hb <;> rw [hb] <;> simp only <;> congr 1 <;> funext p <;>
    (split; rfl; split; rfl;
     simp [finishElem_eq hx, afterItem])

theorem elemStep_array {c : Bool} {b : UInt8} {inp : Bytes} {x : Nat} {s : List Nat} {buf : Bytes}
    {items : List Bytes} (hx : 1 ≤ x) (hb : major b = 4) :
    elemStep c b inp ⟨x :: s, buf, items⟩ =
      (readLen inp (minor b) >>= fun p =>
        .ok (if p.1 = 0 then afterItem (b :: p.2.1) x s buf items
          else ⟨stk p.1 x s, buf ++ b :: p.2.1, items⟩, p.2.2)) := by
  unfold elemStep
  rw [hb]; simp only; congr 1; funext p
  by_cases h : p.1 = 0
  · simp [h, finishElem_eq hx, afterItem]
  · simp [h, finishElem_eq (Nat.pos_of_ne_zero h), afterItem_nil_push]

theorem elemStep_map {c : Bool} {b : UInt8} {inp : Bytes} {x : Nat} {s : List Nat} {buf : Bytes}
    {items : List Bytes} (hx : 1 ≤ x) (hb : major b = 5) :
    elemStep c b inp ⟨x :: s, buf, items⟩ =
      (readLen inp (minor b) >>= fun p =>
        if p.1 = 0 then .ok (afterItem (b :: p.2.1) x s buf items, p.2.2)
        else match mapItems c p.1 with
          | none => .panic
          | some 0 => .err .parseFailure
          | some (n + 1) => .ok (⟨stk (n + 1) x s, buf ++ b :: p.2.1, items⟩, p.2.2)) := by
  unfold elemStep
  rw [hb]; simp only; congr 1; funext p
  by_cases h : p.1 = 0
  · simp [h, finishElem_eq hx, afterItem]
  · simp only [h, ne_eq, not_false_eq_true, if_true, if_false]
    cases hm : mapItems c p.1 with
    | none => rfl
    | some k =>
      cases k with
      | zero => simp [finishElem, popLeft]
      | succ n => simp [finishElem_eq, afterItem_nil_push]

theorem elemStep_special {c : Bool} {b : UInt8} {inp : Bytes} {st : LoopSt} (hb : major b = 7) :
    elemStep c b inp st = .err (.unsupportedMajorType 7) := by
  unfold elemStep; rw [hb]; rfl

/-! ### Grammar implies parse -/

theorem loop_list {c : Bool} {x : Nat} {s : List Nat} (hx : 1 ≤ x) (l : List Bytes)
    (hl : ∀ i ∈ l, ∀ x s buf items rest, 1 ≤ x →
      elemLoop c (i ++ rest) ⟨x :: s, buf, items⟩ = elemLoop c rest (afterItem i x s buf items))
    (hne : l ≠ []) (buf : Bytes) (items : List Bytes) (rest : Bytes) :
    elemLoop c (l.flatten ++ rest) ⟨stk l.length x s, buf, items⟩ =
      elemLoop c rest (afterItem l.flatten x s buf items) := by
  induction l generalizing buf with
  | nil => exact absurd rfl hne
  | cons i l ih =>
    cases l with
    | nil =>
      simpa [stk] using hl i (by simp) x s buf items rest hx
    | cons j l =>
      have h1 := hl i (by simp) (l.length + 1) (x :: s) buf items ((j :: l).flatten ++ rest) (by omega)
      rw [afterItem_push] at h1
      have h2 := ih (fun i hi => hl i (by simp [hi])) (by simp) (buf ++ i)
      have e1 : (i :: j :: l).flatten ++ rest = i ++ ((j :: l).flatten ++ rest) := by simp
      have e2 : stk (i :: j :: l).length x s = (l.length + 1) :: x :: s := by simp [stk]
      have e3 : stk (l.length + 1) x s = stk (j :: l).length x s := by simp
      rw [e1, e2, h1, e3, h2, afterItem_append]
      simp

theorem mapItems_lt {c : Bool} {v : Nat} (h : v < 2 ^ 63) : mapItems c v = some (2 * v) := by
  unfold mapItems; rw [if_pos (by omega)]

/-- Reading a grammatical item from the loop's point of view. -/
theorem loop_item {c : Bool} {it : Bytes} (hi : IsItem it) :
    ∀ (x : Nat) (s : List Nat) (buf : Bytes) (items : List Bytes) (rest : Bytes), 1 ≤ x →
      elemLoop c (it ++ rest) ⟨x :: s, buf, items⟩ =
        elemLoop c rest (afterItem it x s buf items) := by
  induction hi with
  | int hm hh =>
    intro x s buf items rest hx
    obtain ⟨b, lb, rfl, hb, hr⟩ := readLen_of_isHead hh
    rw [List.cons_append, elemLoop_cons (by simp), elemStep_int hx (hb ▸ hm), hr rest]
    rfl
  | @str m v h body hm hh hl hv =>
    intro x s buf items rest hx
    obtain ⟨b, lb, rfl, hb, hr⟩ := readLen_of_isHead hh
    have e : b :: lb ++ body ++ rest = b :: (lb ++ (body ++ rest)) := by simp
    rw [e, elemLoop_cons (by simp), elemStep_str hx (hb ▸ hm), hr (body ++ rest)]
    have h1 : ¬ v ≥ 2 ^ 63 := by omega
    have h2 : ¬ (body ++ rest).length < v := by simp; omega
    have h3 : (body ++ rest).take v = body := by rw [← hl]; simp
    have h4 : (body ++ rest).drop v = rest := by rw [← hl]; simp
    simp only [Res.bind_ok, h1, h2, h3, h4, if_false]
  | @array v h l hh hl hi ih =>
    intro x s buf items rest hx
    obtain ⟨b, lb, rfl, hb, hr⟩ := readLen_of_isHead hh
    have e : b :: lb ++ l.flatten ++ rest = b :: (lb ++ (l.flatten ++ rest)) := by simp
    rw [e, elemLoop_cons (by simp), elemStep_array hx hb, hr (l.flatten ++ rest)]
    simp only [Res.bind_ok]
    by_cases hz : v = 0
    · subst hz
      have : l = [] := List.length_eq_zero_iff.1 hl
      subst this
      simp
    · rw [if_neg hz, ← hl, loop_list hx l ih (by intro h; simp [h] at hl; omega), afterItem_append]
  | @map v h l hh hv hl hi ih =>
    intro x s buf items rest hx
    obtain ⟨b, lb, rfl, hb, hr⟩ := readLen_of_isHead hh
    have e : b :: lb ++ l.flatten ++ rest = b :: (lb ++ (l.flatten ++ rest)) := by simp
    rw [e, elemLoop_cons (by simp), elemStep_map hx hb, hr (l.flatten ++ rest)]
    simp only [Res.bind_ok]
    by_cases hz : v = 0
    · subst hz
      have : l = [] := List.length_eq_zero_iff.1 hl
      subst this
      simp
    · rw [if_neg hz, mapItems_lt hv, ← hl]
      have hne : l ≠ [] := by intro h; simp [h] at hl; omega
      obtain ⟨n, hn⟩ : ∃ n, l.length = n + 1 := ⟨l.length - 1, by
        have := List.length_pos_iff.2 hne; omega⟩
      have := loop_list (s := s) hx l ih hne (buf ++ b :: lb) items rest
      rw [hn] at this ⊢
      simp only [Res.bind_ok]
      rw [this, afterItem_append]
  | @tag v h body hh hi ih =>
    intro x s buf items rest hx
    obtain ⟨b, lb, rfl, hb, hr⟩ := readLen_of_isHead hh
    have e : b :: lb ++ body ++ rest = b :: (lb ++ (body ++ rest)) := by simp
    rw [e, elemLoop_cons (by simp), elemStep_tag hb, hr (body ++ rest)]
    simp only [Res.bind_ok]
    rw [ih x s _ items rest hx, afterItem_append]

/-- Reading a list of items at the top level. -/
theorem loop_top {c : Bool} (l : List Bytes) (hl : ∀ i ∈ l, IsItem i) (hne : l ≠ [])
    (acc : List Bytes) (rest : Bytes) :
    elemLoop c (l.flatten ++ rest) ⟨[l.length], [], acc⟩ = .ok (⟨[], [], acc ++ l⟩, rest) := by
  induction l generalizing acc with
  | nil => exact absurd rfl hne
  | cons i l ih =>
    have e1 : (i :: l).flatten ++ rest = i ++ (l.flatten ++ rest) := by simp
    rw [e1, loop_item (hl i (by simp)) _ _ _ _ _ (by simp)]
    cases l with
    | nil => simp [afterItem, elemLoop_done]
    | cons j l =>
      have := ih (fun i hi => hl i (by simp [hi])) (by simp) (acc ++ [i])
      simpa [afterItem] using this

/-! ### Parse implies grammar -/

/-- Closure properties needed of a class of byte strings to contain all parsed items. -/
structure ItemClass (c : Bool) (G : Bytes → Prop) : Prop where
  int : ∀ {m v h}, (m = 0 ∨ m = 1) → IsHead m v h → G h
  str : ∀ {m v h body}, (m = 2 ∨ m = 3) → IsHead m v h → body.length = v → v < 2 ^ 63 → G (h ++ body)
  array : ∀ {v h} {l : List Bytes}, IsHead 4 v h → l.length = v → (∀ i ∈ l, G i) → G (h ++ l.flatten)
  map0 : ∀ {h}, IsHead 5 0 h → G h
  map : ∀ {v n h} {l : List Bytes}, IsHead 5 v h → v ≠ 0 → mapItems c v = some (n + 1) →
    l.length = n + 1 → (∀ i ∈ l, G i) → G (h ++ l.flatten)
  tag : ∀ {v h body}, IsHead 6 v h → G body → G (h ++ body)

theorem itemClass_isItem : ItemClass true IsItem where
  int := .int
  str := .str
  array := .array
  map0 := fun h => by simpa using IsItem.map (items := []) h (by omega) (by simp) (by simp)
  map := fun hh _ hm hl hi => by
    unfold mapItems at hm
    split at hm
    · simp only [Option.some.injEq] at hm
      exact .map hh (by omega) (by omega) hi
    · simp at hm
  tag := .tag

theorem itemClass_isItemWrap : ItemClass false IsItemWrap where
  int := .int
  str := .str
  array := .array
  map0 := fun h => by simpa using IsItemWrap.map (items := []) h (by simp) (by simp) (by simp)
  map := fun {v n h l} hh hz hm hl hi => by
    unfold mapItems at hm
    have hne : l ≠ [] := by intro h; simp [h] at hl
    split at hm
    · simp only [Option.some.injEq] at hm
      exact .map hh (by rw [Nat.mod_eq_of_lt (by omega)]; omega) (fun _ => hne) hi
    · simp only [Bool.false_eq_true, if_false, Option.some.injEq] at hm
      exact .map hh (by omega) (fun _ => hne) hi
  tag := .tag

theorem list_of_loop {c : Bool} {G : Bytes → Prop} (N : Nat)
    (IH : ∀ inp : Bytes, inp.length < N → ∀ x s buf items r, 1 ≤ x →
      elemLoop c inp ⟨x :: s, buf, items⟩ = .ok r →
      ∃ it rest, inp = it ++ rest ∧ G it ∧ it ≠ [] ∧
        elemLoop c rest (afterItem it x s buf items) = .ok r)
    (n : Nat) : ∀ (inp : Bytes), inp.length < N → ∀ x s buf items r, 1 ≤ x →
      elemLoop c inp ⟨stk (n + 1) x s, buf, items⟩ = .ok r →
      ∃ (l : List Bytes) (rest : Bytes), inp = l.flatten ++ rest ∧ l.length = n + 1 ∧ (∀ i ∈ l, G i) ∧
        elemLoop c rest (afterItem l.flatten x s buf items) = .ok r := by
  induction n with
  | zero =>
    intro inp hN x s buf items r hx h
    obtain ⟨it, rest, rfl, hg, _, hr⟩ := IH inp hN x s buf items r hx (by simpa [stk] using h)
    exact ⟨[it], rest, by simp, rfl, by simpa using hg, by simpa using hr⟩
  | succ n ih =>
    intro inp hN x s buf items r hx h
    have h' : elemLoop c inp ⟨(n + 1) :: x :: s, buf, items⟩ = .ok r := by simpa [stk] using h
    obtain ⟨it, rest, rfl, hg, hne, hr⟩ := IH inp hN _ _ _ _ _ (by omega) h'
    rw [afterItem_push] at hr
    obtain ⟨l, rest', rfl, hl, hgl, hr'⟩ := ih rest (by simp at hN; omega) x s _ items r hx hr
    refine ⟨it :: l, rest', by simp, by simp [hl], ?_, ?_⟩
    · intro i hi
      rcases List.mem_cons.1 hi with rfl | hi
      · exact hg
      · exact hgl i hi
    · rw [afterItem_append] at hr'
      simpa using hr'

theorem item_of_loop {c : Bool} {G : Bytes → Prop} (hG : ItemClass c G) (N : Nat) :
    ∀ inp : Bytes, inp.length < N → ∀ x s buf items r, 1 ≤ x →
      elemLoop c inp ⟨x :: s, buf, items⟩ = .ok r →
      ∃ it rest, inp = it ++ rest ∧ G it ∧ it ≠ [] ∧
        elemLoop c rest (afterItem it x s buf items) = .ok r := by
  induction N with
  | zero => intro inp h; omega
  | succ N IH =>
    intro inp hN x s buf items r hx h
    cases inp with
    | nil => rw [elemLoop_eof (by simp)] at h; cases h
    | cons b inp =>
      rw [elemLoop_cons (by simp)] at h
      obtain ⟨⟨st', rest⟩, hs, hr⟩ := Res.bind_eq_ok.1 h
      simp only at hr
      have hlen : inp.length < N := by simp at hN; omega
      have hmaj := major_lt b
      have hcases : (major b = 0 ∨ major b = 1) ∨ (major b = 2 ∨ major b = 3) ∨ major b = 4 ∨
          major b = 5 ∨ major b = 6 ∨ major b = 7 := by omega
      rcases hcases with hb | hb | hb | hb | hb | hb
      · rw [elemStep_int hx hb] at hs
        obtain ⟨⟨v, lb, r1⟩, h1, h2⟩ := Res.bind_eq_ok.1 hs
        cases h2
        obtain ⟨hh, rfl⟩ := isHead_of_readLen h1
        exact ⟨b :: lb, r1, by simp, hG.int hb hh, by simp, hr⟩
      · rw [elemStep_str hx hb] at hs
        obtain ⟨⟨v, lb, r1⟩, h1, h2⟩ := Res.bind_eq_ok.1 hs
        simp only at h2
        split at h2
        · cases h2
        · split at h2
          · cases h2
          · cases h2
            obtain ⟨hh, rfl⟩ := isHead_of_readLen h1
            refine ⟨b :: lb ++ r1.take v, r1.drop v, by simp, ?_, by simp, hr⟩
            exact hG.str hb hh (by simp; omega) (by omega)
      · rw [elemStep_array hx hb] at hs
        obtain ⟨⟨v, lb, r1⟩, h1, h2⟩ := Res.bind_eq_ok.1 hs
        obtain ⟨hh, rfl⟩ := isHead_of_readLen h1
        rw [hb] at hh
        simp only at h2
        by_cases hz : v = 0
        · subst hz
          simp only [if_true] at h2
          cases h2
          refine ⟨b :: lb, rest, by simp, ?_, by simp, hr⟩
          simpa using hG.array (l := []) hh rfl (by simp)
        · simp only [hz, if_false] at h2
          cases h2
          obtain ⟨n, rfl⟩ := Nat.exists_eq_succ_of_ne_zero hz
          obtain ⟨l, rest', rfl, hl, hg, hr'⟩ :=
            list_of_loop N IH n rest (by simp at hlen; omega) x s _ items r hx hr
          refine ⟨b :: lb ++ l.flatten, rest', by simp, hG.array hh hl hg, by simp, ?_⟩
          rwa [afterItem_append] at hr'
      · rw [elemStep_map hx hb] at hs
        obtain ⟨⟨v, lb, r1⟩, h1, h2⟩ := Res.bind_eq_ok.1 hs
        obtain ⟨hh, rfl⟩ := isHead_of_readLen h1
        rw [hb] at hh
        simp only at h2
        by_cases hz : v = 0
        · subst hz
          simp only [if_true] at h2
          cases h2
          exact ⟨b :: lb, rest, by simp, hG.map0 hh, by simp, hr⟩
        · simp only [hz, if_false] at h2
          split at h2
          · cases h2
          · cases h2
          · rename_i n hm
            cases h2
            obtain ⟨l, rest', rfl, hl, hg, hr'⟩ :=
              list_of_loop N IH n rest (by simp at hlen; omega) x s _ items r hx hr
            refine ⟨b :: lb ++ l.flatten, rest', by simp, hG.map hh hz hm hl hg, by simp, ?_⟩
            rwa [afterItem_append] at hr'
      · rw [elemStep_tag hb] at hs
        obtain ⟨⟨v, lb, r1⟩, h1, h2⟩ := Res.bind_eq_ok.1 hs
        cases h2
        obtain ⟨hh, rfl⟩ := isHead_of_readLen h1
        rw [hb] at hh
        obtain ⟨it, rest', rfl, hg, hne, hr'⟩ :=
          IH r1 (by simp at hlen; omega) x s _ items r hx hr
        refine ⟨b :: lb ++ it, rest', by simp, hG.tag hh hg, by simp, ?_⟩
        rwa [afterItem_append] at hr'
      · rw [elemStep_special hb] at hs; cases hs

/-- Converse of `loop_top`. -/
theorem top_of_loop {c : Bool} {G : Bytes → Prop} (hG : ItemClass c G) (n : Nat) :
    ∀ (inp : Bytes) (acc : List Bytes) (st : LoopSt) (rest : Bytes),
      elemLoop c inp ⟨[n + 1], [], acc⟩ = .ok (st, rest) →
      ∃ l, inp = l.flatten ++ rest ∧ l.length = n + 1 ∧ (∀ i ∈ l, G i) ∧ st = ⟨[], [], acc ++ l⟩ := by
  induction n with
  | zero =>
    intro inp acc st rest h
    obtain ⟨it, rest', rfl, hg, _, hr⟩ := item_of_loop hG _ inp (Nat.lt_succ_self _) _ _ _ _ _ (by omega) h
    simp only [afterItem, if_true] at hr
    rw [elemLoop_done rfl] at hr
    cases hr
    exact ⟨[it], by simp, rfl, by simpa using hg, by simp⟩
  | succ n ih =>
    intro inp acc st rest h
    obtain ⟨it, rest', rfl, hg, _, hr⟩ := item_of_loop hG _ inp (Nat.lt_succ_self _) _ _ _ _ _ (by omega) h
    have hr' : elemLoop c rest' ⟨[n + 1], [], acc ++ [it]⟩ = .ok (st, rest) := by
      simpa [afterItem] using hr
    obtain ⟨l, rfl, hl, hgl, rfl⟩ := ih _ _ _ _ hr'
    refine ⟨it :: l, by simp, by simp [hl], ?_, by simp⟩
    intro i hi
    rcases List.mem_cons.1 hi with rfl | hi
    · exact hg
    · exact hgl i hi

theorem isItem_wrap {it : Bytes} (h : IsItem it) : IsItemWrap it := by
  induction h with
  | int hm hh => exact .int hm hh
  | str hm hh hl hv => exact .str hm hh hl hv
  | array hh hl _ ih => exact .array hh hl ih
  | @map v h l hh hv hl _ ih =>
    refine .map hh (by rw [Nat.mod_eq_of_lt (by omega)]; exact hl) ?_ ih
    intro hz h; simp [h] at hl; omega
  | tag hh _ ih => exact .tag hh ih

/-! ### Whole arrays -/

theorem readArray_of_grammar {c : Bool} {size tag : Option Nat} {b : UInt8} {lb : Bytes}
    {l : List Bytes} {rest : Bytes} (ha : IsHead 4 l.length (b :: lb)) (hl : ∀ i ∈ l, IsItem i)
    (hs : size = none ∨ (size = some l.length ∧ l ≠ [])) :
    readArray c size tag b (lb ++ (l.flatten ++ rest)) = .ok (⟨tag, l⟩, rest) := by
  obtain ⟨b', lb', e, hb, hr⟩ := readLen_of_isHead ha
  cases e
  unfold readArray
  rw [readLen_minor, hr]
  simp only [hb, ne_eq, not_true_eq_false, if_false]
  rcases hs with rfl | ⟨rfl, hne⟩
  · by_cases hz : l = []
    · subst hz; simp
    · have : l.length ≠ 0 := by simpa using hz
      simp only [this, if_false, readElements]
      rw [loop_top l hl hz]
      simp
  · simp only [not_true_eq_false, if_false, readElements]
    rw [loop_top l hl hne]
    simp

/-- `deserialize` on a grammatical array (any head form). -/
theorem deserialize_of_grammar {c : Bool} {size : Option Nat} {tag : Option Nat} {th ah : Bytes}
    {l : List Bytes} {rest : Bytes}
    (ht : (tag = none ∧ th = []) ∨ ∃ t, tag = some t ∧ IsHead 6 t th)
    (ha : IsHead 4 l.length ah) (hl : ∀ i ∈ l, IsItem i)
    (hs : size = none ∨ (size = some l.length ∧ l ≠ [])) :
    deserialize c size (th ++ ah ++ l.flatten ++ rest) = .ok (⟨tag, l⟩, rest) := by
  obtain ⟨b, lb, rfl, hb, hr⟩ := readLen_of_isHead ha
  rcases ht with ⟨rfl, rfl⟩ | ⟨t, rfl, hth⟩
  · have e : [] ++ (b :: lb) ++ l.flatten ++ rest = b :: (lb ++ (l.flatten ++ rest)) := by simp
    rw [e]
    simp only [deserialize, readTag, hb]
    exact readArray_of_grammar ha hl hs
  · obtain ⟨tb, tlb, rfl, htb, htr⟩ := readLen_of_isHead hth
    have e : (tb :: tlb) ++ (b :: lb) ++ l.flatten ++ rest =
        tb :: (tlb ++ (b :: (lb ++ (l.flatten ++ rest)))) := by simp
    rw [e]
    simp only [deserialize, readTag, htb]
    rw [readLen_minor, htr]
    exact readArray_of_grammar ha hl hs

theorem grammar_of_readArray {c : Bool} {G : Bytes → Prop} (hG : ItemClass c G)
    {size tag : Option Nat} (h0 : size ≠ some 0) {b : UInt8} {inp rest : Bytes} {a : ParsedArray}
    (h : readArray c size tag b inp = .ok (a, rest)) :
    a.tag = tag ∧ ∃ ah, b :: inp = ah ++ a.contents.flatten ++ rest ∧
        IsHead 4 a.contents.length ah ∧ (∀ i ∈ a.contents, G i) ∧
        (∀ n, size = some n → a.contents.length = n) := by
  unfold readArray at h
  rw [readLen_minor] at h
  split at h
  · cases h
  · rename_i hb
    have hb : major b = 4 := by simpa using hb
    split at h
    · rename_i len lb r1 h1
      obtain ⟨hh, rfl⟩ := isHead_of_readLen h1
      rw [hb] at hh
      cases size with
      | none =>
        simp only at h
        by_cases hz : len = 0
        · subst hz
          simp only [if_true] at h
          cases h
          exact ⟨rfl, b :: lb, by simp, hh, by simp, by simp⟩
        · simp only [hz, if_false, readElements] at h
          split at h
          · rename_i st r2 h3
            obtain ⟨n, rfl⟩ := Nat.exists_eq_succ_of_ne_zero hz
            obtain ⟨l, rfl, hl, hgl, rfl⟩ := top_of_loop hG n _ _ _ _ h3
            cases h
            refine ⟨rfl, b :: lb, by simp, ?_, by simpa using hgl, by simp⟩
            simpa [hl] using hh
          · cases h
          · cases h
      | some k =>
        simp only at h
        by_cases hk : len = k
        · subst hk
          simp only [ne_eq, not_true_eq_false, if_false, readElements] at h
          split at h
          · rename_i st r2 h3
            have hz : len ≠ 0 := fun hz => h0 (by rw [hz])
            obtain ⟨n, rfl⟩ := Nat.exists_eq_succ_of_ne_zero hz
            obtain ⟨l, rfl, hl, hgl, rfl⟩ := top_of_loop hG n _ _ _ _ h3
            simp only [List.nil_append, hl, not_true_eq_false, if_false] at h
            cases h
            refine ⟨rfl, b :: lb, by simp, ?_, by simpa using hgl, ?_⟩
            · simpa [hl] using hh
            · intro m hm; cases hm; exact hl
          · cases h
          · cases h
        · simp only [ne_eq, hk, not_false_eq_true, if_true] at h
          cases h
    · cases h
    · cases h

theorem grammar_of_deserialize {c : Bool} {G : Bytes → Prop} (hG : ItemClass c G)
    {size : Option Nat} (h0 : size ≠ some 0) {inp rest : Bytes} {a : ParsedArray}
    (h : deserialize c size inp = .ok (a, rest)) :
    ∃ th ah, inp = th ++ ah ++ a.contents.flatten ++ rest ∧
      ((a.tag = none ∧ th = []) ∨ ∃ t, a.tag = some t ∧ IsHead 6 t th) ∧
      IsHead 4 a.contents.length ah ∧ (∀ i ∈ a.contents, G i) ∧
      (∀ n, size = some n → a.contents.length = n) := by
  unfold deserialize at h
  split at h
  · cases h
  · rename_i b inp
    split at h
    · rename_i tag b' inp' h1
      obtain ⟨htag, ah, he, hh, hg, hs⟩ := grammar_of_readArray hG h0 h
      unfold readTag at h1
      split at h1
      · rename_i hb6
        rw [readLen_minor] at h1
        split at h1
        · cases h1
        · rename_i t lb b2 inp2 h3
          cases h1
          obtain ⟨hh', he'⟩ := isHead_of_readLen h3
          rw [hb6] at hh'
          refine ⟨b :: lb, ah, ?_, .inr ⟨t, htag, hh'⟩, hh, hg, hs⟩
          rw [he', he]; simp
        · cases h1
        · cases h1
      · cases h1
        exact ⟨[], ah, by simpa using he, .inl ⟨htag, rfl⟩, hh, hg, hs⟩
      · cases h1
    · cases h
    · cases h

/-! ### Monotonicity in the input -/

theorem readLen_mono {inp q : Bytes} {k v : Nat} {lb rest : Bytes}
    (h : readLen inp k = .ok (v, lb, rest)) : readLen (inp ++ q) k = .ok (v, lb, rest ++ q) := by
  unfold readLen at h ⊢
  cases hs : lengthSize (k % 32) with
  | none => rw [hs] at h; cases h
  | some n =>
    rw [hs] at h
    cases n with
    | zero => cases h; rfl
    | succ n =>
      simp only at h ⊢
      split at h
      · cases h
      · rename_i hl
        have hl' : ¬ (inp ++ q).length < n + 1 := by simp; omega
        have e1 : (inp ++ q).take (n + 1) = inp.take (n + 1) := by
          rw [List.take_append_of_le_length (by omega)]
        have e2 : (inp ++ q).drop (n + 1) = inp.drop (n + 1) ++ q := by
          rw [List.drop_append_of_le_length (by omega)]
        rw [if_neg hl', e1, e2]
        cases h
        rfl

theorem elemStep_mono {c : Bool} {b : UInt8} {inp q : Bytes} {st st' : LoopSt} {rest : Bytes}
    (h : elemStep c b inp st = .ok (st', rest)) :
    elemStep c b (inp ++ q) st = .ok (st', rest ++ q) := by
  unfold elemStep at h ⊢
  simp only at h ⊢
  split at h
  · obtain ⟨⟨v, lb, r⟩, h1, h2⟩ := Res.bind_eq_ok.1 h
    cases h2; rw [readLen_mono h1]; rfl
  · obtain ⟨⟨v, lb, r⟩, h1, h2⟩ := Res.bind_eq_ok.1 h
    obtain ⟨a, h4, h3⟩ := Res.bind_eq_ok.1 h2
    cases h3; rw [readLen_mono h1]; simp only [Res.bind_ok]; rw [h4]; rfl
  · obtain ⟨⟨v, lb, r⟩, h1, h2⟩ := Res.bind_eq_ok.1 h
    obtain ⟨a, h4, h3⟩ := Res.bind_eq_ok.1 h2
    cases h3; rw [readLen_mono h1]; simp only [Res.bind_ok]; rw [h4]; rfl
  · obtain ⟨⟨v, lb, r⟩, h1, h2⟩ := Res.bind_eq_ok.1 h
    simp only at h2
    split at h2
    · cases h2
    · rename_i hv
      split at h2
      · cases h2
      · rename_i hl
        obtain ⟨a, h4, h3⟩ := Res.bind_eq_ok.1 h2
        have hl' : ¬ (r ++ q).length < v := by simp; omega
        have e1 : (r ++ q).take v = r.take v := by rw [List.take_append_of_le_length (by omega)]
        have e2 : (r ++ q).drop v = r.drop v ++ q := by rw [List.drop_append_of_le_length (by omega)]
        cases h3; rw [readLen_mono h1]; simp only [Res.bind_ok, hv, hl', if_false, e1, e2]; rw [h4]; rfl
  · obtain ⟨⟨v, lb, r⟩, h1, h2⟩ := Res.bind_eq_ok.1 h
    simp only at h2
    split at h2
    · cases h2
    · rename_i hv
      split at h2
      · cases h2
      · rename_i hl
        obtain ⟨a, h4, h3⟩ := Res.bind_eq_ok.1 h2
        have hl' : ¬ (r ++ q).length < v := by simp; omega
        have e1 : (r ++ q).take v = r.take v := by rw [List.take_append_of_le_length (by omega)]
        have e2 : (r ++ q).drop v = r.drop v ++ q := by rw [List.drop_append_of_le_length (by omega)]
        cases h3; rw [readLen_mono h1]; simp only [Res.bind_ok, hv, hl', if_false, e1, e2]; rw [h4]; rfl
  · obtain ⟨⟨v, lb, r⟩, h1, h2⟩ := Res.bind_eq_ok.1 h
    obtain ⟨a, h4, h3⟩ := Res.bind_eq_ok.1 h2
    cases h3; rw [readLen_mono h1]; simp only [Res.bind_ok]; rw [h4]; rfl
  · obtain ⟨⟨v, lb, r⟩, h1, h2⟩ := Res.bind_eq_ok.1 h
    rw [readLen_mono h1]; simp only [Res.bind_ok] at h2 ⊢
    split at h2
    · rename_i hv
      rw [if_pos hv]
      split at h2
      · cases h2
      · obtain ⟨a, h4, h3⟩ := Res.bind_eq_ok.1 h2
        cases h3; rw [h4]; rfl
    · rename_i hv
      rw [if_neg hv]
      obtain ⟨a, h4, h3⟩ := Res.bind_eq_ok.1 h2
      cases h3; rw [h4]; rfl
  · cases h

theorem elemLoop_mono {c : Bool} (N : Nat) : ∀ {inp q : Bytes} {st st' : LoopSt} {rest : Bytes},
    inp.length < N → elemLoop c inp st = .ok (st', rest) →
    elemLoop c (inp ++ q) st = .ok (st', rest ++ q) := by
  induction N with
  | zero => intro inp; intros; omega
  | succ N ih =>
    intro inp q st st' rest hN h
    by_cases hl : st.left = []
    · rw [elemLoop_done hl] at h ⊢; cases h; rfl
    · cases inp with
      | nil => rw [elemLoop_eof hl] at h; cases h
      | cons b inp =>
        rw [elemLoop_cons hl] at h
        rw [List.cons_append, elemLoop_cons hl]
        obtain ⟨⟨st1, r1⟩, h1, h2⟩ := Res.bind_eq_ok.1 h
        rw [elemStep_mono h1]
        simp only [Res.bind_ok]
        refine ih ?_ h2
        have := elemStep_rest_le h1
        simp at hN; omega

theorem readTag_mono {b : UInt8} {inp q : Bytes} {tag : Option Nat} {b' : UInt8} {inp' : Bytes}
    (h : readTag b inp = .ok (tag, b', inp')) : readTag b (inp ++ q) = .ok (tag, b', inp' ++ q) := by
  unfold readTag at h ⊢
  split at h
  · split at h
    · cases h
    · rename_i h1
      rw [readLen_mono h1]
      cases h; rfl
    · cases h
    · cases h
  · cases h; rfl
  · cases h

theorem readArray_mono {c : Bool} {size tag : Option Nat} {b : UInt8} {inp q : Bytes}
    {a : ParsedArray} {rest : Bytes} (h : readArray c size tag b inp = .ok (a, rest)) :
    readArray c size tag b (inp ++ q) = .ok (a, rest ++ q) := by
  unfold readArray at h ⊢
  split at h
  · cases h
  · rename_i hb
    rw [if_neg hb]
    split at h
    · rename_i len lb r1 h1
      rw [readLen_mono h1]
      cases size with
      | none =>
        simp only at h ⊢
        split at h
        · rename_i hz; rw [if_pos hz]; cases h; rfl
        · rename_i hz
          rw [if_neg hz]
          unfold readElements at h ⊢
          split at h
          · rename_i h5
            rw [elemLoop_mono _ (Nat.lt_succ_self _) h5]
            cases h; rfl
          · cases h
          · cases h
      | some k =>
        simp only at h ⊢
        split at h
        · cases h
        · rename_i hz
          rw [if_neg hz]
          unfold readElements at h ⊢
          split at h
          · rename_i h5
            rw [elemLoop_mono _ (Nat.lt_succ_self _) h5]
            simp only at h ⊢
            split at h
            · cases h
            · rename_i hk; rw [if_neg hk]; cases h; rfl
          · cases h
          · cases h
    · cases h
    · cases h

theorem deserialize_mono {c : Bool} {size : Option Nat} {inp q : Bytes} {a : ParsedArray}
    {rest : Bytes} (h : deserialize c size inp = .ok (a, rest)) :
    deserialize c size (inp ++ q) = .ok (a, rest ++ q) := by
  unfold deserialize at h ⊢
  split at h
  · cases h
  · rename_i b inp
    simp only [List.cons_append]
    split at h
    · rename_i h1
      rw [readTag_mono h1]
      exact readArray_mono h
    · cases h
    · cases h

theorem deserialize_rest_lt {c : Bool} {size : Option Nat} {inp : Bytes} {a : ParsedArray}
    {rest : Bytes} (h : deserialize c size inp = .ok (a, rest)) (h0 : size ≠ some 0) :
    rest.length < inp.length := by
  have key : ∀ {G : Bytes → Prop}, ItemClass c G → rest.length < inp.length := by
    intro G hG
    obtain ⟨th, ah, rfl, _, hh, _⟩ := grammar_of_deserialize hG h0 h
    have := List.length_pos_iff.2 (isHead_ne_nil hh)
    simp; omega
  cases c
  · exact key itemClass_isItemWrap
  · exact key itemClass_isItem

/-! ### Panics -/

/-- The inputs on which the reader may panic. -/
def PanicCause (c : Bool) (inp : Bytes) : Prop :=
  EndsInsideHead inp ∨ AnnouncesHuge [2, 3] inp ∨ (c = true ∧ AnnouncesHuge [5] inp)

theorem PanicCause.append {c : Bool} {inp : Bytes} (pre : Bytes) (h : PanicCause c inp) :
    PanicCause c (pre ++ inp) := by
  rcases h with ⟨p, b, post, rfl, h⟩ | ⟨p, b, arg, post, rfl, h⟩ | ⟨hc, p, b, arg, post, rfl, h⟩
  · exact .inl ⟨pre ++ p, b, post, by simp, h⟩
  · exact .inr (.inl ⟨pre ++ p, b, arg, post, by simp, h⟩)
  · exact .inr (.inr ⟨hc, pre ++ p, b, arg, post, by simp, h⟩)

theorem PanicCause.cons {c : Bool} {inp : Bytes} (b : UInt8) (h : PanicCause c inp) :
    PanicCause c (b :: inp) := h.append [b]

theorem readLen_panic {c : Bool} {b : UInt8} {inp : Bytes} (h : readLen inp (minor b) = .panic) :
    PanicCause c (b :: inp) := by
  have hmod : minor b % 32 = minor b := by have := minor_lt b; omega
  unfold readLen at h
  rw [hmod] at h
  cases hs : lengthSize (minor b) with
  | none => rw [hs] at h; cases h
  | some n =>
    rw [hs] at h
    cases n with
    | zero => cases h
    | succ n =>
      simp only at h
      split at h
      · rename_i hl
        refine .inl ⟨[], b, inp, rfl, ?_⟩
        have := lengthSize_cases hs
        unfold minor at this
        omega
      · cases h

theorem huge_of_head {m v : Nat} {b : UInt8} {lb : Bytes} (hh : IsHead m v (b :: lb))
    (hv : 2 ^ 63 ≤ v) : b.toNat / 32 = m ∧ b.toNat % 32 = 27 ∧ lb.length = 8 ∧ 2 ^ 63 ≤ beNat lb := by
  have key : ∀ arg : Bytes, arg.length ≤ 4 → beNat arg < 2 ^ 63 := by
    intro arg ha
    have h1 := beNat_lt arg
    have h2 : (256 : Nat) ^ arg.length ≤ 256 ^ 4 := Nat.pow_le_pow_right (by omega) ha
    omega
  cases hh with
  | imm hm hv' => omega
  | ext1 hm ha => have := key lb (by omega); omega
  | ext2 hm ha => have := key lb (by omega); omega
  | ext4 hm ha => have := key lb (by omega); omega
  | ext8 hm ha =>
    refine ⟨?_, ?_, ha, hv⟩
    · rw [toNat_ofNat_lt (by omega)]; omega
    · rw [toNat_ofNat_lt (by omega)]; omega

theorem finishElem_no_panic {st : LoopSt} (h : st.left ≠ []) : finishElem st ≠ .panic := by
  unfold finishElem
  obtain ⟨l, b, i⟩ := st
  match l, h with
  | 0 :: s, _ => cases s <;> simp [popLeft]
  | 1 :: s, _ => cases s <;> simp [popLeft]
  | (n + 2) :: s, _ => cases s <;> simp [popLeft]

theorem elemStep_panic {c : Bool} {b : UInt8} {inp : Bytes} {st : LoopSt} (hl : st.left ≠ [])
    (h : elemStep c b inp st = .panic) : PanicCause c (b :: inp) := by
  unfold elemStep at h
  simp only at h
  split at h
  · rcases Res.bind_eq_panic.1 h with h1 | ⟨⟨v, lb, r⟩, h1, h2⟩
    · exact readLen_panic h1
    · cases h2
  · rcases Res.bind_eq_panic.1 h with h1 | ⟨⟨v, lb, r⟩, h1, h2⟩
    · exact readLen_panic h1
    · rcases Res.bind_eq_panic.1 h2 with h3 | ⟨_, _, h4⟩
      · exact absurd h3 (finishElem_no_panic hl)
      · cases h4
  · rcases Res.bind_eq_panic.1 h with h1 | ⟨⟨v, lb, r⟩, h1, h2⟩
    · exact readLen_panic h1
    · rcases Res.bind_eq_panic.1 h2 with h3 | ⟨_, _, h4⟩
      · exact absurd h3 (finishElem_no_panic hl)
      · cases h4
  · rename_i hb
    rcases Res.bind_eq_panic.1 h with h1 | ⟨⟨v, lb, r⟩, h1, h2⟩
    · exact readLen_panic h1
    · simp only at h2
      split at h2
      · rename_i hv
        obtain ⟨hh, rfl⟩ := isHead_of_readLen h1
        obtain ⟨e1, e2, e3, e4⟩ := huge_of_head hh hv
        exact .inr (.inl ⟨[], b, lb, r, rfl, by rw [e1, hb]; simp, e2, e3, e4⟩)
      · split at h2
        · cases h2
        · rcases Res.bind_eq_panic.1 h2 with h3 | ⟨_, _, h4⟩
          · exact absurd h3 (finishElem_no_panic hl)
          · cases h4
  · rename_i hb
    rcases Res.bind_eq_panic.1 h with h1 | ⟨⟨v, lb, r⟩, h1, h2⟩
    · exact readLen_panic h1
    · simp only at h2
      split at h2
      · rename_i hv
        obtain ⟨hh, rfl⟩ := isHead_of_readLen h1
        obtain ⟨e1, e2, e3, e4⟩ := huge_of_head hh hv
        exact .inr (.inl ⟨[], b, lb, r, rfl, by rw [e1, hb]; simp, e2, e3, e4⟩)
      · split at h2
        · cases h2
        · rcases Res.bind_eq_panic.1 h2 with h3 | ⟨_, _, h4⟩
          · exact absurd h3 (finishElem_no_panic hl)
          · cases h4
  · rcases Res.bind_eq_panic.1 h with h1 | ⟨⟨v, lb, r⟩, h1, h2⟩
    · exact readLen_panic h1
    · rcases Res.bind_eq_panic.1 h2 with h3 | ⟨_, _, h4⟩
      · refine absurd h3 (finishElem_no_panic ?_)
        split
        · simp
        · exact hl
      · cases h4
  · rename_i hb
    rcases Res.bind_eq_panic.1 h with h1 | ⟨⟨v, lb, r⟩, h1, h2⟩
    · exact readLen_panic h1
    · simp only at h2
      split at h2
      · rename_i hv
        split at h2
        · rename_i hm
          unfold mapItems at hm
          split at hm
          · cases hm
          · rename_i hov
            split at hm
            · rename_i hc
              obtain ⟨hh, rfl⟩ := isHead_of_readLen h1
              obtain ⟨e1, e2, e3, e4⟩ := huge_of_head hh (by omega)
              exact .inr (.inr ⟨hc, [], b, lb, r, rfl, by rw [e1, hb]; simp, e2, e3, e4⟩)
            · cases hm
        · rcases Res.bind_eq_panic.1 h2 with h3 | ⟨_, _, h4⟩
          · exact absurd h3 (finishElem_no_panic (by simp))
          · cases h4
      · rcases Res.bind_eq_panic.1 h2 with h3 | ⟨_, _, h4⟩
        · exact absurd h3 (finishElem_no_panic hl)
        · cases h4
  · cases h

theorem elemStep_suffix {c : Bool} {b : UInt8} {inp : Bytes} {st st' : LoopSt} {rest : Bytes}
    (h : elemStep c b inp st = .ok (st', rest)) : ∃ pre, inp = pre ++ rest := by
  unfold elemStep at h
  simp only at h
  split at h
  · obtain ⟨⟨v, lb, r⟩, h1, h2⟩ := Res.bind_eq_ok.1 h
    cases h2; exact ⟨_, (isHead_of_readLen h1).2⟩
  · obtain ⟨⟨v, lb, r⟩, h1, h2⟩ := Res.bind_eq_ok.1 h
    obtain ⟨a, _, h3⟩ := Res.bind_eq_ok.1 h2
    cases h3; exact ⟨_, (isHead_of_readLen h1).2⟩
  · obtain ⟨⟨v, lb, r⟩, h1, h2⟩ := Res.bind_eq_ok.1 h
    obtain ⟨a, _, h3⟩ := Res.bind_eq_ok.1 h2
    cases h3; exact ⟨_, (isHead_of_readLen h1).2⟩
  · obtain ⟨⟨v, lb, r⟩, h1, h2⟩ := Res.bind_eq_ok.1 h
    simp only at h2
    split at h2
    · cases h2
    · split at h2
      · cases h2
      · obtain ⟨a, _, h3⟩ := Res.bind_eq_ok.1 h2
        cases h3
        refine ⟨lb ++ r.take v, ?_⟩
        rw [(isHead_of_readLen h1).2]; simp
  · obtain ⟨⟨v, lb, r⟩, h1, h2⟩ := Res.bind_eq_ok.1 h
    simp only at h2
    split at h2
    · cases h2
    · split at h2
      · cases h2
      · obtain ⟨a, _, h3⟩ := Res.bind_eq_ok.1 h2
        cases h3
        refine ⟨lb ++ r.take v, ?_⟩
        rw [(isHead_of_readLen h1).2]; simp
  · obtain ⟨⟨v, lb, r⟩, h1, h2⟩ := Res.bind_eq_ok.1 h
    obtain ⟨a, _, h3⟩ := Res.bind_eq_ok.1 h2
    cases h3; exact ⟨_, (isHead_of_readLen h1).2⟩
  · obtain ⟨⟨v, lb, r⟩, h1, h2⟩ := Res.bind_eq_ok.1 h
    simp only at h2
    split at h2
    · split at h2
      · cases h2
      · obtain ⟨a, _, h3⟩ := Res.bind_eq_ok.1 h2
        cases h3; exact ⟨_, (isHead_of_readLen h1).2⟩
    · obtain ⟨a, _, h3⟩ := Res.bind_eq_ok.1 h2
      cases h3; exact ⟨_, (isHead_of_readLen h1).2⟩
  · cases h

theorem elemLoop_panic {c : Bool} (N : Nat) : ∀ {inp : Bytes} {st : LoopSt},
    inp.length < N → elemLoop c inp st = .panic → PanicCause c inp := by
  induction N with
  | zero => intro inp; intros; omega
  | succ N ih =>
    intro inp st hN h
    by_cases hl : st.left = []
    · rw [elemLoop_done hl] at h; cases h
    · cases inp with
      | nil => rw [elemLoop_eof hl] at h; cases h
      | cons b inp =>
        rw [elemLoop_cons hl] at h
        rcases Res.bind_eq_panic.1 h with h1 | ⟨⟨st1, r1⟩, h1, h2⟩
        · exact elemStep_panic hl h1
        · obtain ⟨pre, rfl⟩ := elemStep_suffix h1
          have := ih (by simp at hN ⊢; omega) h2
          exact (this.append pre).cons b

theorem readArray_panic {c : Bool} {size tag : Option Nat} {b : UInt8} {inp : Bytes}
    (h : readArray c size tag b inp = .panic) : PanicCause c (b :: inp) := by
  have hgo : ∀ len lb r1, readLen inp (minor b) = .ok (len, lb, r1) →
      readElements c size tag len r1 = .panic → PanicCause c (b :: inp) := by
    intro len lb r1 h1 h2
    unfold readElements at h2
    split at h2
    · split at h2
      · split at h2 <;> cases h2
      · cases h2
    · cases h2
    · rename_i h3
      rw [(isHead_of_readLen h1).2]
      exact ((elemLoop_panic _ (Nat.lt_succ_self _) h3).append lb).cons b
  unfold readArray at h
  rw [readLen_minor] at h
  split at h
  · cases h
  · split at h
    · rename_i len lb r1 h1
      cases size with
      | none =>
        simp only at h
        split at h
        · cases h
        · exact hgo _ _ _ h1 h
      | some k =>
        simp only at h
        split at h
        · cases h
        · exact hgo _ _ _ h1 h
    · cases h
    · rename_i h1
      exact readLen_panic h1

theorem deserialize_panic {c : Bool} {size : Option Nat} {inp : Bytes}
    (h : deserialize c size inp = .panic) : PanicCause c inp := by
  unfold deserialize at h
  split at h
  · cases h
  · rename_i b inp
    split at h
    · rename_i tag b' inp' h1
      have h2 := readArray_panic h
      unfold readTag at h1
      split at h1
      · rw [readLen_minor] at h1
        split at h1
        · cases h1
        · rename_i h3
          cases h1
          rw [(isHead_of_readLen h3).2]
          exact (h2.append _).cons b
        · cases h1
        · cases h1
      · cases h1; exact h2
      · cases h1
    · cases h
    · rename_i h1
      unfold readTag at h1
      split at h1
      · rw [readLen_minor] at h1
        split at h1
        · cases h1
        · cases h1
        · cases h1
        · rename_i h3; exact readLen_panic h3
      · cases h1
      · cases h1

/-! ### Extent of a successful read -/

theorem readLen_shrink {p p' q : Bytes} {k v : Nat} {lb : Bytes}
    (h : readLen (p ++ q) k = .ok (v, lb, p' ++ q)) : readLen p k = .ok (v, lb, p') := by
  unfold readLen at h ⊢
  split at h
  · cases h
  · simp only [Res.ok.injEq, Prod.mk.injEq, List.append_cancel_right_eq] at h
    obtain ⟨h1, h2, h3⟩ := h
    subst h2; subst h3; simp [h1]
  · split at h
    · cases h
    · simp only [Res.ok.injEq, Prod.mk.injEq] at h
      rename_i n _ hs hlen
      obtain ⟨h1, h2, h3⟩ := h
      have hp : p = (p ++ q).take n ++ p' := by
        apply List.append_cancel_right (bs := q)
        rw [List.append_assoc, ← h3, List.take_append_drop]
      have hn : n ≤ p.length := by
        have := congrArg List.length hp
        simp at this hlen; omega
      rw [List.take_append_of_le_length hn] at h1 h2 hp
      rw [if_neg (by omega), h1, h2]
      simp only [Res.ok.injEq, Prod.mk.injEq, true_and]
      conv => lhs; rw [hp]
      simp [hn]

theorem readLen_suffix {inp rest : Bytes} {k v : Nat} {lb : Bytes}
    (h : readLen inp k = .ok (v, lb, rest)) : inp = lb ++ rest := by
  unfold readLen at h
  split at h
  · cases h
  · cases h; rfl
  · split at h
    · cases h
    · cases h; simp

theorem elemStep_shrink {c : Bool} {b : UInt8} {p p' q : Bytes} {st st' : LoopSt}
    (h : elemStep c b (p ++ q) st = .ok (st', p' ++ q)) : elemStep c b p st = .ok (st', p') := by
  unfold elemStep at h ⊢
  simp only at h ⊢
  split at h
  · obtain ⟨⟨v, lb, r⟩, h1, h2⟩ := Res.bind_eq_ok.1 h
    cases h2; rw [readLen_shrink h1]; rfl
  · obtain ⟨⟨v, lb, r⟩, h1, h2⟩ := Res.bind_eq_ok.1 h
    obtain ⟨a, h4, h3⟩ := Res.bind_eq_ok.1 h2
    cases h3; rw [readLen_shrink h1]; simp only [Res.bind_ok, h4]; rfl
  · obtain ⟨⟨v, lb, r⟩, h1, h2⟩ := Res.bind_eq_ok.1 h
    obtain ⟨a, h4, h3⟩ := Res.bind_eq_ok.1 h2
    cases h3; rw [readLen_shrink h1]; simp only [Res.bind_ok, h4]; rfl
  · obtain ⟨⟨v, lb, r⟩, h1, h2⟩ := Res.bind_eq_ok.1 h
    simp only at h2
    split at h2
    · cases h2
    · split at h2
      · cases h2
      · rename_i hv hr
        obtain ⟨a, h4, h3⟩ := Res.bind_eq_ok.1 h2
        simp only [Res.pure_eq, Res.ok.injEq, Prod.mk.injEq] at h3
        obtain ⟨rfl, h3⟩ := h3
        have hr' : r = r.take v ++ p' ++ q := by
          rw [List.append_assoc, ← h3, List.take_append_drop]
        rw [hr'] at h1
        rw [readLen_shrink h1]
        have hlen : (r.take v).length = v := by simp; omega
        simp only [Res.bind_ok]
        rw [if_neg hv, if_neg (by simp; omega),
          List.take_append_of_le_length (by omega), List.take_of_length_le (by omega), h4,
          List.drop_append_of_le_length (by omega), List.drop_of_length_le (by omega)]
        rfl
  · obtain ⟨⟨v, lb, r⟩, h1, h2⟩ := Res.bind_eq_ok.1 h
    simp only at h2
    split at h2
    · cases h2
    · split at h2
      · cases h2
      · rename_i hv hr
        obtain ⟨a, h4, h3⟩ := Res.bind_eq_ok.1 h2
        simp only [Res.pure_eq, Res.ok.injEq, Prod.mk.injEq] at h3
        obtain ⟨rfl, h3⟩ := h3
        have hr' : r = r.take v ++ p' ++ q := by
          rw [List.append_assoc, ← h3, List.take_append_drop]
        rw [hr'] at h1
        rw [readLen_shrink h1]
        have hlen : (r.take v).length = v := by simp; omega
        simp only [Res.bind_ok]
        rw [if_neg hv, if_neg (by simp; omega),
          List.take_append_of_le_length (by omega), List.take_of_length_le (by omega), h4,
          List.drop_append_of_le_length (by omega), List.drop_of_length_le (by omega)]
        rfl
  · obtain ⟨⟨v, lb, r⟩, h1, h2⟩ := Res.bind_eq_ok.1 h
    obtain ⟨a, h4, h3⟩ := Res.bind_eq_ok.1 h2
    cases h3; rw [readLen_shrink h1]; simp only [Res.bind_ok, h4]; rfl
  · obtain ⟨⟨v, lb, r⟩, h1, h2⟩ := Res.bind_eq_ok.1 h
    simp only at h2
    split at h2
    · rename_i hv
      split at h2
      · cases h2
      · rename_i hm
        obtain ⟨a, h4, h3⟩ := Res.bind_eq_ok.1 h2
        cases h3; rw [readLen_shrink h1]; simp only [Res.bind_ok]
        rw [if_pos hv, hm]; simp only [h4]; rfl
    · rename_i hv
      obtain ⟨a, h4, h3⟩ := Res.bind_eq_ok.1 h2
      cases h3; rw [readLen_shrink h1]; simp only [Res.bind_ok]
      rw [if_neg hv, h4]; rfl
  · cases h

theorem elemLoop_suffix {c : Bool} (N : Nat) : ∀ {inp rest : Bytes} {st st' : LoopSt},
    inp.length < N → elemLoop c inp st = .ok (st', rest) → ∃ pre, inp = pre ++ rest := by
  induction N with
  | zero => intros; omega
  | succ N ih =>
    intro inp rest st st' hN h
    by_cases hl : st.left = []
    · rw [elemLoop_done hl] at h; cases h; exact ⟨[], rfl⟩
    · cases inp with
      | nil => rw [elemLoop_eof hl] at h; cases h
      | cons b inp =>
        rw [elemLoop_cons hl] at h
        obtain ⟨⟨st1, r1⟩, h1, h2⟩ := Res.bind_eq_ok.1 h
        obtain ⟨pre, rfl⟩ := elemStep_suffix h1
        obtain ⟨pre', rfl⟩ := ih (by simp at hN ⊢; omega) h2
        exact ⟨b :: (pre ++ pre'), by simp⟩

theorem elemLoop_shrink {c : Bool} (N : Nat) : ∀ {p p' q : Bytes} {st st' : LoopSt},
    p.length < N → elemLoop c (p ++ q) st = .ok (st', p' ++ q) → elemLoop c p st = .ok (st', p') := by
  induction N with
  | zero => intros; omega
  | succ N ih =>
    intro p p' q st st' hN h
    by_cases hl : st.left = []
    · rw [elemLoop_done hl] at h ⊢
      simp only [Res.ok.injEq, Prod.mk.injEq, List.append_cancel_right_eq] at h
      rw [h.1, h.2]
    · cases p with
      | nil =>
        exfalso
        cases q with
        | nil => simp only [List.append_nil] at h; rw [elemLoop_eof hl] at h; cases h
        | cons b q =>
          rw [List.nil_append, elemLoop_cons hl] at h
          obtain ⟨⟨st1, r1⟩, h1, h2⟩ := Res.bind_eq_ok.1 h
          have h3 := elemStep_rest_le h1
          obtain ⟨pre, hp⟩ := elemLoop_suffix _ (Nat.lt_succ_self _) h2
          have := congrArg List.length hp
          simp at this; omega
      | cons b p =>
        rw [List.cons_append, elemLoop_cons hl] at h
        obtain ⟨⟨st1, r1⟩, h1, h2⟩ := Res.bind_eq_ok.1 h
        obtain ⟨pre, hp⟩ := elemLoop_suffix _ (Nat.lt_succ_self _) h2
        simp only at hp
        rw [← List.append_assoc] at hp
        subst hp
        rw [elemLoop_cons hl, elemStep_shrink h1]
        have hle := elemStep_rest_le h1
        exact ih (by simp at hN hle ⊢; omega) h2

theorem readArray_suffix {c : Bool} {size tag : Option Nat} {b : UInt8} {inp rest : Bytes}
    {a : ParsedArray} (h : readArray c size tag b inp = .ok (a, rest)) : ∃ pre, inp = pre ++ rest := by
  have hgo : ∀ len lb r1, readLen inp b.toNat = .ok (len, lb, r1) →
      readElements c size tag len r1 = .ok (a, rest) → ∃ pre, inp = pre ++ rest := by
    intro len lb r1 h1 h2
    have hs := readLen_suffix h1
    unfold readElements at h2
    split at h2
    · rename_i st r3 h3
      obtain ⟨pre, rfl⟩ := elemLoop_suffix _ (Nat.lt_succ_self _) h3
      have : r3 = rest := by
        split at h2
        · split at h2
          · cases h2
          · cases h2; rfl
        · cases h2; rfl
      subst this
      exact ⟨lb ++ pre, by rw [hs]; simp⟩
    · cases h2
    · cases h2
  unfold readArray at h
  split at h
  · cases h
  · split at h
    · rename_i len lb r1 h1
      cases size with
      | none =>
        simp only at h
        split at h
        · cases h; exact ⟨_, readLen_suffix h1⟩
        · exact hgo _ _ _ h1 h
      | some k =>
        simp only at h
        split at h
        · cases h
        · exact hgo _ _ _ h1 h
    · cases h
    · cases h

theorem readElements_shrink {c : Bool} {size tag : Option Nat} {len : Nat} {p p' q : Bytes}
    {a : ParsedArray} (h : readElements c size tag len (p ++ q) = .ok (a, p' ++ q)) :
    readElements c size tag len p = .ok (a, p') := by
  unfold readElements at h ⊢
  split at h
  · rename_i st r3 h3
    have : r3 = p' ++ q := by
      split at h
      · split at h
        · cases h
        · cases h; rfl
      · cases h; rfl
    subst this
    rw [elemLoop_shrink _ (Nat.lt_succ_self _) h3]
    simp only
    cases size with
    | none => simp only at h ⊢; cases h; rfl
    | some n =>
      simp only at h ⊢
      split at h
      · cases h
      · cases h; rw [if_neg ‹_›]
  · cases h
  · cases h

theorem readElements_suffix {c : Bool} {size tag : Option Nat} {len : Nat} {inp rest : Bytes}
    {a : ParsedArray} (h : readElements c size tag len inp = .ok (a, rest)) :
    ∃ pre, inp = pre ++ rest := by
  unfold readElements at h
  split at h
  · rename_i st r3 h3
    obtain ⟨pre, rfl⟩ := elemLoop_suffix _ (Nat.lt_succ_self _) h3
    have : r3 = rest := by
      split at h
      · split at h
        · cases h
        · cases h; rfl
      · cases h; rfl
    subst this
    exact ⟨pre, rfl⟩
  · cases h
  · cases h

theorem readArray_shrink {c : Bool} {size tag : Option Nat} {b : UInt8} {p p' q : Bytes}
    {a : ParsedArray} (h : readArray c size tag b (p ++ q) = .ok (a, p' ++ q)) :
    readArray c size tag b p = .ok (a, p') := by
  unfold readArray at h ⊢
  split at h
  · cases h
  · rename_i hb
    rw [if_neg hb]
    split at h
    · rename_i len lb r1 h1
      cases size with
      | none =>
        simp only at h ⊢
        split at h
        · cases h; rw [readLen_shrink h1]; simp only; rw [if_pos ‹_›]
        · rename_i hz
          obtain ⟨pre, rfl⟩ := readElements_suffix h
          rw [← List.append_assoc] at h1 h
          rw [readLen_shrink h1]; simp only; rw [if_neg hz]
          exact readElements_shrink h
      | some k =>
        simp only at h ⊢
        split at h
        · cases h
        · rename_i hz
          obtain ⟨pre, rfl⟩ := readElements_suffix h
          rw [← List.append_assoc] at h1 h
          rw [readLen_shrink h1]; simp only; rw [if_neg hz]
          exact readElements_shrink h
    · cases h
    · cases h

theorem readTag_cases {b : UInt8} {inp : Bytes} {tag : Option Nat} {b' : UInt8} {inp' : Bytes}
    (h : readTag b inp = .ok (tag, b', inp')) :
    (major b = 4 ∧ tag = none ∧ b' = b ∧ inp' = inp) ∨
    (major b = 6 ∧ ∃ t lb, tag = some t ∧ readLen inp b.toNat = .ok (t, lb, b' :: inp')) := by
  unfold readTag at h
  split at h
  · rename_i hb
    right
    refine ⟨hb, ?_⟩
    split at h
    · cases h
    · rename_i h3; cases h; exact ⟨_, _, rfl, h3⟩
    · cases h
    · cases h
  · left; cases h; exact ⟨‹_›, rfl, rfl, rfl⟩
  · cases h

theorem deserialize_suffix {c : Bool} {size : Option Nat} {inp rest : Bytes} {a : ParsedArray}
    (h : deserialize c size inp = .ok (a, rest)) : ∃ pre, inp = pre ++ rest := by
  unfold deserialize at h
  split at h
  · cases h
  · rename_i b inp
    split at h
    · rename_i tag b' inp' h1
      obtain ⟨pre, rfl⟩ := readArray_suffix h
      rcases readTag_cases h1 with ⟨_, _, _, rfl⟩ | ⟨_, t, lb, _, h3⟩
      · exact ⟨b :: pre, rfl⟩
      · exact ⟨b :: (lb ++ b' :: pre), by rw [readLen_suffix h3]; simp⟩
    · cases h
    · cases h

theorem deserialize_shrink {c : Bool} {size : Option Nat} {p q : Bytes} {a : ParsedArray}
    (h : deserialize c size (p ++ q) = .ok (a, q)) : deserialize c size p = .ok (a, []) := by
  cases p with
  | nil =>
    exfalso
    rw [List.nil_append] at h
    unfold deserialize at h
    split at h
    · cases h
    · rename_i b inp
      split at h
      · rename_i tag b' inp' h1
        obtain ⟨pre, rfl⟩ := readArray_suffix h
        rcases readTag_cases h1 with ⟨_, _, _, h4⟩ | ⟨_, t, lb, _, h3⟩
        · have := congrArg List.length h4; simp at this; omega
        · have := congrArg List.length (readLen_suffix h3); simp at this; omega
      · cases h
      · cases h
  | cons b p =>
    rw [List.cons_append] at h
    unfold deserialize at h ⊢
    simp only at h ⊢
    split at h
    · rename_i tag b' inp' h1
      obtain ⟨pre, rfl⟩ := readArray_suffix h
      have h1' : readTag b p = .ok (tag, b', pre) := by
        rcases readTag_cases h1 with ⟨hb, rfl, rfl, h4⟩ | ⟨hb, t, lb, rfl, h3⟩
        · have := List.append_cancel_right h4
          subst this
          simp only [readTag, hb]
        · rw [← List.cons_append] at h3
          have := readLen_shrink h3
          simp only [readTag, hb, this]
      rw [h1']
      exact readArray_shrink (p' := []) (by simpa using h)
    · cases h
    · cases h

/-- `noData` is only reported for an empty stream. -/
theorem deserialize_cons_not_noData {c : Bool} {size : Option Nat} {b : UInt8} {inp : Bytes} :
    deserialize c size (b :: inp) ≠ .err .noData := by
  have hlen : ∀ {inp : Bytes} {k : Nat}, readLen inp k ≠ .err .noData := by
    intro inp k h
    unfold readLen at h
    split at h
    · cases h
    · cases h
    · split at h <;> cases h
  have hfin : ∀ {st : LoopSt}, finishElem st ≠ .err .noData := by
    intro st h
    unfold finishElem at h
    rcases Res.bind_eq_err.1 h with h1 | ⟨_, _, h1⟩
    · unfold popLeft at h1
      split at h1 <;> cases h1
    · cases h1
  have hstep : ∀ {b : UInt8} {inp : Bytes} {st : LoopSt}, elemStep c b inp st ≠ .err .noData := by
    intro b inp st h
    unfold elemStep at h
    simp only at h
    split at h
    · rcases Res.bind_eq_err.1 h with h1 | ⟨_, _, h2⟩
      · exact hlen h1
      · cases h2
    · rcases Res.bind_eq_err.1 h with h1 | ⟨_, _, h2⟩
      · exact hlen h1
      · rcases Res.bind_eq_err.1 h2 with h1 | ⟨_, _, h2⟩
        · exact hfin h1
        · cases h2
    · rcases Res.bind_eq_err.1 h with h1 | ⟨_, _, h2⟩
      · exact hlen h1
      · rcases Res.bind_eq_err.1 h2 with h1 | ⟨_, _, h2⟩
        · exact hfin h1
        · cases h2
    · rcases Res.bind_eq_err.1 h with h1 | ⟨_, _, h2⟩
      · exact hlen h1
      · split at h2
        · cases h2
        · split at h2
          · cases h2
          · rcases Res.bind_eq_err.1 h2 with h1 | ⟨_, _, h2⟩
            · exact hfin h1
            · cases h2
    · rcases Res.bind_eq_err.1 h with h1 | ⟨_, _, h2⟩
      · exact hlen h1
      · split at h2
        · cases h2
        · split at h2
          · cases h2
          · rcases Res.bind_eq_err.1 h2 with h1 | ⟨_, _, h2⟩
            · exact hfin h1
            · cases h2
    · rcases Res.bind_eq_err.1 h with h1 | ⟨_, _, h2⟩
      · exact hlen h1
      · rcases Res.bind_eq_err.1 h2 with h1 | ⟨_, _, h2⟩
        · exact hfin h1
        · cases h2
    · rcases Res.bind_eq_err.1 h with h1 | ⟨_, _, h2⟩
      · exact hlen h1
      · split at h2
        · split at h2
          · cases h2
          · rcases Res.bind_eq_err.1 h2 with h1 | ⟨_, _, h2⟩
            · exact hfin h1
            · cases h2
        · rcases Res.bind_eq_err.1 h2 with h1 | ⟨_, _, h2⟩
          · exact hfin h1
          · cases h2
    · cases h
  have hloop : ∀ (N : Nat) {inp : Bytes} {st : LoopSt}, inp.length < N →
      elemLoop c inp st ≠ .err .noData := by
    intro N
    induction N with
    | zero => intros; omega
    | succ N ih =>
      intro inp st hN h
      by_cases hl : st.left = []
      · rw [elemLoop_done hl] at h; cases h
      · cases inp with
        | nil => rw [elemLoop_eof hl] at h; cases h
        | cons b inp =>
          rw [elemLoop_cons hl] at h
          rcases Res.bind_eq_err.1 h with h1 | ⟨⟨st1, r1⟩, h1, h2⟩
          · exact hstep h1
          · have := elemStep_rest_le h1
            exact ih (by simp at hN ⊢; omega) h2
  have helem : ∀ {size tag : Option Nat} {len : Nat} {inp : Bytes},
      readElements c size tag len inp ≠ .err .noData := by
    intro size tag len inp h
    unfold readElements at h
    split at h
    · split at h
      · split at h <;> cases h
      · cases h
    · rename_i h3; cases h; exact hloop _ (Nat.lt_succ_self _) h3
    · cases h
  have harr : ∀ {size tag : Option Nat} {b : UInt8} {inp : Bytes},
      readArray c size tag b inp ≠ .err .noData := by
    intro size tag b inp h
    unfold readArray at h
    split at h
    · cases h
    · split at h
      · split at h
        · split at h
          · cases h
          · exact helem h
        · split at h
          · cases h
          · exact helem h
      · rename_i h1; cases h; exact hlen h1
      · cases h
  intro h
  unfold deserialize at h
  simp only at h
  split at h
  · exact harr h
  · rename_i h1
    cases h
    unfold readTag at h1
    split at h1
    · split at h1
      · cases h1
      · cases h1
      · rename_i h3; cases h1; exact hlen h3
      · cases h1
    · cases h1
    · cases h1
  · cases h

end Verif.Cbor

import Verif.Model.CApi
import Mathlib.Data.List.Forall2
import Verif.Props.OwnerTool
import Verif.Lemmas.Utf8
import Verif.Props.Cbor
/-!
The C library (C58) and files of several vouchers (C05).
-/
namespace Verif.CApi
open Verif Verif.Voucher

variable {E : Env} {c : Bool} {text : Err → Bytes} {msg : Bytes}

/-! ### Specification: what a caller may rely on, in terms of the calls made -/

/-- Something was handed out by a call `gives` and there was no call `ends` since. -/
def Live (gives ends : Call × Ret → Prop) (h : List (Call × Ret)) : Prop :=
  ∃ a x b, h = a ++ x :: b ∧ gives x ∧ ∀ y ∈ b, ¬ends y

/-- The string `n` was returned and not freed. -/
def StrLive (h : List (Call × Ret)) (n : Nat) : Prop :=
  Live (fun x => x.2 = .str (some n)) (fun y => y.1 = .freeString (some n)) h

/-- The list `n` was made from `d` and not freed. -/
def ListLive (h : List (Call × Ret)) (d : Bytes) (n : Nat) : Prop :=
  Live (fun x => x = (.manyFromData (some d), .list (some n))) (fun y => y.1 = .listFree (some n)) h

/-- The voucher `n` was made from `d` and not freed. -/
def OwnLive (h : List (Call × Ret)) (d : Bytes) (n : Nat) : Prop :=
  Live (fun x => x = (.fromData (some d), .ref (.own n))) (fun y => y.1 = .free (.own n)) h

/-- The pointer to item `i` of list `l` was returned and the list was not freed since. -/
def ItemLive (h : List (Call × Ret)) (l i : Nat) : Prop :=
  Live (fun x => x = (.listGet (some l) i, .ref (.item l i))) (fun y => y.1 = .listFree (some l)) h

/-- Usable voucher pointers. -/
def RefOk (h : List (Call × Ret)) : Ref → Prop
  | .null => True
  | .own n => ∃ d, OwnLive h d n
  | .item l i => ItemLive h l i

/-- Usable list pointers. -/
def ListOk (h : List (Call × Ret)) : Option Nat → Prop
  | none => True
  | some n => ∃ d, ListLive h d n

/-- A call with valid pointers, as the documentation of the calls demands: NULL, or handed out and not freed; items of lists
are not freed by the caller. -/
def Valid (h : List (Call × Ret)) : Call → Prop
  | .freeString none => True
  | .freeString (some n) => StrLive h n
  | .listGet l _ => ListOk h l
  | .listLen l => ListOk h l
  | .listFree l => ListOk h l
  | .free (.item _ _) => False
  | .free r => RefOk h r
  | .version r => RefOk h r
  | .guid r => RefOk h r
  | .deviceInfo r => RefOk h r
  | _ => True

theorem live_snoc {gives ends : Call × Ret → Prop} {h : List (Call × Ret)} {x : Call × Ret}
    (hl : Live gives ends (h ++ [x])) : gives x ∨ (Live gives ends h ∧ ¬ends x) := by
  obtain ⟨a, y, b, h1, h2, h3⟩ := hl
  rcases List.eq_nil_or_concat b with rfl | ⟨b', z, rfl⟩
  · have := List.append_inj' h1 rfl
    cases this.2
    exact .inl h2
  · rw [List.concat_eq_append, ← List.cons_append, ← List.append_assoc] at h1
    have := List.append_inj' h1 rfl
    cases this.2
    refine .inr ⟨⟨a, y, b', this.1, h2, fun w hw => h3 w (by simp [hw])⟩, h3 _ (by simp)⟩

/-- What the heap holds after a sequence of calls. -/
structure Inv (c : Bool) (h : List (Call × Ret)) (s : St E) : Prop where
  fresh : ∀ n, s.next ≤ n → s.lists n = none ∧ s.vouchers n = none ∧ s.strings n = none
  strs : ∀ n, StrLive h n → (s.strings n).isSome
  lists : ∀ d n, ListLive h d n → ∃ vs, vouchers c d = .ok vs ∧ s.lists n = some vs
  owns : ∀ d n, OwnLive h d n → ∃ v rest, deserialize c d = .ok (v, rest) ∧ s.vouchers n = some v
  items : ∀ l i, ItemLive h l i → ∃ vs, s.lists l = some vs ∧ i < vs.length
  read : ∀ n v, s.vouchers n = some v → ∃ d rest, deserialize c d = .ok (v, rest)
  readList : ∀ n vs, s.lists n = some vs → ∃ d, vouchers c d = .ok vs

theorem no_live {gives ends : Call × Ret → Prop} : ¬Live gives ends [] := by
  rintro ⟨a, x, b, h, _⟩
  simp at h

theorem inv_start : Inv c [] (init : St E) :=
  ⟨fun _ _ => ⟨rfl, rfl, rfl⟩, fun _ h => absurd h no_live, fun _ _ h => absurd h no_live, fun _ _ h => absurd h no_live,
    fun _ _ h => absurd h no_live, nofun, nofun⟩

/-- Nothing allocated or freed. -/
theorem inv_same {h : List (Call × Ret)} {s s' : St E} {k : Call} {r : Ret} (hi : Inv c h s)
    (h1 : s'.lists = s.lists) (h2 : s'.vouchers = s.vouchers) (h3 : s'.strings = s.strings) (h4 : s'.next = s.next)
    (hr1 : ∀ n, r ≠ .str (some n)) (hr2 : ∀ n, r ≠ .list (some n)) (hr3 : ∀ n, r ≠ .ref (.own n))
    (hr4 : ∀ l i, r = .ref (.item l i) → ∃ vs, s.lists l = some vs ∧ i < vs.length) : Inv c (h ++ [(k, r)]) s' := by
  obtain ⟨i1, i2, i3, i4, i5, i6, i7⟩ := hi
  refine ⟨by rw [h1, h2, h3, h4]; exact i1, ?_, ?_, ?_, ?_, by rw [h2]; exact i6, by rw [h1]; exact i7⟩
  · intro n hn
    rw [h3]
    rcases live_snoc hn with hn | hn
    · exact absurd hn (hr1 n)
    · exact i2 n hn.1
  · intro d n hn
    rw [h1]
    rcases live_snoc hn with hn | hn
    · exact absurd (Prod.mk.inj hn).2 (hr2 n)
    · exact i3 d n hn.1
  · intro d n hn
    rw [h2]
    rcases live_snoc hn with hn | hn
    · exact absurd (Prod.mk.inj hn).2 (hr3 n)
    · exact i4 d n hn.1
  · intro l i hn
    rw [h1]
    rcases live_snoc hn with hn | hn
    · exact hr4 l i (Prod.mk.inj hn).2
    · exact i5 l i hn.1

theorem upd_other {α : Type} {f : Nat → Option α} {n m : Nat} {a : Option α} (h : m ≠ n) : upd f n a m = f m := by
  simp [upd, h]

theorem upd_self {α : Type} {f : Nat → Option α} {n : Nat} {a : Option α} : upd f n a n = a := by
  simp [upd]

/-- A string handed out. -/
theorem inv_give {h : List (Call × Ret)} {s s1 s' : St E} {k : Call} {r : Ret} {b : Bytes} (hi : Inv c h s)
    (h1 : s1.lists = s.lists) (h2 : s1.vouchers = s.vouchers) (h3 : s1.strings = s.strings) (h4 : s1.next = s.next)
    (hg : s1.give b = .done s' r) : Inv c (h ++ [(k, r)]) s' := by
  cases hg
  obtain ⟨i1, i2, i3, i4, i5, i6, i7⟩ := hi
  have hnone : s.strings s1.next = none := (i1 _ (by omega)).2.2
  refine ⟨?_, ?_, ?_, ?_, ?_, by simpa [h2] using i6, by simpa [h1] using i7⟩
  · intro n hn
    simp only at hn
    obtain ⟨a1, a2, a3⟩ := i1 n (by omega)
    exact ⟨by rw [h1]; exact a1, by rw [h2]; exact a2, by
      show upd s1.strings s1.next (some b) n = none
      rw [upd_other (by omega), h3]; exact a3⟩
  · intro n hn
    simp only
    by_cases he : n = s1.next
    · rw [he, upd_self]; rfl
    · rw [upd_other he, h3]
      rcases live_snoc hn with hn | hn
      · exact absurd (Option.some.inj (Ret.str.inj hn)).symm he
      · exact i2 n hn.1
  · intro d n hn
    simp only [h1]
    rcases live_snoc hn with hn | hn
    · exact absurd (Prod.mk.inj hn).2 (by simp)
    · exact i3 d n hn.1
  · intro d n hn
    simp only [h2]
    rcases live_snoc hn with hn | hn
    · exact absurd (Prod.mk.inj hn).2 (by simp)
    · exact i4 d n hn.1
  · intro l i hn
    simp only [h1]
    rcases live_snoc hn with hn | hn
    · exact absurd (Prod.mk.inj hn).2 (by simp)
    · exact i5 l i hn.1

theorem with_done {s s' : St E} {p : Ref} {o : Out E} {f : Voucher E → Out E} {r : Ret} (h : s.with p o f = .done s' r) :
    (p = .null ∧ o = .done s' r) ∨ ∃ v, p ≠ .null ∧ s.at p = some v ∧ f v = .done s' r := by
  unfold St.with at h
  split at h
  · exact .inl ⟨‹_›, h⟩
  · next hp =>
    split at h
    · exact .inr ⟨_, hp, ‹_›, h⟩
    · cases h

theorem withList_done {s s' : St E} {p : Option Nat} {o : Out E} {f : Nat → List (Voucher E) → Out E} {r : Ret}
    (h : s.withList p o f = .done s' r) :
    (p = none ∧ o = .done s' r) ∨ ∃ n vs, p = some n ∧ s.lists n = some vs ∧ f n vs = .done s' r := by
  unfold St.withList at h
  split at h
  · exact .inl ⟨rfl, h⟩
  · split at h
    · exact .inr ⟨_, _, rfl, ‹_›, h⟩
    · cases h

theorem inv_call {h : List (Call × Ret)} {s s' : St E} {k : Call} {r : Ret} (hi : Inv c h s)
    (hk : call c text msg s k = .done s' r) : Inv c (h ++ [(k, r)]) s' := by
  cases k with
  | freeString p =>
    unfold call at hk
    cases p with
    | none => cases hk; exact inv_same hi rfl rfl rfl rfl nofun nofun nofun nofun
    | some n =>
      simp only at hk
      split at hk
      · cases hk
        obtain ⟨i1, i2, i3, i4, i5, i6, i7⟩ := hi
        refine ⟨?_, ?_, ?_, ?_, ?_, i6, i7⟩
        · intro m hm
          obtain ⟨a1, a2, a3⟩ := i1 m hm
          refine ⟨a1, a2, ?_⟩
          simp only [upd]
          split
          · rfl
          · exact a3
        · intro m hm
          rcases live_snoc hm with hm | hm
          · cases hm
          · simp only [upd]
            split
            · next he => exact absurd (by rw [he]) hm.2
            · exact i2 m hm.1
        · intro d m hm
          rcases live_snoc hm with hm | hm
          · cases hm
          · exact i3 d m hm.1
        · intro d m hm
          rcases live_snoc hm with hm | hm
          · cases hm
          · exact i4 d m hm.1
        · intro l i hm
          rcases live_snoc hm with hm | hm
          · cases hm
          · exact i5 l i hm.1
      · cases hk
  | lastError =>
    unfold call at hk
    simp only at hk
    split at hk
    · cases hk
    · split at hk
      · cases hk
      · exact inv_give hi rfl rfl rfl rfl hk
  | listGet l i =>
    unfold call at hk
    rcases withList_done hk with ⟨_, hk⟩ | ⟨n, vs, rfl, hl, hk⟩
    · cases hk; exact inv_same hi rfl rfl rfl rfl nofun nofun nofun nofun
    · cases hk
      refine inv_same hi rfl rfl rfl rfl nofun nofun ?_ ?_
      · intro m
        split <;> simp
      · intro l' i' he
        split at he
        · cases he; exact ⟨vs, hl, ‹_›⟩
        · cases he
  | listLen l =>
    unfold call at hk
    rcases withList_done hk with ⟨_, hk⟩ | ⟨n, vs, rfl, hl, hk⟩
    · cases hk; exact inv_same hi rfl rfl rfl rfl nofun nofun nofun nofun
    · cases hk; exact inv_same hi rfl rfl rfl rfl nofun nofun nofun nofun
  | listFree l =>
    unfold call at hk
    rcases withList_done hk with ⟨_, hk⟩ | ⟨n, vs, rfl, hl, hk⟩
    · cases hk; exact inv_same hi rfl rfl rfl rfl nofun nofun nofun nofun
    · cases hk
      obtain ⟨i1, i2, i3, i4, i5, i6, i7⟩ := hi
      refine ⟨?_, ?_, ?_, ?_, ?_, i6, ?_⟩
      · intro m hm
        obtain ⟨a1, a2, a3⟩ := i1 m hm
        refine ⟨?_, a2, a3⟩
        simp only [upd]
        split
        · rfl
        · exact a1
      · intro m hm
        rcases live_snoc hm with hm | hm
        · cases hm
        · exact i2 m hm.1
      · intro d m hm
        rcases live_snoc hm with hm | hm
        · cases hm
        · simp only [upd]
          split
          · next he => exact absurd (by rw [he]) hm.2
          · exact i3 d m hm.1
      · intro d m hm
        rcases live_snoc hm with hm | hm
        · cases hm
        · exact i4 d m hm.1
      · intro l i hm
        rcases live_snoc hm with hm | hm
        · cases hm
        · simp only [upd]
          split
          · next he => exact absurd (by rw [he]) hm.2
          · exact i5 l i hm.1
      · intro m ws hm
        simp only [upd] at hm
        split at hm
        · cases hm
        · exact i7 m ws hm
  | manyFromData d =>
    unfold call at hk
    cases d with
    | none => cases hk; exact inv_same hi rfl rfl rfl rfl nofun nofun nofun nofun
    | some b =>
      simp only at hk
      split at hk
      · next vs hv =>
        cases hk
        obtain ⟨i1, i2, i3, i4, i5, i6, i7⟩ := hi
        refine ⟨?_, ?_, ?_, ?_, ?_, i6, ?_⟩
        · intro m hm
          simp only at hm
          obtain ⟨a1, a2, a3⟩ := i1 m (by omega)
          exact ⟨by simp only; rw [upd_other (by omega)]; exact a1, a2, a3⟩
        · intro m hm
          rcases live_snoc hm with hm | hm
          · cases hm
          · exact i2 m hm.1
        · intro d m hm
          rcases live_snoc hm with hm | hm
          · cases hm
            exact ⟨vs, hv, upd_self⟩
          · obtain ⟨ws, h1, h2⟩ := i3 d m hm.1
            refine ⟨ws, h1, ?_⟩
            simp only
            rw [upd_other, h2]
            rintro rfl
            rw [(i1 _ (Nat.le_refl _)).1] at h2
            cases h2
        · intro d m hm
          rcases live_snoc hm with hm | hm
          · cases hm
          · exact i4 d m hm.1
        · intro l i hm
          rcases live_snoc hm with hm | hm
          · cases hm
          · obtain ⟨ws, h1, h2⟩ := i5 l i hm.1
            refine ⟨ws, ?_, h2⟩
            simp only
            rw [upd_other, h1]
            rintro rfl
            rw [(i1 _ (Nat.le_refl _)).1] at h1
            cases h1
        · intro m ws hm
          simp only [upd] at hm
          split at hm
          · cases hm; exact ⟨b, hv⟩
          · exact i7 m ws hm
      · cases hk; exact inv_same hi rfl rfl rfl rfl nofun nofun nofun nofun
      · cases hk
  | fromData d =>
    unfold call at hk
    cases d with
    | none => cases hk; exact inv_same hi rfl rfl rfl rfl nofun nofun nofun nofun
    | some b =>
      simp only at hk
      split at hk
      · next v rest hv =>
        cases hk
        obtain ⟨i1, i2, i3, i4, i5, i6, i7⟩ := hi
        refine ⟨?_, ?_, ?_, ?_, ?_, ?_, i7⟩
        · intro m hm
          simp only at hm
          obtain ⟨a1, a2, a3⟩ := i1 m (by omega)
          exact ⟨a1, by simp only; rw [upd_other (by omega)]; exact a2, a3⟩
        · intro m hm
          rcases live_snoc hm with hm | hm
          · cases hm
          · exact i2 m hm.1
        · intro d m hm
          rcases live_snoc hm with hm | hm
          · cases hm
          · exact i3 d m hm.1
        · intro d m hm
          rcases live_snoc hm with hm | hm
          · cases hm
            exact ⟨v, rest, hv, upd_self⟩
          · obtain ⟨w, r', h1, h2⟩ := i4 d m hm.1
            refine ⟨w, r', h1, ?_⟩
            simp only
            rw [upd_other, h2]
            rintro rfl
            rw [(i1 _ (Nat.le_refl _)).2.1] at h2
            cases h2
        · intro l i hm
          rcases live_snoc hm with hm | hm
          · cases hm
          · exact i5 l i hm.1
        · intro m w hm
          simp only [upd] at hm
          split at hm
          · cases hm; exact ⟨b, rest, hv⟩
          · exact i6 m w hm
      · cases hk; exact inv_same hi rfl rfl rfl rfl nofun nofun nofun nofun
      · cases hk
  | free p =>
    unfold call at hk
    cases p with
    | null => cases hk; exact inv_same hi rfl rfl rfl rfl nofun nofun nofun nofun
    | item l i => cases hk
    | own n =>
      simp only at hk
      split at hk
      · cases hk
        obtain ⟨i1, i2, i3, i4, i5, i6, i7⟩ := hi
        refine ⟨?_, ?_, ?_, ?_, ?_, ?_, i7⟩
        · intro m hm
          obtain ⟨a1, a2, a3⟩ := i1 m hm
          refine ⟨a1, ?_, a3⟩
          simp only [upd]
          split
          · rfl
          · exact a2
        · intro m hm
          rcases live_snoc hm with hm | hm
          · cases hm
          · exact i2 m hm.1
        · intro d m hm
          rcases live_snoc hm with hm | hm
          · cases hm
          · exact i3 d m hm.1
        · intro d m hm
          rcases live_snoc hm with hm | hm
          · cases hm
          · simp only [upd]
            split
            · next he => exact absurd (by rw [he]) hm.2
            · exact i4 d m hm.1
        · intro l i hm
          rcases live_snoc hm with hm | hm
          · cases hm
          · exact i5 l i hm.1
        · intro m w hm
          simp only [upd] at hm
          split at hm
          · cases hm
          · exact i6 m w hm
      · cases hk
  | version p =>
    unfold call at hk
    rcases with_done hk with ⟨_, hk⟩ | ⟨v, _, _, hk⟩
    · cases hk; exact inv_same hi rfl rfl rfl rfl nofun nofun nofun nofun
    · cases hk; exact inv_same hi rfl rfl rfl rfl nofun nofun nofun nofun
  | guid p =>
    unfold call at hk
    rcases with_done hk with ⟨_, hk⟩ | ⟨v, _, _, hk⟩
    · cases hk; exact inv_same hi rfl rfl rfl rfl nofun nofun nofun nofun
    · split at hk
      · cases hk
      · exact inv_give (s1 := s.clear) hi rfl rfl rfl rfl hk
  | deviceInfo p =>
    unfold call at hk
    rcases with_done hk with ⟨_, hk⟩ | ⟨v, _, _, hk⟩
    · cases hk; exact inv_same hi rfl rfl rfl rfl nofun nofun nofun nofun
    · split at hk
      · cases hk; exact inv_same hi rfl rfl rfl rfl nofun nofun nofun nofun
      · exact inv_give (s1 := s.clear) hi rfl rfl rfl rfl hk

theorem history_inv {h : List (Call × Ret)} {s : St E} (hh : History c text msg h s) : Inv c h s := by
  induction hh with
  | start => exact inv_start
  | call _ hk ih => exact inv_call ih hk

/-! ### Pointers -/

theorem ref_live {h : List (Call × Ret)} {s : St E} (hi : Inv c h s) {r : Ref} (hr : RefOk h r) (hn : r ≠ .null) :
    ∃ v, s.at r = some v := by
  cases r with
  | null => exact absurd rfl hn
  | own n =>
    obtain ⟨d, hd⟩ := hr
    obtain ⟨v, _, _, hv⟩ := hi.owns d n hd
    exact ⟨v, hv⟩
  | item l i =>
    obtain ⟨vs, h1, h2⟩ := hi.items l i hr
    exact ⟨vs[i], by simp only [St.at, h1]; exact List.getElem?_eq_getElem h2⟩

theorem list_live {h : List (Call × Ret)} {s : St E} (hi : Inv c h s) {n : Nat} (hr : ListOk h (some n)) :
    ∃ vs, s.lists n = some vs := by
  obtain ⟨d, hd⟩ := hr
  obtain ⟨vs, _, hv⟩ := hi.lists d n hd
  exact ⟨vs, hv⟩

theorem with_ne {h : List (Call × Ret)} {s : St E} (hi : Inv c h s) {r : Ref} (hr : RefOk h r) {o x : Out E}
    {f : Voucher E → Out E} (h0 : o ≠ x) (hf : ∀ v, s.at r = some v → f v ≠ x) : s.with r o f ≠ x := by
  unfold St.with
  split
  · exact h0
  · next hn =>
    obtain ⟨v, hv⟩ := ref_live hi hr hn
    rw [hv]
    exact hf v hv

theorem withList_ne {h : List (Call × Ret)} {s : St E} (hi : Inv c h s) {l : Option Nat} (hr : ListOk h l) {o x : Out E}
    {f : Nat → List (Voucher E) → Out E} (h0 : o ≠ x) (hf : ∀ n vs, f n vs ≠ x) : s.withList l o f ≠ x := by
  unfold St.withList
  cases l with
  | none => exact h0
  | some n =>
    obtain ⟨vs, hv⟩ := list_live hi hr
    simp only [hv]
    exact hf n vs

/-- **C58**, memory: no sequence of calls uses freed memory as long as pointers are used as documented. -/
theorem C58_pointers {h : List (Call × Ret)} {s : St E} (hh : History c text msg h s) (k : Call) (hv : Valid h k) :
    call c text msg s k ≠ .undefined := by
  have hi := history_inv hh
  cases k with
  | freeString p =>
    cases p with
    | none => nofun
    | some n =>
      have := hi.strs n hv
      simp [call, this]
  | lastError =>
    unfold call St.give
    simp only
    split
    · nofun
    · split <;> nofun
  | listGet l i => exact withList_ne hi hv nofun fun _ _ => nofun
  | listLen l => exact withList_ne hi hv nofun fun _ _ => nofun
  | listFree l => exact withList_ne hi hv nofun fun _ _ => nofun
  | manyFromData d =>
    unfold call
    cases d with
    | none => nofun
    | some b => simp only; split <;> nofun
  | fromData d =>
    unfold call
    cases d with
    | none => nofun
    | some b => simp only; split <;> nofun
  | free r =>
    cases r with
    | null => nofun
    | item l i => exact absurd hv id
    | own n =>
      obtain ⟨v, hv⟩ := ref_live hi (r := .own n) hv nofun
      have : (s.vouchers n).isSome := by rw [show s.vouchers n = some v from hv]; rfl
      simp [call, this]
  | version r => exact with_ne hi hv nofun fun _ _ => nofun
  | guid r => exact with_ne hi hv nofun fun _ _ => by unfold St.give; split <;> nofun
  | deviceInfo r => exact with_ne hi hv nofun fun _ _ => by unfold St.give; split <;> nofun

/-! ### Contents -/

theorem header_facts {b : Bytes} {hd : Header E} (h : Header.deserialize E c b = .ok hd) :
    deviceInfoOk hd.deviceInfo = true ∧ ∃ raw, E.decGuid raw = some hd.guid := by
  unfold Header.deserialize at h
  obtain ⟨⟨a, r⟩, _, h⟩ := Res.bind_eq_ok.1 h
  obtain ⟨ver, _, h⟩ := Res.bind_eq_ok.1 h
  obtain ⟨g, hg, h⟩ := Res.bind_eq_ok.1 h
  obtain ⟨rv, _, h⟩ := Res.bind_eq_ok.1 h
  obtain ⟨info, _, h⟩ := Res.bind_eq_ok.1 h
  split at h
  · cases h
  · next hok =>
    obtain ⟨key, _, h⟩ := Res.bind_eq_ok.1 h
    obtain ⟨ch, _, h⟩ := Res.bind_eq_ok.1 h
    cases h
    refine ⟨by simpa using hok, ?_⟩
    unfold getLeaf at hg
    split at hg
    · cases hg
    · next raw _ =>
      cases hd : E.decGuid raw with
      | none => rw [hd] at hg; cases hg
      | some g' => rw [hd] at hg; cases hg; exact ⟨raw, hd⟩

theorem info_no_zero {i : String} (h : deviceInfoOk i = true) : (0 : UInt8) ∉ i.toUTF8.toList := by
  intro h0
  obtain ⟨ch, h1, h2⟩ := Utf8.zero_mem h0
  unfold deviceInfoOk at h
  have := List.all_eq_true.1 h ch h1
  simp [h2] at this

/-- The three getters on one voucher, as specified: version, GUID in hyphenated form, device info. -/
def Shows (c : Bool) (text : Err → Bytes) (msg : Bytes) (s : St E) (r : Ref) (v : Voucher E) : Prop :=
  (∃ s', call c text msg s (.version r) = .done s' (.int v.header.version)) ∧
  (∃ s' m, call c text msg s (.guid r) = .done s' (.str (some m)) ∧
    s'.strings m = some (String.ofList (Store.guidText v.header.guid)).toUTF8.toList) ∧
  (∃ s' m, call c text msg s (.deviceInfo r) = .done s' (.str (some m)) ∧
    s'.strings m = some v.header.deviceInfo.toUTF8.toList)

theorem give_done (s : St E) (b : Bytes) : ∃ s' m, s.give b = .done s' (.str (some m)) ∧ s'.strings m = some b :=
  ⟨_, s.next, rfl, upd_self⟩

theorem shows_of {s : St E} {r : Ref} {v : Voucher E} (hn : r ≠ .null) (hv : s.at r = some v)
    (hg : v.header.guid.length = 16) (hd : deviceInfoOk v.header.deviceInfo = true) : Shows c text msg s r v := by
  refine ⟨⟨s.clear, ?_⟩, ?_, ?_⟩
  · simp [call, St.with, hn, hv]
  · simp only [call, St.with, hn, hv, if_false, hg, ne_eq, not_true_eq_false]
    exact give_done _ _
  · simp only [call, St.with, hn, hv, if_false, info_no_zero hd]
    exact give_done _ _

theorem facts_of_read (hG : ∀ b g, E.decGuid b = some g → g.length = 16) {d rest : Bytes} {v : Voucher E}
    (h : deserialize c d = .ok (v, rest)) : v.header.guid.length = 16 ∧ deviceInfoOk v.header.deviceInfo = true := by
  obtain ⟨hb, _, h2⟩ := (wf_of_deserialize h).header
  obtain ⟨h3, raw, h4⟩ := header_facts h2
  exact ⟨hG _ _ h4, h3⟩

theorem aux_mem {fuel : Nat} : ∀ {inp : Bytes} {vs : List (Voucher E)}, vouchersAux c fuel inp = .ok vs →
    ∀ v ∈ vs, ∃ d rest, deserialize c d = .ok (v, rest) := by
  induction fuel with
  | zero => intro inp vs h; cases h
  | succ fuel ih =>
    intro inp vs h v hv
    rw [vouchersAux] at h
    split at h
    · next w rest hd =>
      obtain ⟨ws, h1, h⟩ := Res.bind_eq_ok.1 h
      cases h
      rcases List.mem_cons.1 hv with rfl | hv
      · exact ⟨_, _, hd⟩
      · exact ih h1 v hv
    · cases h; cases hv
    · cases h
    · cases h

/-- **C58**, single vouchers: until it is freed, a voucher made from data shows what those data parse to. -/
theorem C58_voucher (hG : ∀ b g, E.decGuid b = some g → g.length = 16) {h : List (Call × Ret)} {s : St E}
    (hh : History c text msg h s) (d : Bytes) (n : Nat) (hl : OwnLive h d n) :
    ∃ v rest, deserialize c d = .ok (v, rest) ∧ Shows c text msg s (.own n) v := by
  obtain ⟨v, rest, h1, h2⟩ := (history_inv hh).owns d n hl
  obtain ⟨h3, h4⟩ := facts_of_read hG h1
  exact ⟨v, rest, h1, shows_of nofun h2 h3 h4⟩

/-- **C58**, lists: until it is freed, a list made from data has the length and the items those data parse to; an item
pointer is NULL exactly if the index is out of range. -/
theorem C58_list (hG : ∀ b g, E.decGuid b = some g → g.length = 16) {h : List (Call × Ret)} {s : St E}
    (hh : History c text msg h s) (d : Bytes) (n : Nat) (hl : ListLive h d n) :
    ∃ vs, vouchers c d = .ok vs ∧ (∃ s', call c text msg s (.listLen (some n)) = .done s' (.len vs.length)) ∧
      (∀ i, vs.length ≤ i → ∃ s', call c text msg s (.listGet (some n) i) = .done s' (.ref .null)) ∧
      ∀ i (hi : i < vs.length), ∃ s' r, call c text msg s (.listGet (some n) i) = .done s' (.ref r) ∧ r ≠ .null ∧
        Shows c text msg s' r vs[i] := by
  obtain ⟨vs, h1, h2⟩ := (history_inv hh).lists d n hl
  refine ⟨vs, h1, ⟨s.clear, by simp [call, St.withList, h2]⟩, fun i hi => ⟨s.clear, ?_⟩, fun i hi => ?_⟩
  · simp [call, St.withList, h2, Nat.not_lt.2 hi]
  · obtain ⟨d', rest, hd⟩ := aux_mem h1 vs[i] (List.getElem_mem hi)
    obtain ⟨h3, h4⟩ := facts_of_read hG hd
    refine ⟨s.clear, .item n i, by simp [call, St.withList, h2, hi], nofun, shows_of nofun ?_ h3 h4⟩
    simp only [St.at, St.clear, h2]
    exact List.getElem?_eq_getElem hi

/-! ### Errors and aborts -/

/-- Specification: calls which fail with an error message. -/
def Reports : Call → Ret → Prop
  | .manyFromData _, r => r = .list none
  | .fromData _, r => r = .ref .null
  | .listGet l _, _ => l = none
  | .listLen l, _ => l = none
  | .listFree l, _ => l = none
  | .deviceInfo v, r => v ≠ .null ∧ r = .str none
  | _, _ => False

theorem err_iff {s s' : St E} {k : Call} {r : Ret} (hne : k ≠ .lastError) (hk : call c text msg s k = .done s' r) :
    (Reports k r ∧ ∃ e, s'.err = some e ∧ (e = msg ∨ ∃ x, e = text x)) ∨ (¬Reports k r ∧ s'.err = none) := by
  cases k with
  | freeString p =>
    refine .inr ⟨id, ?_⟩
    unfold call at hk
    cases p with
    | none => cases hk; rfl
    | some n =>
      simp only at hk
      split at hk <;> cases hk
      rfl
  | lastError => exact absurd rfl hne
  | listGet l i =>
    unfold call at hk
    rcases withList_done hk with ⟨rfl, hk⟩ | ⟨n, vs, rfl, hl, hk⟩ <;> cases hk
    · exact .inl ⟨rfl, msg, rfl, .inl rfl⟩
    · exact .inr ⟨nofun, rfl⟩
  | listLen l =>
    unfold call at hk
    rcases withList_done hk with ⟨rfl, hk⟩ | ⟨n, vs, rfl, hl, hk⟩ <;> cases hk
    · exact .inl ⟨rfl, msg, rfl, .inl rfl⟩
    · exact .inr ⟨nofun, rfl⟩
  | listFree l =>
    unfold call at hk
    rcases withList_done hk with ⟨rfl, hk⟩ | ⟨n, vs, rfl, hl, hk⟩ <;> cases hk
    · exact .inl ⟨rfl, msg, rfl, .inl rfl⟩
    · exact .inr ⟨nofun, rfl⟩
  | manyFromData d =>
    unfold call at hk
    cases d with
    | none => cases hk; exact .inl ⟨rfl, msg, rfl, .inl rfl⟩
    | some b =>
      simp only at hk
      split at hk <;> cases hk
      · exact .inr ⟨nofun, rfl⟩
      · exact .inl ⟨rfl, _, rfl, .inr ⟨_, rfl⟩⟩
  | fromData d =>
    unfold call at hk
    cases d with
    | none => cases hk; exact .inl ⟨rfl, msg, rfl, .inl rfl⟩
    | some b =>
      simp only at hk
      split at hk <;> cases hk
      · exact .inr ⟨nofun, rfl⟩
      · exact .inl ⟨rfl, _, rfl, .inr ⟨_, rfl⟩⟩
  | free p =>
    refine .inr ⟨id, ?_⟩
    unfold call at hk
    cases p with
    | null => cases hk; rfl
    | item l i => cases hk
    | own n =>
      simp only at hk
      split at hk <;> cases hk
      rfl
  | version p =>
    refine .inr ⟨id, ?_⟩
    unfold call at hk
    rcases with_done hk with ⟨_, hk⟩ | ⟨v, _, _, hk⟩ <;> cases hk <;> rfl
  | guid p =>
    refine .inr ⟨id, ?_⟩
    unfold call at hk
    rcases with_done hk with ⟨_, hk⟩ | ⟨v, _, _, hk⟩
    · cases hk; rfl
    · split at hk <;> cases hk
      rfl
  | deviceInfo p =>
    unfold call at hk
    rcases with_done hk with ⟨hp, hk⟩ | ⟨v, hp, _, hk⟩
    · cases hk; exact .inr ⟨fun h => h.1 hp, rfl⟩
    · split at hk <;> cases hk
      · exact .inl ⟨⟨hp, rfl⟩, msg, rfl, .inl rfl⟩
      · exact .inr ⟨nofun, rfl⟩

/-- **C58**, the last error. After a call that fails with a message, asking for it gives the message; after any other
call it aborts the process, where the claim demands NULL. -/
theorem C58_last_error_partial (hm : (0 : UInt8) ∉ msg) (ht : ∀ e, (0 : UInt8) ∉ text e) {s s' : St E} (k : Call) (r : Ret)
    (hne : k ≠ .lastError) (hk : call c text msg s k = .done s' r) :
    (Reports k r → ∃ s'' n e, call c text msg s' .lastError = .done s'' (.str (some n)) ∧ s''.strings n = some e ∧
      (e = msg ∨ ∃ x, e = text x)) ∧
    (¬Reports k r → call c text msg s' .lastError = .abort) := by
  rcases err_iff hne hk with ⟨h1, e, h2, h3⟩ | ⟨h1, h2⟩
  · refine ⟨fun _ => ?_, fun h => absurd h1 h⟩
    have h0 : (0 : UInt8) ∉ e := by
      rcases h3 with rfl | ⟨x, rfl⟩
      · exact hm
      · exact ht x
    simp only [call, h2, h0, if_false]
    obtain ⟨s'', n, g1, g2⟩ := give_done s' e
    exact ⟨s'', n, e, g1, g2, h3⟩
  · exact ⟨fun h => absurd h h1, fun _ => by simp [call, h2]⟩

/-- Parsing failures: the message is that of the failure. -/
theorem C58_parse_error {s : St E} (d : Bytes) (e : Err) (hd : deserialize (E := E) c d = .err e) :
    ∃ s', call c text msg s (.fromData (some d)) = .done s' (.ref .null) ∧ s'.err = some (text e) :=
  ⟨_, by simp only [call, hd]; rfl, rfl⟩

/-- **C58** is violated: asking for the last error aborts at the start, and after a successful call. -/
theorem C58_last_error_violated : call c text msg (init : St E) .lastError = .abort ∧
    ∃ s' : St E, History c text msg [(.freeString none, .void)] s' ∧ call c text msg s' .lastError = .abort :=
  ⟨rfl, _, .call .start rfl, rfl⟩

/-- **C58** is violated: the getters refuse NULL with the documented error value but, contrary to their documentation, without
setting the error, so that asking for it aborts. -/
theorem C58_null_violated : ∃ s' : St E, History c text msg [(.version .null, .int (-1))] s' ∧
    call c text msg s' .lastError = .abort :=
  ⟨_, .call .start rfl, rfl⟩

/-- **C58** is violated: data which end inside a length field abort the process (C04). -/
theorem C58_data_violated : call c text msg (init : St E) (.fromData (some [0x98])) = .abort := rfl

theorem err_known {h : List (Call × Ret)} {s : St E} (hh : History c text msg h s) :
    (∀ e, s.err = some e → e = msg ∨ ∃ x, e = text x) ∧
    (∀ a k r b, h = a ++ (k, r) :: b → Reports k r → (∀ y ∈ b, y.1 = .lastError) → s.err.isSome) := by
  induction hh with
  | start => exact ⟨nofun, fun a k r b h => by simp at h⟩
  | @call h s s' k r hs hk ih =>
    by_cases hne : k = .lastError
    · subst hne
      have herr : s'.err = s.err := by
        unfold call St.give at hk
        simp only at hk
        split at hk
        · cases hk
        · split at hk <;> cases hk
          next he _ => rw [he]
      refine ⟨by rw [herr]; exact ih.1, ?_⟩
      intro a k' r' b he hr hb
      rw [herr]
      rcases List.eq_nil_or_concat b with rfl | ⟨b', z, rfl⟩
      · have := List.append_inj' he rfl
        cases this.2
        exact absurd hr id
      · rw [List.concat_eq_append, ← List.cons_append, ← List.append_assoc] at he
        have := List.append_inj' he rfl
        exact ih.2 a k' r' b' this.1 hr fun y hy => hb y (by simp [hy])
    · rcases err_iff hne hk with ⟨h1, e, h2, h3⟩ | ⟨h1, h2⟩
      · refine ⟨fun e' he' => ?_, fun _ _ _ _ _ _ _ => by rw [h2]; rfl⟩
        rw [h2] at he'
        cases he'
        exact h3
      · refine ⟨fun e' he' => (nomatch h2.symm.trans he'), ?_⟩
        intro a k' r' b he hr hb
        rcases List.eq_nil_or_concat b with rfl | ⟨b', z, rfl⟩
        · have := List.append_inj' he rfl
          cases this.2
          exact absurd hr h1
        · rw [List.concat_eq_append, ← List.cons_append, ← List.append_assoc] at he
          have := List.append_inj' he rfl
          cases this.2
          exact absurd (hb (k, r) (by rw [List.concat_eq_append]; simp)) hne

/-- **C58**, what holds: with valid pointers no call aborts, except asking for the last error when the last other call did
not fail with a message, and parsing data on which the CBOR reader aborts (C04). -/
theorem C58_no_abort_partial (hG : ∀ b g, E.decGuid b = some g → g.length = 16) (hm : (0 : UInt8) ∉ msg)
    (ht : ∀ e, (0 : UInt8) ∉ text e) {h : List (Call × Ret)} {s : St E} (hh : History c text msg h s) (k : Call)
    (hv : Valid h k)
    (herr : k = .lastError → ∃ a k' r' b, h = a ++ (k', r') :: b ∧ Reports k' r' ∧ ∀ y ∈ b, y.1 = .lastError)
    (h1 : ∀ d, k = .fromData (some d) → deserialize (E := E) c d ≠ .panic)
    (h2 : ∀ d, k = .manyFromData (some d) → vouchers (E := E) c d ≠ .panic) :
    ∃ s' r, call c text msg s k = .done s' r := by
  cases hc : call c text msg s k with
  | done s' r => exact ⟨s', r, rfl⟩
  | undefined => exact absurd hc (C58_pointers hh k hv)
  | abort =>
    exfalso
    have hi := history_inv hh
    have good : ∀ p v, s.at p = some v → v.header.guid.length = 16 := by
      intro p v hp
      cases p with
      | null => cases hp
      | own n =>
        obtain ⟨d, rest, hd⟩ := hi.read n v hp
        exact (facts_of_read hG hd).1
      | item l i =>
        simp only [St.at] at hp
        cases hl : s.lists l with
        | none => rw [hl] at hp; cases hp
        | some vs =>
          rw [hl] at hp
          obtain ⟨d, hd⟩ := hi.readList l vs hl
          obtain ⟨d', rest, hd'⟩ := aux_mem hd v (List.mem_of_getElem? hp)
          exact (facts_of_read hG hd').1
    cases k with
    | freeString p =>
      unfold call at hc
      cases p with
      | none => cases hc
      | some n => simp only at hc; split at hc <;> cases hc
    | lastError =>
      obtain ⟨a, k', r', b, e1, e2, e3⟩ := herr rfl
      have hsome := (err_known hh).2 a k' r' b e1 e2 e3
      unfold call St.give at hc
      simp only at hc
      split at hc
      · next hn => rw [hn] at hsome; cases hsome
      · next e he =>
        split at hc
        · next h0 =>
          rcases (err_known hh).1 e he with rfl | ⟨x, rfl⟩
          · exact hm h0
          · exact ht x h0
        · cases hc
    | listGet l i => exact (show call c text msg s (.listGet l i) ≠ .abort from withList_ne hi hv nofun fun _ _ => nofun) hc
    | listLen l => exact (show call c text msg s (.listLen l) ≠ .abort from withList_ne hi hv nofun fun _ _ => nofun) hc
    | listFree l => exact (show call c text msg s (.listFree l) ≠ .abort from withList_ne hi hv nofun fun _ _ => nofun) hc
    | manyFromData d =>
      unfold call at hc
      cases d with
      | none => cases hc
      | some b =>
        simp only at hc
        split at hc <;> first | (cases hc; done) | exact h2 b rfl ‹_›
    | fromData d =>
      unfold call at hc
      cases d with
      | none => cases hc
      | some b =>
        simp only at hc
        split at hc <;> first | (cases hc; done) | exact h1 b rfl ‹_›
    | free p =>
      unfold call at hc
      cases p with
      | null => cases hc
      | item l i => cases hc
      | own n => simp only at hc; split at hc <;> cases hc
    | version p => exact (show call c text msg s (.version p) ≠ .abort from with_ne hi hv nofun fun _ _ => nofun) hc
    | guid p =>
      refine (show call c text msg s (.guid p) ≠ .abort from with_ne hi hv nofun fun v hp => ?_) hc
      rw [if_neg (by simp [good p v hp])]
      nofun
    | deviceInfo p =>
      exact (show call c text msg s (.deviceInfo p) ≠ .abort from with_ne hi hv nofun fun _ _ => by unfold St.give; split <;> nofun) hc

/-! ### C05 for vouchers -/

theorem aux_concat (fuel : Nat) : ∀ (vs : List (Voucher E)) (bss : List Bytes),
    List.Forall₂ (fun v bs => serialize v = .ok bs) vs bss → (∀ v ∈ vs, Rewritable c v) → bss.flatten.length < fuel →
    vouchersAux c fuel bss.flatten = .ok vs := by
  induction fuel with
  | zero => intro vs bss _ _ h; omega
  | succ fuel ih =>
    intro vs bss hf hw hl
    cases hf with
    | nil => rfl
    | @cons v bs vs bss hv hf =>
      obtain ⟨bs', h1, h2⟩ := rewritable_roundtrip (hw v (by simp)) bss.flatten
      rw [hv] at h1
      cases h1
      have : 1 ≤ bs.length := by
        have := OwnerTool.serialize_length (a := v.contents) (bs := bs) (liftP_eq_ok.1 hv)
        omega
      simp only [List.flatten_cons, List.length_append] at hl
      rw [List.flatten_cons, vouchersAux, h2]
      simp only
      rw [ih vs bss hf (fun v h => hw v (by simp [h])) (by omega)]
      rfl

/-- **C05**: any number of written vouchers, one after the other, are read back in order. -/
theorem C05_vouchers_concat (vs : List (Voucher E)) (bss : List Bytes)
    (hs : List.Forall₂ (fun v bs => serialize v = .ok bs) vs bss) (hw : ∀ v ∈ vs, Rewritable c v) :
    vouchers c bss.flatten = .ok vs :=
  aux_concat _ vs bss hs hw (Nat.lt_succ_self _)

/-- An array of five items with an empty header. -/
def hollow : Bytes :=
  [0x85] ++ Toy.env.encVersion 101 ++ Toy.env.encBytes [] ++ [0x00, 0x00, 0x80]

/-- **C05** is violated: an invalid voucher, one with an empty header, ends the reading without an error, and what follows
is dropped. -/
theorem C05_hollow_violated (rest : Bytes) : vouchers (E := Toy.env) c (hollow ++ rest) = .ok [] := by
  unfold vouchers
  rw [vouchersAux]
  have h1 : ∃ a, Cbor.deserialize c (some 5) hollow = .ok (a, []) ∧
      fromParsedArray (E := Toy.env) c a = .err (.parse .noData) :=
    ⟨⟨none, [Toy.env.encVersion 101, Toy.env.encBytes [], [0], [0], [0x80]]⟩, by cases c <;> decide +kernel, by
      have e1 : getLeaf Toy.env.decVersion ⟨none, [Toy.env.encVersion 101, Toy.env.encBytes [], [0], [0], [0x80]]⟩ 0 =
          .ok 101 := by
        have := Toy.leafLaws.version_dec 101 (.inr rfl)
        show ofOpt Err.serde (Toy.env.decVersion (Toy.env.encVersion 101)) = _
        rw [this]
        rfl
      have e2 : getLeaf Toy.env.decBytes ⟨none, [Toy.env.encVersion 101, Toy.env.encBytes [], [0], [0], [0x80]]⟩ 1 =
          .ok [] := by
        have := Toy.codecLaws.bytes_dec [] (by decide)
        show ofOpt Err.serde (Toy.env.decBytes (Toy.env.encBytes [])) = _
        rw [this]
        rfl
      unfold fromParsedArray
      rw [e1, Res.bind_ok, e2, Res.bind_ok]
      rfl⟩
  obtain ⟨a, h1, h2⟩ := h1
  have h3 : deserialize (E := Toy.env) c (hollow ++ rest) = .err (.parse .noData) := by
    unfold deserialize
    rw [Verif.Cbor.C02_parse_prefix_free c (some 5) hollow rest [] a h1]
    simp only [h2]
    rfl
  rw [h3]

theorem parsed_noData {a : Cbor.ParsedArray} (h : fromParsedArray (E := E) c a = .err (.parse .noData)) :
    getLeaf E.decBytes a 1 = .ok [] ∨ getRaw a 4 = .ok [] := by
  have noLeaf : ∀ {α : Type} {dec : Bytes → Option α} {a : Cbor.ParsedArray} {n : Nat},
      getLeaf dec a n ≠ .err (.parse .noData) := by
    intro α dec a n h
    unfold getLeaf at h
    split at h
    · cases h
    · unfold ofOpt at h
      split at h <;> cases h
  have noArr : ∀ {n : Option Nat} {b : Bytes}, liftP (Cbor.deserialize c n b) = .err (.parse .noData) → b = [] := by
    intro n b h
    cases b with
    | nil => rfl
    | cons x r =>
      exfalso
      cases hd : Cbor.deserialize c n (x :: r) with
      | ok v => rw [hd] at h; cases h
      | err e => rw [hd] at h; cases h; exact Cbor.deserialize_cons_not_noData hd
      | panic => rw [hd] at h; cases h
  unfold fromParsedArray at h
  rcases Res.bind_eq_err.1 h with h | ⟨ver, _, h⟩
  · exact absurd h noLeaf
  rcases Res.bind_eq_err.1 h with h | ⟨hb, h1, h⟩
  · exact absurd h noLeaf
  rcases Res.bind_eq_err.1 h with h | ⟨hd, h2, h⟩
  · left
    unfold Header.deserialize at h
    rcases Res.bind_eq_err.1 h with h | ⟨_, _, h⟩
    · rw [h1, noArr h]
    rcases Res.bind_eq_err.1 h with h | ⟨_, _, h⟩
    · exact absurd h noLeaf
    rcases Res.bind_eq_err.1 h with h | ⟨_, _, h⟩
    · exact absurd h noLeaf
    rcases Res.bind_eq_err.1 h with h | ⟨_, _, h⟩
    · exact absurd h noLeaf
    rcases Res.bind_eq_err.1 h with h | ⟨_, _, h⟩
    · exact absurd h noLeaf
    split at h
    · cases h
    rcases Res.bind_eq_err.1 h with h | ⟨_, _, h⟩
    · exact absurd h noLeaf
    rcases Res.bind_eq_err.1 h with h | ⟨_, _, h⟩
    · exact absurd h noLeaf
    cases h
  rcases Res.bind_eq_err.1 h with h | ⟨_, _, h⟩
  · exact absurd h noLeaf
  rcases Res.bind_eq_err.1 h with h | ⟨_, _, h⟩
  · exact absurd h noLeaf
  rcases Res.bind_eq_err.1 h with h | ⟨er, h3, h⟩
  · unfold getRaw at h
    split at h <;> cases h
  rcases Res.bind_eq_err.1 h with h | ⟨_, _, h⟩
  · right; rw [h3, noArr h]
  cases h

/-- **C05**, what holds: if reading vouchers succeeds, the data are the vouchers returned, one after the other, followed by
nothing, or by an array of five items whose header (or entries) is empty. -/
theorem C05_vouchers_sound_partial (inp : Bytes) (vs : List (Voucher E)) (h : vouchers c inp = .ok vs) :
    ∃ bss rest, inp = bss.flatten ++ rest ∧ List.Forall₂ (fun v bs => deserialize c bs = .ok (v, [])) vs bss ∧
      (rest = [] ∨ ∃ a r, Cbor.deserialize c (some 5) rest = .ok (a, r) ∧
        (getLeaf E.decBytes a 1 = .ok [] ∨ getRaw a 4 = .ok [])) := by
  have key : ∀ fuel (inp : Bytes) (vs : List (Voucher E)), vouchersAux c fuel inp = .ok vs →
      ∃ bss rest, inp = bss.flatten ++ rest ∧ List.Forall₂ (fun v bs => deserialize c bs = .ok (v, [])) vs bss ∧
      (rest = [] ∨ ∃ a r, Cbor.deserialize c (some 5) rest = .ok (a, r) ∧
        (getLeaf E.decBytes a 1 = .ok [] ∨ getRaw a 4 = .ok [])) := by
    intro fuel
    induction fuel with
    | zero => intro inp vs h; cases h
    | succ fuel ih =>
      intro inp vs h
      rw [vouchersAux] at h
      split at h
      · next v rest hd =>
        obtain ⟨ws, h1, h⟩ := Res.bind_eq_ok.1 h
        cases h
        obtain ⟨bss, last, rfl, h3, h4⟩ := ih rest ws h1
        unfold deserialize at hd
        split at hd
        · cases hd
        · cases hd
        · cases hd
        · next a r ha =>
          obtain ⟨v', hv, hd⟩ := Res.bind_eq_ok.1 hd
          cases hd
          obtain ⟨bs, rfl⟩ := Cbor.deserialize_suffix ha
          refine ⟨bs :: bss, last, by simp, .cons ?_ h3, h4⟩
          unfold deserialize
          rw [Cbor.deserialize_shrink ha]
          simp only [hv]
          rfl
      · next hd =>
        cases h
        refine ⟨[], inp, by simp, .nil, ?_⟩
        unfold deserialize at hd
        split at hd
        · cases hd
        · next e _ he =>
          left
          cases hd
          cases inp with
          | nil => rfl
          | cons x r => exact absurd he Cbor.deserialize_cons_not_noData
        · cases hd
        · next a r ha =>
          right
          rcases Res.bind_eq_err.1 hd with hd | ⟨_, _, hd⟩
          · exact ⟨a, r, ha, parsed_noData hd⟩
          · cases hd
      · cases h
      · cases h
  exact key _ inp vs h

/-! ### A concrete sequence of calls -/

/-- Run calls, as long as they return. -/
def runCalls (c : Bool) (s : St E) : List Call → Option (St E × List Ret)
  | [] => some (s, [])
  | k :: ks => match call c (fun _ => "failed".toUTF8.toList) "null".toUTF8.toList s k with
    | .done s' r => (runCalls c s' ks).map fun (s'', rs) => (s'', r :: rs)
    | _ => none

/-- Bytes of the voucher of the examples in `Props/Voucher`. -/
def exBytes : Bytes :=
  match Voucher.new exHeader ⟨.hmacSha256, List.replicate 32 2⟩ (some (9 : UInt8)) with
  | .ok v => match Voucher.serialize v with
    | .ok b => b
    | _ => []
  | _ => []

/-- Two vouchers read as a list, shown and freed, then a failing call and its message. -/
example : (runCalls (E := Toy.env) true init [.manyFromData (some (exBytes ++ exBytes)), .listLen (some 0), .listGet (some 0) 1,
      .listGet (some 0) 2, .version (.item 0 1), .deviceInfo (.item 0 1), .listFree (some 0), .freeString (some 1),
      .fromData (some [0x81]), .lastError]).map (·.2) =
    some [.list (some 0), .len 2, .ref (.item 0 1), .ref .null, .int 101, .str (some 1), .void, .void, .ref .null,
      .str (some 2)] := by decide +kernel

end Verif.CApi

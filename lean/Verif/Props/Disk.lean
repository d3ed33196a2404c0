import Verif.Spec.Disk
/-!
Replacing the binding of a disk (C74).
-/
namespace Verif.Disk
open Verif

/-! ### What the queries tell -/

theorem digits_decimal (n : Nat) : Text.Digits (decimal n) n := by
  induction n using Nat.strongRecOn with
  | _ n ih =>
    unfold decimal
    split
    · next h => exact .one h
    · next h =>
      have := Text.Digits.snoc (ih (n / 10) (by omega)) (show n % 10 < 10 by omega)
      rwa [show 10 * (n / 10) + n % 10 = n by omega] at this

theorem number_decimal {n : Nat} (h : n < 2 ^ 32) : Text.NumberOf (decimal n) n := ⟨h, _, digits_decimal n, .inl rfl⟩

theorem get_key {o1 o2 : List (List Char × Json)} {j : Json} {k : List Char} (h : ∀ x ∈ o1 ++ o2, x.1 ≠ k) :
    Json.get (o1 ++ (k, j) :: o2) k = some j := by
  unfold Json.get
  rw [List.find?_append, List.find?_eq_none.2]
  · simp
  · intro x hx
    have := h x (List.mem_append_left _ hx)
    simpa using this

theorem firstSlot_describes {j : Json} {b : Binding} (h : Describes j b) : firstSlot j = b.slots.head? := by
  obtain ⟨o1, o2, ks, rfl, ho, hn⟩ := h
  unfold firstSlot
  simp only [get_key ho]
  generalize b.slots = l at hn
  cases hn with
  | nil => rfl
  | cons h _ => exact (Text.parseU32_iff _ _).2 h

theorem step_status {w w' : World} {i : Nat} {a : Option TokenInfo} (h : Step w ⟨.tokenStatus i, a⟩ w') :
    w' = w ∧ ∀ info, a = some info → (info = .externalUnknown clevis ↔ (w.mem.tokens i).isSome) := by
  cases h with
  | status h => exact ⟨rfl, fun info e => by cases e; exact h⟩
  | statusFails => exact ⟨rfl, fun info e => by cases e⟩

theorem step_json {w w' : World} {i : Nat} {a : Option Json} (h : Step w ⟨.tokenJson i, a⟩ w') :
    w' = w ∧ ∀ j b, a = some j → w.mem.tokens i = some b → Describes j b := by
  cases h with
  | json hb h => exact ⟨rfl, fun j b e e' => by cases e; rw [hb] at e'; cases e'; exact h⟩
  | jsonOther hb => exact ⟨rfl, fun j b e e' => by rw [hb] at e'; cases e'⟩
  | jsonFails => exact ⟨rfl, fun j b e => by cases e⟩

theorem step_path {w w' : World} {a : Option (List Char)} (h : Step w ⟨.path, a⟩ w') :
    w' = w ∧ ∀ p, a = some p → p = w.path := by
  cases h with
  | path => exact ⟨rfl, fun p e => by cases e; rfl⟩
  | pathFails => exact ⟨rfl, fun p e => by cases e⟩

theorem step_pass {w w' : World} {s : Nat} {a : Option Bytes}
    (h : Step w ⟨.run clevis ["luks".toList, "pass".toList, "-d".toList, w.path, "-s".toList, decimal s] none, a⟩ w') :
    w' = w ∧ ∀ p, a = some p → ∃ i b s', w.disk.tokens i = some b ∧ s' ∈ b.slots ∧ p = b.pass := by
  generalize hd : decimal s = d at h
  generalize hc : clevis = c at h
  cases h with
  | pass hb hs ht => exact ⟨rfl, fun p e => by cases e; exact ⟨_, _, _, hb, hs, rfl⟩⟩
  | passFails => exact ⟨rfl, fun p e => by cases e⟩

/-- What the search for the token ends with. -/
def Found (h : Header) (l : List Nat) (a x : Option Nat) : Prop :=
  (x = a ∧ ∀ j ∈ l, h.tokens j = none) ∨
  (a = none ∧ ∃ i ∈ l, x = some i ∧ (h.tokens i).isSome ∧ ∀ j ∈ l, (h.tokens j).isSome → j = i)

theorem findToken_hoare {w0 : World} (l : List Nat) (a : Option Nat) :
    Hoare Step (fun w => w = w0) (fun w => w = w0) (findToken l a)
      (fun r w => w = w0 ∧ ∀ x, r = .ok x → Found w0.mem l a x) := by
  induction l generalizing a with
  | nil => exact Hoare.ret (fun _ h => h) (fun s h => ⟨h, fun x e => .inl ⟨(Res.ok.inj e).symm, nofun⟩⟩)
  | cons i l ih =>
    refine Hoare.bind (M := fun b w => w = w0 ∧ ∀ info, b = some info → (info = .externalUnknown clevis ↔ (w0.mem.tokens i).isSome))
      ?_ (fun _ _ h => h.1) fun b => ?_
    · refine Hoare.ask (fun _ h => h) (fun r s h => ?_) (fun s b s' h1 h2 => ?_)
      · cases r <;> exact h.1
      · subst h1
        exact step_status h2
    · refine Hoare.bind (M := fun info w => w = w0 ∧ (info = .externalUnknown clevis ↔ (w0.mem.tokens i).isSome)) ?_
        (fun _ _ h => h.1) fun info => ?_
      · exact Hoare.some? (fun _ h => h.1) (fun s info e h => ⟨h.1, h.2 _ e⟩) (fun s _ h => ⟨h.1, nofun⟩)
      · split
        · next hi =>
          cases a with
          | some a => exact Hoare.fail (fun _ h => h.1) (fun _ h => ⟨h.1, nofun⟩)
          | none =>
            intro s t s' hs hr
            have h1 := ih (some i) s t s' hs.1 hr
            refine ⟨h1.1, fun r he => ⟨(h1.2 r he).1, fun x e => ?_⟩⟩
            rcases (h1.2 r he).2 x e with ⟨rfl, h3⟩ | ⟨h3, _⟩
            · exact .inr ⟨rfl, i, List.mem_cons_self, rfl, hs.2.1 hi, fun j hj hjs => by
                rcases List.mem_cons.1 hj with rfl | hj
                · rfl
                · rw [h3 j hj] at hjs; cases hjs⟩
            · cases h3
        · next hi =>
          intro s t s' hs hr
          have hn : w0.mem.tokens i = none := by
            cases hx : w0.mem.tokens i with
            | none => rfl
            | some b => exact absurd (hs.2.2 (by rw [hx]; rfl)) hi
          have h1 := ih a s t s' hs.1 hr
          refine ⟨h1.1, fun r he => ⟨(h1.2 r he).1, fun x e => ?_⟩⟩
          rcases (h1.2 r he).2 x e with ⟨h2, h3⟩ | ⟨h2, k, hk, h3, h4, h5⟩
          · exact .inl ⟨h2, fun j hj => (List.mem_cons.1 hj).elim (fun e => e ▸ hn) (h3 j)⟩
          · exact .inr ⟨h2, k, List.mem_cons_of_mem _ hk, h3, h4, fun j hj hjs => by
              rcases List.mem_cons.1 hj with rfl | hj
              · rw [hn] at hjs; cases hjs
              · exact h5 j hj hjs⟩

/-- The binding that is going to be replaced: the only token of Clevis among the first ten, with its first keyslot. -/
def Old (h : Header) (i s : Nat) (b : Binding) : Prop :=
  i < 10 ∧ h.tokens i = some b ∧ (∀ j < 10, (h.tokens j).isSome → j = i) ∧ b.slots.head? = some s

theorem mid_I {w0 : World} {α β : Type} {M : α → World → Prop} {Q : Res Err β → World → Prop} (hM : ∀ a w, M a w → w = w0)
    (hQ : ∀ r w, Q r w → w = w0) (r : Res Err α) (w : World) (h : Hoare.Mid M Q r w) : w = w0 := by
  cases r with
  | ok a => exact hM a w h
  | err e => exact hQ _ w h
  | panic => exact hQ _ w h

theorem getPass_hoare {w0 : World} (hm : w0.mem = w0.disk) :
    Hoare Step (fun w => w = w0) (fun w => w = w0) getClevisTokenSlotPass
      (fun r w => w = w0 ∧ ∀ x, r = .ok x → ∃ b, Old w0.disk x.1 x.2.1 b) := by
  refine Hoare.bind (M := fun i w => w = w0 ∧ i < 10 ∧ (w0.disk.tokens i).isSome ∧ ∀ j < 10, (w0.disk.tokens j).isSome → j = i)
    ?_ (fun _ _ h => h.1) fun i => ?_
  · refine Hoare.bind (M := fun x w => w = w0 ∧ Found w0.mem (List.range 10) none x) ?_ ?_ fun x => ?_
    · refine (findToken_hoare _ _).post fun r w h => ?_
      cases r with
      | ok x => exact ⟨h.1, h.2 x rfl⟩
      | err e => exact ⟨h.1, nofun⟩
      | panic => exact ⟨h.1, nofun⟩
    · exact fun r w h => mid_I (fun _ _ h => h.1) (fun _ _ h => h.1) r w h
    · refine Hoare.some? (fun _ h => h.1) (fun s i e h => ?_) (fun s _ h => ⟨h.1, nofun⟩)
      subst e
      rcases h.2 with ⟨h2, _⟩ | ⟨_, k, hk, h3, h4, h5⟩
      · cases h2
      · cases h3
        rw [hm] at h4 h5
        exact ⟨h.1, List.mem_range.1 hk, h4, fun j hj => h5 j (List.mem_range.2 hj)⟩
  refine Hoare.bind (M := fun s w => w = w0 ∧ ∃ b, Old w0.disk i s b) ?_ (fun _ _ h => h.1) fun s => ?_
  · refine Hoare.bind (M := fun a w => w = w0 ∧ ∃ b, w0.disk.tokens i = some b ∧ i < 10 ∧
        (∀ j < 10, (w0.disk.tokens j).isSome → j = i) ∧ ∀ j, a = some j → Describes j b) ?_ ?_ fun a => ?_
    · refine Hoare.ask (fun _ h => h.1) (fun r s h => mid_I (fun _ _ h => h.1) (mid_I (fun _ _ h => h.1) fun _ _ h => h.1) r s h)
        fun s a s' h1 h2 => ?_
      obtain ⟨rfl, h10, hs, hu⟩ := h1
      obtain ⟨b, hb⟩ := Option.isSome_iff_exists.1 hs
      obtain ⟨rfl, h3⟩ := step_json h2
      exact ⟨rfl, b, hb, h10, hu, fun j e => h3 j b e (hm ▸ hb)⟩
    · exact fun r w h => mid_I (fun _ _ h => h.1) (fun _ _ h => h.1) r w h
    · refine Hoare.bind (M := fun j w => w = w0 ∧ ∃ b, w0.disk.tokens i = some b ∧ i < 10 ∧
        (∀ j < 10, (w0.disk.tokens j).isSome → j = i) ∧ Describes j b) ?_ ?_ fun j => ?_
      · refine Hoare.some? (fun _ h => h.1) (fun s j e h => ?_) (fun s _ h => ⟨h.1, nofun⟩)
        obtain ⟨h1, b, hb, h10, hu, hd⟩ := h
        exact ⟨h1, b, hb, h10, hu, hd _ e⟩
      · exact fun r w h => mid_I (fun _ _ h => h.1) (fun _ _ h => h.1) r w h
      · refine Hoare.some? (fun _ h => h.1) (fun s x e h => ?_) (fun s _ h => ⟨h.1, nofun⟩)
        obtain ⟨h1, b, hb, h10, hu, hd⟩ := h
        rw [firstSlot_describes hd] at e
        exact ⟨h1, b, h10, hb, hu, e⟩
  refine Hoare.bind (M := fun p w => w = w0 ∧ p = w0.path ∧ ∃ b, Old w0.disk i s b) ?_ (fun _ _ h => h.1) fun p => ?_
  · refine Hoare.bind (M := fun a w => w = w0 ∧ (∀ p, a = some p → p = w0.path) ∧ ∃ b, Old w0.disk i s b) ?_ ?_ fun a => ?_
    · refine Hoare.ask (fun _ h => h.1) (fun r s h => mid_I (fun _ _ h => h.1) (mid_I (fun _ _ h => h.1) fun _ _ h => h.1) r s h)
        fun s a s' h1 h2 => ?_
      obtain ⟨rfl, hb⟩ := h1
      obtain ⟨rfl, h3⟩ := step_path h2
      exact ⟨rfl, h3, hb⟩
    · exact fun r w h => mid_I (fun _ _ h => h.1) (fun _ _ h => h.1) r w h
    · exact Hoare.some? (fun _ h => h.1) (fun s x e h => ⟨h.1, h.2.1 _ e, h.2.2⟩) (fun s _ h => ⟨h.1, nofun⟩)
  refine Hoare.bind (M := fun p w => w = w0 ∧ ∃ b, Old w0.disk i s b) ?_ (fun _ _ h => h.1) fun q => ?_
  · refine Hoare.bind (M := fun a w => w = w0 ∧ ∃ b, Old w0.disk i s b) ?_ ?_ fun a => ?_
    · refine Hoare.ask (fun _ h => h.1) (fun r s h => mid_I (fun _ _ h => h.1) (mid_I (fun _ _ h => h.1) fun _ _ h => h.1) r s h)
        fun s a s' h1 h2 => ?_
      obtain ⟨rfl, rfl, hb⟩ := h1
      obtain ⟨rfl, h3⟩ := step_pass h2
      exact ⟨rfl, hb⟩
    · exact fun r w h => mid_I (fun _ _ h => h.1) (fun _ _ h => h.1) r w h
    · exact Hoare.some? (fun _ h => h.1) (fun s x e h => h) (fun s _ h => ⟨h.1, nofun⟩)
  · exact Hoare.pure (fun _ h => h.1) (fun w h => ⟨h.1, fun x e => by cases e; exact h.2⟩)

/-! ### Rebinding -/

/-- The header after `clevis luks bind`. -/
def bound (h : Header) (i s : Nat) (pin config : List Char) (q : Bytes) : Header :=
  (h.setToken i (some ⟨[s], pin, config, q⟩)).setSlot s (some q)

/-- The states the device may be in while it is bound anew. -/
inductive Reach (pin config : List Char) (h : Header) : Header → Prop
  | more {h' : Header} (he : Extends h h') : Reach pin config h h'
  | token {i s i' s' : Nat} {b : Binding} {q : Bytes} (ho : Old h i s b) (hi : h.tokens i' = none) (hs : h.slots s' = none) :
      Reach pin config h ((bound h i' s' pin config q).setToken i none)
  | slot {i s i' s' : Nat} {b : Binding} {q : Bytes} (ho : Old h i s b) (hi : h.tokens i' = none) (hs : h.slots s' = none) :
      Reach pin config h (((bound h i' s' pin config q).setToken i none).setSlot s none)

/-- The state after success. -/
def Rebound (pin config : List Char) (h h' : Header) : Prop :=
  ∃ i s i' s' b q, Old h i s b ∧ h.tokens i' = none ∧ h.slots s' = none ∧
    h' = ((bound h i' s' pin config q).setToken i none).setSlot s none

theorem extends_refl (h : Header) : Extends h h := ⟨fun _ _ h => h, fun _ _ h => h, rfl⟩

theorem extends_bound {h : Header} {i s : Nat} {pin config : List Char} {q : Bytes} (hi : h.tokens i = none) (hs : h.slots s = none) :
    Extends h (bound h i s pin config q) := by
  refine ⟨fun j b e => ?_, fun j p e => ?_, rfl⟩
  · show (if j = i then _ else h.tokens j) = _
    rw [if_neg (by rintro rfl; rw [hi] at e; cases e), e]
  · show (if j = s then _ else h.slots j) = _
    rw [if_neg (by rintro rfl; rw [hs] at e; cases e), e]

theorem step_bind {w w' : World} {pin config : List Char} {p : Bytes} {a : Option Bytes}
    (h : Step w ⟨.run clevis ["luks".toList, "bind".toList, "-d".toList, w.path, pin, config, "-y".toList, "-k".toList, "-".toList]
        (some (p ++ [10])), a⟩ w') :
    w'.path = w.path ∧ w'.mem = w.mem ∧ Extends w.disk w'.disk ∧ (a.isSome → ∃ i s q, w.disk.tokens i = none ∧ w.disk.slots s = none ∧
      w'.disk = bound w.disk i s pin config q) := by
  generalize hp : p ++ [10] = p' at h
  generalize hc : clevis = c at h
  cases h with
  | bind hi ho hs hk => exact ⟨rfl, rfl, extends_bound hi hs, fun _ => ⟨_, _, _, hi, hs, rfl⟩⟩
  | bindFails he hv => exact ⟨rfl, rfl, he, nofun⟩

theorem step_load {w w' : World} {a : Bool} (h : Step w ⟨.load, a⟩ w') :
    w'.disk = w.disk ∧ (a = true → w'.mem = w.disk) := by
  cases h with
  | load => exact ⟨rfl, fun _ => rfl⟩
  | loadFails => exact ⟨rfl, nofun⟩

theorem step_removeToken {w w' : World} {i : Nat} {a : Bool} (h : Step w ⟨.removeToken i, a⟩ w') :
    (a = false ∧ w' = w) ∨ (a = true ∧ w'.disk = w.disk.setToken i none) := by
  cases h with
  | removeToken h => exact .inr ⟨rfl, rfl⟩
  | removeTokenFails => exact .inl ⟨rfl, rfl⟩

theorem step_destroySlot {w w' : World} {s : Nat} {a : Bool} (h : Step w ⟨.destroySlot s, a⟩ w') :
    (a = false ∧ w'.disk = w.disk) ∨ w'.disk = w.disk.setSlot s none := by
  cases h with
  | destroySlot h => exact .inr rfl
  | destroySlotFails => exact .inl ⟨rfl, rfl⟩
  | destroySlotHalf => exact .inr rfl

/-- A library call that must succeed. -/
theorem must_hoare {o : Op} {ho : o.Ans = Bool} {I P : World → Prop} {Q : Res Err Unit → World → Prop} (hI : ∀ w, P w → I w)
    (hQ : ∀ r w, Q r w → I w) (hok : ∀ w w' (a : o.Ans), (ho ▸ a : Bool) = true → P w → Step w ⟨o, a⟩ w' → Q (.ok ()) w')
    (herr : ∀ w w' (a : o.Ans), (ho ▸ a : Bool) = false → P w → Step w ⟨o, a⟩ w' → Q (.err .host) w') :
    Hoare Step I P (must o ho) Q := by
  refine Hoare.bind (M := fun (a : o.Ans) w' => (∃ w, P w ∧ Step w ⟨o, a⟩ w') ∧ I w') ?_ hQ fun a => ?_
  · refine Hoare.ask hI (fun r s h => ?_) fun s a s' h1 h2 => ⟨⟨s, h1, h2⟩, ?_⟩
    · cases r with
      | ok a => exact h.2
      | err e => exact hQ _ _ h
      | panic => exact hQ _ _ h
    · cases hb : (ho ▸ a : Bool) with
      | true => exact hQ _ _ (hok _ _ _ hb h1 h2)
      | false => exact hQ _ _ (herr _ _ _ hb h1 h2)
  · exact Hoare.check (fun _ h => h.2) (fun s e h => by obtain ⟨⟨w, h1, h2⟩, _⟩ := h; exact hok _ _ _ e h1 h2)
      (fun s e h => by obtain ⟨⟨w, h1, h2⟩, _⟩ := h; exact herr _ _ _ e h1 h2)

theorem rebind_hoare (pin config : List Char) {w0 : World} (hm : w0.mem = w0.disk) :
    Hoare Step (fun w => Reach pin config w0.disk w.disk) (fun w => w = w0) (rebindClevis pin config)
      (fun r w => Reach pin config w0.disk w.disk ∧ (r = .ok () → Rebound pin config w0.disk w.disk)) := by
  have h0 : ∀ w, w = w0 → Reach pin config w0.disk w.disk := fun w h => h ▸ .more (extends_refl _)
  refine Hoare.bind (M := fun x w => w = w0 ∧ ∃ b, Old w0.disk x.1 x.2.1 b) ?_ (fun _ _ h => h.1) fun x => ?_
  · refine (getPass_hoare hm).conseq (fun _ h => h) (fun r w h => ?_) h0
    cases r with
    | ok x => exact ⟨h.1, h.2 x rfl⟩
    | err e => exact ⟨h0 _ h.1, nofun⟩
    | panic => exact ⟨h0 _ h.1, nofun⟩
  obtain ⟨i, s, p⟩ := x
  refine Hoare.bind (M := fun _ w => (∃ b, Old w0.disk i s b) ∧ ∃ i' s' q, w0.disk.tokens i' = none ∧ w0.disk.slots s' = none ∧
      w.disk = bound w0.disk i' s' pin config q) ?_ (fun _ _ h => h.1) fun _ => ?_
  · refine Hoare.bind (M := fun path w => w = w0 ∧ path = w0.path ∧ ∃ b, Old w0.disk i s b) ?_ ?_ fun path => ?_
    · refine Hoare.bind (M := fun a w => w = w0 ∧ (∀ p, a = some p → p = w0.path) ∧ ∃ b, Old w0.disk i s b) ?_ ?_ fun a => ?_
      · refine Hoare.ask (fun _ h => h0 _ h.1) ?_ fun s a s' h1 h2 => ?_
        · intro r w h
          cases r with
          | ok a => exact h0 _ h.1
          | err e => exact h.1
          | panic => exact h.1
        · obtain ⟨rfl, hb⟩ := h1
          obtain ⟨rfl, h3⟩ := step_path h2
          exact ⟨rfl, h3, hb⟩
      · intro r w h
        cases r with
        | ok a => exact h0 _ h.1
        | err e => exact h.1
        | panic => exact h.1
      · exact Hoare.some? (fun _ h => h0 _ h.1) (fun s x e h => ⟨h.1, h.2.1 _ e, h.2.2⟩) (fun s _ h => ⟨h0 _ h.1, nofun⟩)
    · intro r w h
      cases r with
      | ok a =>
        obtain ⟨_, i', s', q, h1, h2, h3⟩ := h
        rw [h3]
        exact .more (extends_bound h1 h2)
      | err e => exact h.1
      | panic => exact h.1
    · refine Hoare.bind (M := fun _ w => (∃ b, Old w0.disk i s b) ∧ ∃ i' s' q, w0.disk.tokens i' = none ∧ w0.disk.slots s' = none ∧
          w.disk = bound w0.disk i' s' pin config q) ?_ ?_ fun o => ?_
      · refine Hoare.bind (M := fun (a : Option Bytes) w => (∃ b, Old w0.disk i s b) ∧ Extends w0.disk w.disk ∧ (a.isSome → ∃ i' s' q,
            w0.disk.tokens i' = none ∧ w0.disk.slots s' = none ∧ w.disk = bound w0.disk i' s' pin config q)) ?_ ?_ fun a => ?_
        · refine Hoare.ask (fun _ h => h0 _ h.1) ?_ fun s a s' h1 h2 => ?_
          · intro r w h
            cases r with
            | ok a => exact .more h.2.1
            | err e => exact h.1
            | panic => exact h.1
          · obtain ⟨rfl, rfl, hb⟩ := h1
            obtain ⟨_, _, h3, h4⟩ := step_bind h2
            exact ⟨hb, h3, h4⟩
        · intro r w h
          cases r with
          | ok a =>
            obtain ⟨_, i', s', q, h1, h2, h3⟩ := h
            rw [h3]
            exact .more (extends_bound h1 h2)
          | err e => exact h.1
          | panic => exact h.1
        · refine Hoare.some? (fun _ h => .more h.2.1) (fun s x e h => ?_) (fun s _ h => ⟨.more h.2.1, nofun⟩)
          exact ⟨h.1, h.2.2 (by rw [e]; rfl)⟩
      · intro r w h
        cases r with
        | ok a =>
          obtain ⟨_, i', s', q, h1, h2, h3⟩ := h
          rw [h3]
          exact .more (extends_bound h1 h2)
        | err e => exact h.1
        | panic => exact h.1
      · have hI : ∀ w : World, ((∃ b, Old w0.disk i s b) ∧ ∃ i' s' q, w0.disk.tokens i' = none ∧ w0.disk.slots s' = none ∧
            w.disk = bound w0.disk i' s' pin config q) → Reach pin config w0.disk w.disk := by
          rintro w ⟨_, i', s', q, h1, h2, h3⟩
          rw [h3]
          exact .more (extends_bound h1 h2)
        refine must_hoare hI ?_ (fun w w' a _ h1 h2 => ?_) (fun w w' a _ h1 h2 => ?_)
        · intro r w h
          cases r with
          | ok a => exact hI _ h
          | err e => exact h.1
          | panic => exact h.1
        · have := (step_load h2).1
          obtain ⟨hb, i', s', q, h3, h4, h5⟩ := h1
          exact ⟨hb, i', s', q, h3, h4, this.trans h5⟩
        · have := (step_load h2).1
          exact ⟨this ▸ hI _ h1, nofun⟩
  · have hI : ∀ w : World, ((∃ b, Old w0.disk i s b) ∧ ∃ i' s' q, w0.disk.tokens i' = none ∧ w0.disk.slots s' = none ∧
        w.disk = bound w0.disk i' s' pin config q) → Reach pin config w0.disk w.disk := by
      rintro w ⟨_, i', s', q, h1, h2, h3⟩
      rw [h3]
      exact .more (extends_bound h1 h2)
    refine Hoare.bind (M := fun _ w => (∃ b, Old w0.disk i s b) ∧ ∃ i' s' q, w0.disk.tokens i' = none ∧ w0.disk.slots s' = none ∧
      w.disk = (bound w0.disk i' s' pin config q).setToken i none) ?_ (fun _ _ h => h.1) fun _ => ?_
    · refine must_hoare hI ?_ (fun w w' a ha h1 h2 => ?_) (fun w w' a ha h1 h2 => ?_)
      · intro r w h
        cases r with
        | ok a =>
          obtain ⟨⟨b, hb⟩, i', s', q, h1, h2, h3⟩ := h
          rw [h3]
          exact .token hb h1 h2
        | err e => exact h.1
        | panic => exact h.1
      · obtain ⟨hb, i', s', q, h3, h4, h5⟩ := h1
        rcases step_removeToken h2 with ⟨e, _⟩ | ⟨_, e⟩
        · subst e; cases ha
        · exact ⟨hb, i', s', q, h3, h4, by rw [e, h5]⟩
      · rcases step_removeToken h2 with ⟨_, e⟩ | ⟨e, _⟩
        · subst e; exact ⟨hI _ h1, nofun⟩
        · subst e; cases ha
    · have hI2 : ∀ w : World, ((∃ b, Old w0.disk i s b) ∧ ∃ i' s' q, w0.disk.tokens i' = none ∧ w0.disk.slots s' = none ∧
          w.disk = (bound w0.disk i' s' pin config q).setToken i none) → Reach pin config w0.disk w.disk := by
        rintro w ⟨⟨b, hb⟩, i', s', q, h1, h2, h3⟩
        rw [h3]
        exact .token hb h1 h2
      refine must_hoare hI2 (fun _ _ h => h.1) (fun w w' a ha h1 h2 => ?_) (fun w w' a ha h1 h2 => ?_)
      · obtain ⟨⟨b, hb⟩, i', s', q, h3, h4, h5⟩ := h1
        rcases step_destroySlot h2 with ⟨e, _⟩ | e
        · subst e; cases ha
        · rw [e, h5]
          exact ⟨.slot hb h3 h4, fun _ => ⟨i, s, i', s', b, q, hb, h3, h4, rfl⟩⟩
      · rcases step_destroySlot h2 with ⟨_, e⟩ | e
        · rw [e]
          exact ⟨hI2 _ h1, nofun⟩
        · obtain ⟨⟨b, hb⟩, i', s', q, h3, h4, h5⟩ := h1
          rw [e, h5]
          exact ⟨.slot hb h3 h4, nofun⟩

/-! ### Theorems -/

/-- **C74**, never locked out: a device that can be opened without anybody's help can be at every moment of its being bound anew,
whatever fails and wherever it is cut off. -/
theorem C74_unlocked (pin config : List Char) {w0 w : World} {t : Trace sig} (hm : w0.mem = w0.disk) (hv : Valid w0.disk)
    (ho : Opens w0.disk) (hr : Runs Step w0 t w) (hd : Prog.Does (rebindClevis pin config) t) : Opens w.disk := by
  have key : ∀ {i s i' s' : Nat} {b : Binding} {q : Bytes}, Old w0.disk i s b → w0.disk.tokens i' = none → w0.disk.slots s' = none →
      i' ≠ i ∧ s' ≠ s := by
    intro i s i' s' b q h hi hs
    refine ⟨?_, ?_⟩
    · rintro rfl
      rw [h.2.1] at hi
      cases hi
    · rintro rfl
      have := (hv _ _ h.2.1).1 s' (List.mem_of_mem_head? h.2.2.2)
      rw [hs] at this
      cases this
  have h : Reach pin config w0.disk w.disk := ((rebind_hoare pin config hm) w0 t w rfl hr).1 hd
  generalize w.disk = d at h ⊢
  cases h with
  | more he =>
    obtain ⟨i, b, s, h1, h2, h3⟩ := ho
    exact ⟨i, b, s, he.1 _ _ h1, h2, he.2.1 _ _ h3⟩
  | @token i s i' s' b q h hi hs =>
    have hk := key (q := q) h hi hs
    refine ⟨i', ⟨[s'], pin, config, q⟩, s', ?_, List.mem_singleton.2 rfl, ?_⟩
    · simp [Header.setToken, bound, Header.setSlot, hk.1]
    · simp [Header.setToken, bound, Header.setSlot]
  | @slot i s i' s' b q h hi hs =>
    have hk := key (q := q) h hi hs
    refine ⟨i', ⟨[s'], pin, config, q⟩, s', ?_, List.mem_singleton.2 rfl, ?_⟩
    · simp [Header.setToken, bound, Header.setSlot, hk.1]
    · simp [Header.setToken, bound, Header.setSlot, hk.2]

/-- **C74**, nothing else touched: at every moment all keyslots and tokens there were are still there as they were, except the only
token of Clevis (among the first ten) and its first keyslot; and these are only gone once there is a token for the requested
policy that opens the device. -/
theorem C74_kept (pin config : List Char) {w0 w : World} {t : Trace sig} (hm : w0.mem = w0.disk) (hv : Valid w0.disk)
    (hr : Runs Step w0 t w) (hd : Prog.Does (rebindClevis pin config) t) :
    Extends w0.disk w.disk ∨ ∃ i s b, i < 10 ∧ w0.disk.tokens i = some b ∧ (∀ j < 10, j ≠ i → w0.disk.tokens j = none) ∧
      b.slots.head? = some s ∧
      (∀ j c, j ≠ i → w0.disk.tokens j = some c → w.disk.tokens j = some c) ∧
      (∀ k p, k ≠ s → w0.disk.slots k = some p → w.disk.slots k = some p) ∧
      ∃ i', Works w.disk i' ∧ ∃ c, w.disk.tokens i' = some c ∧ c.pin = pin ∧ c.config = config := by
  have key : ∀ {i s i' s' : Nat} {b : Binding}, Old w0.disk i s b → w0.disk.tokens i' = none → w0.disk.slots s' = none →
      i' ≠ i ∧ s' ≠ s := by
    intro i s i' s' b h hi hs
    refine ⟨?_, ?_⟩
    · rintro rfl
      rw [h.2.1] at hi
      cases hi
    · rintro rfl
      have := (hv _ _ h.2.1).1 s' (List.mem_of_mem_head? h.2.2.2)
      rw [hs] at this
      cases this
  have huniq : ∀ {i s : Nat} {b : Binding}, Old w0.disk i s b → ∀ j < 10, j ≠ i → w0.disk.tokens j = none := by
    intro i s b h j hj hne
    cases hx : w0.disk.tokens j with
    | none => rfl
    | some c => exact absurd (h.2.2.1 j hj (by rw [hx]; rfl)) hne
  have h : Reach pin config w0.disk w.disk := ((rebind_hoare pin config hm) w0 t w rfl hr).1 hd
  generalize w.disk = d at h ⊢
  cases h with
  | more he => exact .inl he
  | @token i s i' s' b q h hi hs =>
    have hk := key h hi hs
    have ht : w0.disk.tokens i' = none := hi
    refine .inr ⟨i, s, b, h.1, h.2.1, huniq h, h.2.2.2, fun j c hj hc => ?_, fun k p hk' hp => ?_, i', ?_, ⟨[s'], pin, config, q⟩, ?_, rfl, rfl⟩
    · have : j ≠ i' := by rintro rfl; rw [ht] at hc; cases hc
      simp [Header.setToken, bound, Header.setSlot, hj, this, hc]
    · have : k ≠ s' := by rintro rfl; rw [hs] at hp; cases hp
      simp [Header.setToken, bound, Header.setSlot, this, hp]
    · refine ⟨⟨[s'], pin, config, q⟩, s', ?_, List.mem_singleton.2 rfl, ?_⟩
      · simp [Header.setToken, bound, Header.setSlot, hk.1]
      · simp [Header.setToken, bound, Header.setSlot]
    · simp [Header.setToken, bound, Header.setSlot, hk.1]
  | @slot i s i' s' b q h hi hs =>
    have hk := key h hi hs
    have ht : w0.disk.tokens i' = none := hi
    refine .inr ⟨i, s, b, h.1, h.2.1, huniq h, h.2.2.2, fun j c hj hc => ?_, fun k p hk' hp => ?_, i', ?_, ⟨[s'], pin, config, q⟩, ?_, rfl, rfl⟩
    · have : j ≠ i' := by rintro rfl; rw [ht] at hc; cases hc
      simp [Header.setToken, bound, Header.setSlot, hj, this, hc]
    · have : k ≠ s' := by rintro rfl; rw [hs] at hp; cases hp
      simp [Header.setToken, bound, Header.setSlot, this, hk', hp]
    · refine ⟨⟨[s'], pin, config, q⟩, s', ?_, List.mem_singleton.2 rfl, ?_⟩
      · simp [Header.setToken, bound, Header.setSlot, hk.1]
      · simp [Header.setToken, bound, Header.setSlot, hk.2]
    · simp [Header.setToken, bound, Header.setSlot, hk.1]

/-- **C74**, what success means: if the binding has been replaced, then the device has a token for the requested policy that
opens it; the token it had (among the first ten) and that token's first keyslot are gone; and the new token is the only one, provided
all there were have an index below ten. (Missing: tokens with a higher index and further keyslots of a token, see
`C74_leftover_violated` and `C74_second_slot_violated`.) -/
theorem C74_rebound_partial (pin config : List Char) {w0 w : World} {t : Trace sig} (hm : w0.mem = w0.disk) (hv : Valid w0.disk)
    (hr : Runs Step w0 t w) (he : Prog.Ends (rebindClevis pin config) t (.ok ())) :
    ∃ i b s, i < 10 ∧ w0.disk.tokens i = some b ∧ b.slots.head? = some s ∧ w.disk.tokens i = none ∧ w.disk.slots s = none ∧
    ∃ i' c, Works w.disk i' ∧ w.disk.tokens i' = some c ∧ c.pin = pin ∧ c.config = config ∧
      ((∀ j, (w0.disk.tokens j).isSome → j < 10) → ∀ j, (w.disk.tokens j).isSome → j = i') := by
  have h := (((rebind_hoare pin config hm) w0 t w rfl hr).2 _ he).2 rfl
  obtain ⟨i, s, i', s', b, q, h, hi, hs, e⟩ := h
  have hk : i' ≠ i ∧ s' ≠ s := by
    refine ⟨?_, ?_⟩
    · rintro rfl
      rw [h.2.1] at hi
      cases hi
    · rintro rfl
      have := (hv _ _ h.2.1).1 s' (List.mem_of_mem_head? h.2.2.2)
      rw [hs] at this
      cases this
  refine ⟨i, b, s, h.1, h.2.1, h.2.2.2, ?_, ?_, i', ⟨[s'], pin, config, q⟩, ?_, ?_, rfl, rfl, fun hten j hj => ?_⟩
  · rw [e]; simp [Header.setToken, bound, Header.setSlot]
  · rw [e]; simp [Header.setToken, bound, Header.setSlot]
  · rw [e]
    refine ⟨⟨[s'], pin, config, q⟩, s', ?_, List.mem_singleton.2 rfl, ?_⟩
    · simp [Header.setToken, bound, Header.setSlot, hk.1]
    · simp [Header.setToken, bound, Header.setSlot, hk.2]
  · rw [e]; simp [Header.setToken, bound, Header.setSlot, hk.1]
  · rw [e] at hj
    by_cases h1 : j = i'
    · exact h1
    · by_cases h2 : j = i
      · subst h2
        simp [Header.setToken, bound, Header.setSlot] at hj
      · simp [Header.setToken, bound, Header.setSlot, h1, h2] at hj
        exact absurd (h.2.2.1 j (hten j hj) hj) h2

/-! ### Runs that exist -/

/-- The program may go from one state of the device to another one, ending with a result. -/
def Can {α : Type} (w : World) (p : Proc sig Err α) (w' : World) (r : Res Err α) : Prop :=
  ∃ t, Runs Step w t w' ∧ Prog.Ends p t r

theorem Can.bind {α β : Type} {w w1 w2 : World} {p : Proc sig Err α} {f : α → Proc sig Err β} {a : α} {r : Res Err β}
    (h : Can w p w1 (.ok a)) (h' : Can w1 (f a) w2 r) : Can w (p >>= f) w2 r := by
  obtain ⟨t, h1, h2⟩ := h
  obtain ⟨t', h3, h4⟩ := h'
  exact ⟨t ++ t', append_runs h1 h3, Prog.bind_steps h2 h4⟩

theorem Can.ret {α : Type} {w : World} {r : Res Err α} : Can w (Prog.ret r : Proc sig Err α) w r := ⟨[], .nil, .nil _⟩

theorem Can.ask {w w' : World} {o : Op} {a : o.Ans} (h : Step w ⟨o, a⟩ w') : Can w (Proc.ask (S := sig) o) w' (.ok a) :=
  ⟨[⟨o, a⟩], .cons h .nil, .cons (.nil _)⟩

theorem Can.query {α : Type} {w w' : World} {o : Op} {a : o.Ans} {e : Err} {f : o.Ans → Option α} {x : α} (h : Step w ⟨o, a⟩ w')
    (hf : f a = some x) : Can w (Proc.ask (S := sig) o >>= fun a => Proc.some? e (f a)) w' (.ok x) := by
  refine Can.bind (Can.ask h) ?_
  rw [hf]
  exact .ret

theorem can_findToken {w : World} (l : List Nat) (a : Option Nat) {x : Option Nat} (h : Found w.mem l a x) :
    l.Nodup → Can w (findToken l a) w (.ok x) := by
  induction l generalizing a with
  | nil =>
    intro _
    rcases h with ⟨rfl, _⟩ | ⟨_, i, hi, _⟩
    · exact .ret
    · cases hi
  | cons i l ih =>
    intro hn
    have hstep : Step w ⟨.tokenStatus i, (some (if (w.mem.tokens i).isSome then .externalUnknown clevis else .inactive) : Option TokenInfo)⟩ w := by
      refine .status ?_
      split
      · next h => exact ⟨fun _ => h, fun _ => rfl⟩
      · next h => exact ⟨nofun, fun h' => absurd h' h⟩
    refine Can.bind (Can.ask hstep) (Can.bind .ret ?_)
    cases hi : w.mem.tokens i with
    | some b =>
      rw [if_pos (c := (some b).isSome = true) rfl, if_pos rfl]
      rcases h with ⟨_, h⟩ | ⟨rfl, k, hk, rfl, hks, hu⟩
      · rw [h i List.mem_cons_self] at hi
        cases hi
      · have hki : i = k := hu i List.mem_cons_self (by rw [hi]; rfl)
        subst hki
        refine ih (some i) (.inl ⟨rfl, fun j hj => ?_⟩) (List.nodup_cons.1 hn).2
        cases hx : w.mem.tokens j with
        | none => rfl
        | some c =>
          have := hu j (List.mem_cons_of_mem _ hj) (by rw [hx]; rfl)
          subst this
          exact absurd hj (List.nodup_cons.1 hn).1
    | none =>
      rw [if_neg (by simp)]
      refine ih a ?_ (List.nodup_cons.1 hn).2
      rcases h with ⟨rfl, h⟩ | ⟨rfl, k, hk, rfl, hks, hu⟩
      · exact .inl ⟨rfl, fun j hj => h j (List.mem_cons_of_mem _ hj)⟩
      · refine .inr ⟨rfl, k, ?_, rfl, hks, fun j hj => hu j (List.mem_cons_of_mem _ hj)⟩
        rcases List.mem_cons.1 hk with rfl | hk
        · rw [hi] at hks
          cases hks
        · exact hk

/-- The description of a token. -/
def describe (b : Binding) : Json := .obj [("keyslots".toList, .arr (b.slots.map fun s => .str (decimal s)))]

theorem describes_describe {b : Binding} (h : ∀ s ∈ b.slots, s < 2 ^ 32) : Describes (describe b) b := by
  refine ⟨[], [], _, rfl, nofun, ?_⟩
  generalize b.slots = l at h
  induction l with
  | nil => exact .nil
  | cons s l ih => exact .cons (number_decimal (h s List.mem_cons_self)) (ih fun x hx => h x (List.mem_cons_of_mem _ hx))

theorem can_getPass {w : World} (hm : w.mem = w.disk) {i s : Nat} {b : Binding} (ho : Old w.disk i s b) (hs : ∀ s ∈ b.slots, s < 2 ^ 32) :
    Can w getClevisTokenSlotPass w (.ok (i, s, b.pass)) := by
  have hmem : s ∈ b.slots := List.mem_of_mem_head? ho.2.2.2
  refine Can.bind (w1 := w) (a := i) ?_ (Can.bind (w1 := w) (a := s) ?_ (Can.bind (w1 := w) (a := w.path) ?_
    (Can.bind (w1 := w) (a := b.pass) ?_ .ret)))
  · refine Can.bind (can_findToken (x := some i) _ _ ?_ List.nodup_range) .ret
    rw [hm]
    exact .inr ⟨rfl, i, List.mem_range.2 ho.1, rfl, by rw [ho.2.1]; rfl, fun j hj => ho.2.2.1 j (List.mem_range.1 hj)⟩
  · refine Can.bind (Can.ask (.json (hm ▸ ho.2.1) (describes_describe hs))) (Can.bind .ret ?_)
    rw [firstSlot_describes (describes_describe hs), ho.2.2.2]
    exact .ret
  · exact Can.bind (Can.ask .path) .ret
  · exact Can.bind (Can.ask (.pass ho.2.1 hmem (number_decimal (hs s hmem)))) .ret

/-- **C74**, it can be done: if the token found works and there is room for another one, there is a run in which the binding
is replaced, and nothing has to fail for it. -/
theorem C74_possible (pin config : List Char) {w0 : World} (hm : w0.mem = w0.disk) {i s : Nat} {b : Binding} (hi : i < 10)
    (hb : w0.disk.tokens i = some b) (hu : ∀ j < 10, j ≠ i → w0.disk.tokens j = none) (hs : b.slots.head? = some s)
    (h32 : ∀ s ∈ b.slots, s < 2 ^ 32) (hp : w0.disk.slots s = some b.pass) {i' s' : Nat} (hi' : w0.disk.tokens i' = none)
    (ho' : w0.disk.others i' = false) (hs' : w0.disk.slots s' = none) :
    ∃ t w, Runs Step w0 t w ∧ Prog.Ends (rebindClevis pin config) t (.ok ()) := by
  have ho : Old w0.disk i s b := by
    refine ⟨hi, hb, fun j hj h => ?_, hs⟩
    by_cases hne : j = i
    · exact hne
    · rw [hu j hj hne] at h
      cases h
  have : ∃ w, Can w0 (rebindClevis pin config) w (.ok ()) := by
    refine ⟨_, Can.bind (can_getPass hm ho h32) (Can.bind (Can.bind (a := w0.path) (Can.bind (Can.ask .path) .ret)
      (Can.bind (Can.bind (Can.ask (.bind (o := []) (q := []) hi' ho' hs' hp)) .ret)
      (Can.bind (Can.ask .load) .ret))) (Can.bind (Can.bind (Can.ask (.removeToken rfl)) .ret)
      (Can.bind (Can.ask (.destroySlot rfl)) .ret)))⟩
  obtain ⟨w, t, h1, h2⟩ := this
  exact ⟨t, w, h1, h2⟩

/-! ### Examples and violations -/

/-- A device with a recovery passphrase in keyslot 0 and tokens of Clevis. -/
def exDisk (tokens : Nat → Option Binding) : World :=
  let h : Header := ⟨tokens, fun i => i == 3, fun s => if s = 0 then some [1] else if s = 1 ∨ s = 2 then some [7, 7] else none⟩
  ⟨"/dev/vda4".toList, h, h⟩

/-- A token made at the factory, for the given keyslots. -/
def factory (slots : List Nat) : Binding := ⟨slots, "null".toList, "{}".toList, [7, 7]⟩

theorem exDisk_valid {tokens : Nat → Option Binding} (h : ∀ i b, tokens i = some b → i ≠ 3 ∧ ∀ s ∈ b.slots, s = 1 ∨ s = 2) :
    Valid (exDisk tokens).disk := by
  intro i b hb
  obtain ⟨h1, h2⟩ := h i b hb
  refine ⟨fun s hs => ?_, ?_⟩
  · show (if s = 0 then some [1] else if s = 1 ∨ s = 2 then some [7, 7] else none : Option Bytes).isSome
    rw [if_pos (h2 s hs)]
    split <;> rfl
  · show (i == 3) = false
    exact beq_false_of_ne h1

/-- The case of the theorems above: one token, which works. -/
example : (exDisk fun i => if i = 0 then some (factory [1]) else none).mem = (exDisk fun i => if i = 0 then some (factory [1]) else none).disk ∧
    Valid (exDisk fun i => if i = 0 then some (factory [1]) else none).disk ∧
    Opens (exDisk fun i => if i = 0 then some (factory [1]) else none).disk ∧
    ∃ t w, Runs Step (exDisk fun i => if i = 0 then some (factory [1]) else none) t w ∧
      Prog.Ends (rebindClevis "tang".toList "{\"url\": \"http://tang\"}".toList) t (.ok ()) := by
  refine ⟨rfl, exDisk_valid fun i b h => ?_, ⟨0, factory [1], 1, rfl, by simp [factory], rfl⟩,
    C74_possible _ _ rfl (i := 0) (s := 1) (b := factory [1]) (by decide) rfl (fun j _ hj => if_neg hj) rfl (by simp [factory]) rfl
      (i' := 1) (s' := 4) rfl rfl rfl⟩
  split at h
  · next hi => cases h; subst hi; simp [factory]
  · cases h

/-- **C74** does not extend to repeating an attempt that failed half-way: once the new binding has been added and the old one has not yet been removed,
no further attempt ever succeeds. -/
theorem C74_retry_violated : ∃ (w0 w : World) (pin config : List Char) (t : Trace sig), w0.mem = w0.disk ∧ Valid w0.disk ∧ Opens w0.disk ∧
    Runs Step w0 t w ∧ Prog.Does (rebindClevis pin config) t ∧
    ∀ pin' config' t' w', Runs Step { w with mem := w.disk } t' w' → ¬ Prog.Ends (rebindClevis pin' config') t' (.ok ()) := by
  let w0 := exDisk fun i => if i = 0 then some (factory [1]) else none
  have ho : Old w0.disk 0 1 (factory [1]) := by
    refine ⟨by decide, rfl, fun j _ h => ?_, rfl⟩
    by_cases hj : j = 0
    · exact hj
    · have e : w0.disk.tokens j = none := if_neg hj
      rw [e] at h
      cases h
  have h : ∃ w, Can w0 (rebindClevis [] []) w (.err .host) ∧ w.disk = bound w0.disk 1 4 [] [] [] := by
    refine ⟨{ w0 with disk := bound w0.disk 1 4 [] [] [] }, Can.bind (can_getPass rfl ho (by simp [factory])) (w1 := w0) ?_, rfl⟩
    refine ⟨_, .cons .path (.cons (.bind (i := 1) (s := 4) (k := 1) (p := [7, 7]) (o := []) (q := []) rfl rfl rfl rfl) (.cons .loadFails .nil)), ?_⟩
    exact .cons (.cons (.cons (.nil _)))
  obtain ⟨w, ⟨t, h1, h2⟩, h3⟩ := h
  refine ⟨w0, w, [], [], t, rfl, exDisk_valid fun i b h => ?_, ⟨0, factory [1], 1, rfl, by simp [factory], rfl⟩, h1, ⟨_, h2⟩, ?_⟩
  · split at h
    · next hi => cases h; subst hi; simp [factory]
    · cases h
  · intro pin' config' t' w' hr he
    obtain ⟨i, s, i', s', b, q, h, _⟩ := ((rebind_hoare pin' config' (w0 := { w with mem := w.disk }) rfl) _ t' w' rfl hr).2 _ he |>.2 rfl
    have e0 := h.2.2.1 0 (by decide) (by show (w.disk.tokens 0).isSome; rw [h3]; rfl)
    have e1 := h.2.2.1 1 (by decide) (by show (w.disk.tokens 1).isSome; rw [h3]; rfl)
    omega

/-- **C74** is violated for tokens with an index of ten or more (LUKS2 has 32): a device with such tokens only is never bound anew. -/
theorem C74_index_violated (pin config : List Char) {w0 w : World} {t : Trace sig} (hm : w0.mem = w0.disk)
    (hten : ∀ j < 10, w0.disk.tokens j = none) (hr : Runs Step w0 t w) : ¬ Prog.Ends (rebindClevis pin config) t (.ok ()) := by
  intro he
  obtain ⟨i, s, i', s', b, q, h, _⟩ := (((rebind_hoare pin config hm) _ t w rfl hr).2 _ he).2 rfl
  have := h.2.1
  rw [hten i h.1] at this
  cases this

/-- **C74** is violated for these also in another way: after success such a token may still be there and open the device under the old policy. -/
theorem C74_leftover_violated : ∃ (w0 w : World) (t : Trace sig) (b : Binding), w0.mem = w0.disk ∧ Valid w0.disk ∧
    Runs Step w0 t w ∧ Prog.Ends (rebindClevis "tang".toList []) t (.ok ()) ∧
    b.pin ≠ "tang".toList ∧ w.disk.tokens 12 = some b ∧ Works w.disk 12 := by
  let w0 := exDisk fun i => if i = 0 then some (factory [1]) else if i = 12 then some (factory [2]) else none
  obtain ⟨t, w, h1, h2⟩ := C74_possible "tang".toList [] (w0 := w0) rfl (i := 0) (s := 1) (b := factory [1]) (by decide) rfl
    (fun j h hj => by show (if j = 0 then _ else if j = 12 then _ else none) = none; rw [if_neg hj, if_neg (by omega)]) rfl (by simp [factory]) rfl
    (i' := 1) (s' := 4) rfl rfl rfl
  have hv : Valid w0.disk := exDisk_valid fun i b h => by
    split at h
    · next hi => cases h; subst hi; simp [factory]
    · split at h
      · next hi => cases h; subst hi; simp [factory]
      · cases h
  have hk : w.disk.tokens 12 = some (factory [2]) ∧ w.disk.slots 2 = some [7, 7] := by
    rcases C74_kept _ _ rfl hv h1 ⟨_, h2⟩ with h | ⟨i, s, b, hi, hb, hu, hs, h3, h4, _⟩
    · exact ⟨h.1 _ _ rfl, h.2.1 _ _ rfl⟩
    · have hi0 : i = 0 := by
        by_cases h0 : 0 = i
        · exact h0.symm
        · have := hu 0 (by decide) h0
          cases this
      subst hi0
      have hb' : some (factory [1]) = some b := hb
      cases hb'
      cases hs
      exact ⟨h3 _ _ (by decide) rfl, h4 _ _ (by decide) rfl⟩
  exact ⟨w0, w, t, factory [2], rfl, hv, h1, h2, by decide, hk.1, factory [2], 2, hk.1, by simp [factory], hk.2⟩

/-- **C74** is violated for a token with several keyslots: only the first is removed, the passphrase sealed in the old token still opens another one. -/
theorem C74_second_slot_violated : ∃ (w0 w : World) (t : Trace sig) (b : Binding) (s : Nat), w0.mem = w0.disk ∧ Valid w0.disk ∧
    Runs Step w0 t w ∧ Prog.Ends (rebindClevis "tang".toList []) t (.ok ()) ∧ w0.disk.tokens 0 = some b ∧
    s ∈ b.slots ∧ w.disk.tokens 0 = none ∧ w.disk.slots s = some b.pass := by
  let w0 := exDisk fun i => if i = 0 then some (factory [1, 2]) else none
  obtain ⟨t, w, h1, h2⟩ := C74_possible "tang".toList [] (w0 := w0) rfl (i := 0) (s := 1) (b := factory [1, 2]) (by decide) rfl
    (fun j _ hj => if_neg hj) rfl (by simp [factory]) rfl (i' := 1) (s' := 4) rfl rfl rfl
  have hv : Valid w0.disk := exDisk_valid fun i b h => by
    split at h
    · next hi => cases h; subst hi; simp [factory]
    · cases h
  have h0 : ∀ {i : Nat} {b : Binding}, w0.disk.tokens i = some b → i = 0 ∧ b = factory [1, 2] := by
    intro i b h
    have h : (if i = 0 then some (factory [1, 2]) else none) = some b := h
    split at h
    · next hi => cases h; exact ⟨hi, rfl⟩
    · cases h
  have hk : w.disk.slots 2 = some [7, 7] := by
    rcases C74_kept _ _ rfl hv h1 ⟨_, h2⟩ with h | ⟨i, s, b, hi, hb, hu, hs, h3, h4, _⟩
    · exact h.2.1 _ _ rfl
    · obtain ⟨rfl, rfl⟩ := h0 hb
      cases hs
      exact h4 _ _ (by decide) rfl
  obtain ⟨i, b, s, _, hb, _, hn, _⟩ := C74_rebound_partial _ _ rfl hv h1 h2
  obtain ⟨rfl, rfl⟩ := h0 hb
  exact ⟨w0, w, t, factory [1, 2], 2, rfl, hv, h1, h2, rfl, by simp [factory], hn, hk⟩

end Verif.Disk

import Verif.Lemmas.Store
import Verif.Props.Types
/-!
Properties C27–C32 of the stores.
-/
namespace Verif.Store
open Verif Verif.Spec.Store

section Directory
variable {V : Type} (ser : V → Bytes) (de : Bytes → Option V)

/-- One operation of the directory store at time `t`. Values are written in pieces of any size;
maintenance sees all names in any order; a store operation may stop after any number of system calls. -/
inductive DirStep (t : Nat) : Op V → Dir → Dir → Prop where
  | load {k d} : DirStep t (.load k) d (load de t d k).1
  | store {k v pieces d} : pieces.flatten = ser v → DirStep t (.store k v) d (store d k pieces).1
  | stopped {k v pieces n d} : pieces.flatten = ser v → n < pieces.length + 2 →
      DirStep t (.stopped k v) d (storeUpTo d k pieces n)
  | delete {k d} : DirStep t (.delete k) d (destroy d k).1
  | setExpiry {k s d} : DirStep t (.setExpiry k s) d (setMeta t d k ttlKey (.after (s : Int))).1
  | setMeta {k m v d} : DirStep t (.setMeta k m v) d (setMeta t d k m v).1
  | clearExpiry {k d} : DirStep t (.clearExpiry k) d (clearMeta d k ttlKey).1
  | clearMeta {k m d} : DirStep t (.clearMeta k m) d (clearMeta d k m).1
  | maintain {ls d} : (∀ n, n ∈ ls ↔ d n ≠ none) → DirStep t .maintain d (maintain t d ls).1

/-- A history of operations on the directory store. -/
inductive Exec : Dir → List (Nat × Op V) → Dir → Prop where
  | nil {d} : Exec d [] d
  | cons {d d' d'' t op h} : DirStep ser de t op d d' → Exec d' h d'' → Exec d ((t, op) :: h) d''

/-- Last second of the year 9999. -/
def maxTime : Int := 253402300799

/-- Operations as the servers use them: keys are GUIDs or session ids, times do not leave the year 9999,
and the expiry attribute is not written as ordinary metadata. -/
def Usual (t : Nat) : Op V → Prop
  | .load k => Good k
  | .store k _ => Good k
  | .stopped k _ => Good k
  | .delete k => Good k
  | .setExpiry k d => Good k ∧ (((t + d) / second : Nat) : Int) ≤ maxTime
  | .setMeta k m v => Good k ∧ m ≠ ttlKey ∧
      ∀ d, v = .after d → 0 ≤ ((t : Int) + d) / (second : Int) ∧ ((t : Int) + d) / (second : Int) ≤ maxTime
  | .clearExpiry k => Good k
  | .clearMeta k m => Good k ∧ m ≠ ttlKey
  | .maintain => True

variable {ser de}

theorem filter_not_past_none {e : Entry V} {now : Nat} (h : e.past now) :
    (some e).filter (fun e => ¬ e.past now) = none := by
  simp [Option.filter, h]

theorem filter_not_past_some {e : Entry V} {now : Nat} (h : ¬ e.past now) :
    (some e).filter (fun e => ¬ e.past now) = some e := by
  simp [Option.filter, h]

/-- A load of a represented directory. -/
theorem load_spec (hc : ∀ v, de (ser v) = some v) {d : Dir} {A : Name → Option (Entry V)} (R : Rel ser d A)
    {k : Name} (hk : Good k) (t : Nat) :
    (load de t d k).2 = .ok (visible t (A k)) ∧ Rel ser (load de t d k).1 (fun k' => after k' t (.load k) (A k')) := by
  unfold load
  cases hA : A k with
  | none =>
    rw [R.none_of k hk hA]
    refine ⟨rfl, R.congr ?_⟩
    intro k' _
    simp only [after]
    split
    · rename_i h; subst h; rw [hA]; rfl
    · rfl
  | some e =>
    obtain ⟨f, hf, hh⟩ := R.some_of k hk e hA
    rw [hf]
    simp only [holds_expired ser hh]
    by_cases hp : e.past t
    · simp only [hp, decide_true]
      refine ⟨by simp [visible, Option.filter, hp], (R.erase hk).congr ?_⟩
      intro k' _
      simp only [after]
      by_cases c : k' = k
      · subst c
        rw [if_pos rfl, if_pos rfl, hA, filter_not_past_none hp]
      · rw [if_neg c, if_neg (Ne.symm c)]
    · simp only [hp, decide_false]
      have hd : decodeFile de f = .ok e.value := by
        unfold decodeFile
        rw [hh.content, hc]
      rw [hd]
      refine ⟨by simp [visible, Option.filter, hp], R.congr ?_⟩
      intro k' _
      simp only [after]
      split
      · rename_i h; subst h; rw [hA, filter_not_past_some hp]
      · rfl

/-- One step of the directory store is a step of the map. -/
theorem step_rel (hc : ∀ v, de (ser v) = some v) {d d' : Dir} {A : Name → Option (Entry V)} (R : Rel ser d A)
    {t : Nat} {op : Op V} (hu : Usual t op) (hs : DirStep ser de t op d d') :
    Rel ser d' (fun k => after k t op (A k)) := by
  cases hs with
  | load => exact (load_spec hc R hu t).2
  | @store k v pieces _ hp =>
    have hk : Good k := hu
    obtain ⟨n1, n2, n3⟩ := good_not_special hk
    have : (store d k pieces).1 = (storeOps k pieces).foldl Dir.apply d := by
      unfold store
      rw [if_neg n1, if_neg (by rintro (h | h); exacts [n2 h, n3 h])]
    rw [this]
    refine (R.store hk v pieces hp).congr ?_
    intro k' _
    simp only [after]
    by_cases c : k' = k
    · rw [if_pos c, if_pos c.symm]
    · rw [if_neg c, if_neg (Ne.symm c)]
  | @stopped k v pieces n _ hp hn =>
    exact R.stopped hu pieces n hn
  | @delete k =>
    have hk : Good k := hu
    unfold destroy
    cases hd : d (escape k) with
    | none =>
      refine R.congr ?_
      intro k' hk'
      simp only [after]
      split
      · rename_i h; subst h
        cases hA : A k with
        | none => rfl
        | some e =>
          obtain ⟨f, hf, _⟩ := R.some_of k hk e hA
          rw [hd] at hf; cases hf
      · rfl
    | some f =>
      refine (R.erase hk).congr ?_
      intro k' _
      simp only [after]
      by_cases c : k' = k
      · rw [if_pos c, if_pos c.symm]
      · rw [if_neg c, if_neg (Ne.symm c)]
  | @setExpiry k s =>
    obtain ⟨hk, hmax⟩ := hu
    unfold setMeta
    cases hd : d (escape k) with
    | none =>
      refine R.congr ?_
      intro k' hk'
      simp only [after]
      split
      · rename_i h; subst h
        cases hA : A k with
        | none => rfl
        | some e =>
          obtain ⟨f, hf, _⟩ := R.some_of k hk e hA
          rw [hd] at hf; cases hf
      · rfl
    | some f =>
      obtain ⟨e, hA, hh⟩ := R.file hk hd
      generalize hq : (t + s) / second = q at hmax
      have hmax' : q ≤ 253402300799 := by unfold maxTime at hmax; omega
      have hts : MValue.toStored t (.after (s : Int)) = .ok (leBytes 8 q) := by
        have e1 : ((t : Int) + (s : Int)) / (second : Int) = (q : Int) := by
          rw [← hq, ← Int.natCast_add, ← Int.natCast_ediv]
        have e2 : MValue.timestamp t (s : Int) = .ok (q : Int) := by
          simp only [MValue.timestamp, e1]
          rw [if_neg]
          omega
        have e3 : ((q : Int) % 2 ^ 64).toNat = q := by
          rw [Int.emod_eq_of_lt (by omega) (by omega)]
          simp
        simp only [MValue.toStored, e2, e3]
      simp only [hts]
      have hnew : Holds ser (f.setAttr (xattrName ttlKey) (some (leBytes 8 q))) { e with expiry := some q } := by
        refine ⟨hh.content, by simp [File.setAttr], ?_, ?_⟩
        · intro s' hs'
          simp only [Option.some.injEq] at hs'
          omega
        · intro m hm
          have : xattrName m ≠ xattrName ttlKey := fun h => hm (xattrName_injective h)
          simp only [File.setAttr, if_neg this]
          exact hh.attrs m hm
      refine (R.put hk hnew).congr ?_
      intro k' _
      simp only [after]
      by_cases c : k' = k
      · subst c
        rw [if_pos rfl, if_pos rfl, hA, ← hq]
        rfl
      · rw [if_neg c, if_neg (Ne.symm c)]
  | @setMeta k m v =>
    obtain ⟨hk, hm, hrange⟩ := hu
    unfold setMeta
    cases hd : d (escape k) with
    | none =>
      refine R.congr ?_
      intro k' hk'
      simp only [after]
      split
      · rename_i h; subst h
        cases hA : A k with
        | none => rfl
        | some e =>
          obtain ⟨f, hf, _⟩ := R.some_of k hk e hA
          rw [hd] at hf; cases hf
      · rfl
    | some f =>
      obtain ⟨e, hA, hh⟩ := R.file hk hd
      have hts : MValue.toStored t v = .ok (metaBytes (metaOf t v)) := by
        cases v with
        | flag b => cases b <;> rfl
        | after dd =>
          have := hrange dd rfl
          have e2 : MValue.timestamp t dd = .ok (((t : Int) + dd) / (second : Int)) := by
            simp only [MValue.timestamp]
            rw [if_neg]
            have h' := this.2
            unfold maxTime at h'
            omega
          simp only [MValue.toStored, e2, metaOf, metaBytes]
      simp only [hts]
      have hnew : Holds ser (f.setAttr (xattrName m) (some (metaBytes (metaOf t v))))
          { e with attrs := fun m' => if m' = m then some (metaOf t v) else e.attrs m' } := by
        refine ⟨hh.content, ?_, hh.bound, ?_⟩
        · have : xattrName ttlKey ≠ xattrName m := fun h => hm (xattrName_injective h).symm
          simp only [File.setAttr, if_neg this]
          exact hh.expiry
        · intro m' hm'
          by_cases c : m' = m
          · subst c; simp [File.setAttr]
          · have : xattrName m' ≠ xattrName m := fun h => c (xattrName_injective h)
            simp only [File.setAttr, if_neg this, if_neg c]
            exact hh.attrs m' hm'
      refine (R.put hk hnew).congr ?_
      intro k' _
      simp only [after]
      by_cases c : k' = k
      · subst c
        rw [if_pos rfl, if_pos rfl, hA]
        rfl
      · rw [if_neg c, if_neg (Ne.symm c)]
  | @clearExpiry k =>
    have hk : Good k := hu
    unfold clearMeta
    cases hd : d (escape k) with
    | none =>
      refine R.congr ?_
      intro k' hk'
      simp only [after]
      split
      · rename_i h; subst h
        cases hA : A k with
        | none => rfl
        | some e =>
          obtain ⟨f, hf, _⟩ := R.some_of k hk e hA
          rw [hd] at hf; cases hf
      · rfl
    | some f =>
      obtain ⟨e, hA, hh⟩ := R.file hk hd
      simp only
      cases hx : f.xattrs (xattrName ttlKey) with
      | none =>
        refine R.congr ?_
        intro k' _
        simp only [after]
        split
        · rename_i h; subst h
          rw [hA]
          have := hh.expiry
          rw [hx] at this
          cases he : e.expiry with
          | none => simp only [Option.map_some, ← he]
          | some s => rw [he] at this; cases this
        · rfl
      | some b =>
        have hnew : Holds ser (f.setAttr (xattrName ttlKey) none) { e with expiry := none } := by
          refine ⟨hh.content, by simp [File.setAttr], fun s hs => (nomatch hs), ?_⟩
          intro m hm
          have : xattrName m ≠ xattrName ttlKey := fun h => hm (xattrName_injective h)
          simp only [File.setAttr, if_neg this]
          exact hh.attrs m hm
        refine (R.put hk hnew).congr ?_
        intro k' _
        simp only [after]
        by_cases c : k' = k
        · subst c
          rw [if_pos rfl, if_pos rfl, hA]
          rfl
        · rw [if_neg c, if_neg (Ne.symm c)]
  | @clearMeta k m =>
    obtain ⟨hk, hm⟩ := hu
    unfold clearMeta
    cases hd : d (escape k) with
    | none =>
      refine R.congr ?_
      intro k' hk'
      simp only [after]
      split
      · rename_i h; subst h
        cases hA : A k with
        | none => rfl
        | some e =>
          obtain ⟨f, hf, _⟩ := R.some_of k hk e hA
          rw [hd] at hf; cases hf
      · rfl
    | some f =>
      obtain ⟨e, hA, hh⟩ := R.file hk hd
      simp only
      cases hx : f.xattrs (xattrName m) with
      | none =>
        refine R.congr ?_
        intro k' _
        simp only [after]
        split
        · rename_i h; subst h
          rw [hA]
          have := hh.attrs m hm
          rw [hx] at this
          have hem : e.attrs m = none := by
            cases he : e.attrs m with
            | none => rfl
            | some s => rw [he] at this; cases this
          simp only [Option.map_some]
          congr 1
          have : (fun m' => if m' = m then none else e.attrs m') = e.attrs := by
            funext m'
            split
            · rename_i h; rw [h, hem]
            · rfl
          rw [this]
        · rfl
      | some b =>
        have hnew : Holds ser (f.setAttr (xattrName m) none)
            { e with attrs := fun m' => if m' = m then none else e.attrs m' } := by
          refine ⟨hh.content, ?_, hh.bound, ?_⟩
          · have : xattrName ttlKey ≠ xattrName m := fun h => hm (xattrName_injective h).symm
            simp only [File.setAttr, if_neg this]
            exact hh.expiry
          · intro m' hm'
            by_cases c : m' = m
            · subst c; simp [File.setAttr]
            · have : xattrName m' ≠ xattrName m := fun h => c (xattrName_injective h)
              simp only [File.setAttr, if_neg this, if_neg c]
              exact hh.attrs m' hm'
        refine (R.put hk hnew).congr ?_
        intro k' _
        simp only [after]
        by_cases c : k' = k
        · subst c
          rw [if_pos rfl, if_pos rfl, hA]
          rfl
        · rw [if_neg c, if_neg (Ne.symm c)]
  | @maintain ls _ hls =>
    refine (R.maintain t ls).2.congr ?_
    intro k hk
    simp only [after]
    by_cases c : escape k ∈ ls
    · rw [if_pos c]
    · rw [if_neg c]
      cases hA : A k with
      | none => rfl
      | some e =>
        obtain ⟨f, hf, _⟩ := R.some_of k hk e hA
        exact absurd ((hls _).2 (by rw [hf]; simp)) c

theorem exec_rel (hc : ∀ v, de (ser v) = some v) {d d' : Dir} {A : Name → Option (Entry V)}
    {h : List (Nat × Op V)} (he : Exec ser de d h d') (R : Rel ser d A) (hu : ∀ x ∈ h, Usual x.1 x.2) :
    Rel ser d' (fun k => view k (A k) h) := by
  induction he generalizing A with
  | nil => exact R
  | @cons d d1 d2 t op h hs _ ih =>
    exact ih (step_rel hc R (hu (t, op) (by simp)) hs) (fun x hx => hu x (by simp [hx]))

/-! ### C27 -/

/-- **C27**: after every history of operations, a load under any key returns what the map with expiry
of the specification shows for that key; neither the clock nor interrupted store operations disturb
this. -/
theorem C27_map_with_expiry (hc : ∀ v, de (ser v) = some v) (h : List (Nat × Op V)) (d : Dir)
    (he : Exec ser de (fun _ => none) h d) (hu : ∀ x ∈ h, Usual x.1 x.2) (k : Name) (hk : Good k) (now : Nat) :
    (load de now d k).2 = .ok (visible now (view k none h)) :=
  (load_spec hc (exec_rel hc he (rel_empty ser) hu) hk now).1

/-- Operations which do not concern the entry under `k`, beyond reading it: loads, maintenance, and all
operations on other keys. -/
def Quiet (k : Name) : Op V → Prop
  | .load _ => True
  | .store k' _ => k' ≠ k
  | .stopped _ _ => True
  | .delete k' => k' ≠ k
  | .setExpiry k' _ => k' ≠ k
  | .setMeta k' _ _ => k' ≠ k
  | .clearExpiry k' => k' ≠ k
  | .clearMeta k' _ => k' ≠ k
  | .maintain => True

theorem view_append (k : Name) (e : Option (Entry V)) (h h' : List (Nat × Op V)) :
    view k e (h ++ h') = view k (view k e h) h' := by
  induction h generalizing e with
  | nil => rfl
  | cons x r ih => obtain ⟨t, op⟩ := x; exact ih _

theorem view_none (k : Name) (h : List (Nat × Op V)) (hq : ∀ x ∈ h, Quiet k x.2) :
    view k (none : Option (Entry V)) h = none := by
  induction h with
  | nil => rfl
  | cons x r ih =>
    obtain ⟨t, op⟩ := x
    have hq0 := hq (t, op) (by simp)
    have : after k t op (none : Option (Entry V)) = none := by
      cases op <;> simp only [after, Quiet] at hq0 ⊢ <;> first | rfl | (split <;> first | rfl | contradiction)
    simp only [view, this]
    exact ih (fun x hx => hq x (by simp [hx]))

theorem view_quiet (k : Name) (e : Entry V) (h : List (Nat × Op V)) (hq : ∀ x ∈ h, Quiet k x.2)
    (ht : ∀ x ∈ h, ¬ e.due x.1) : view k (some e) h = some e := by
  induction h with
  | nil => rfl
  | cons x r ih =>
    obtain ⟨t, op⟩ := x
    have hq0 := hq (t, op) (by simp)
    have hd := ht (t, op) (by simp)
    have hp : ¬ e.past t := fun h => hd (past_due h)
    have : after k t op (some e) = some e := by
      cases op <;> simp only [after, Quiet] at hq0 ⊢
      case load k' => split <;> simp [Option.filter, hp]
      case maintain => simp [Option.filter, hd]
      all_goals first | (rw [if_neg hq0])
    simp only [view, this]
    exact ih (fun x hx => hq x (by simp [hx])) (fun x hx => ht x (by simp [hx]))

theorem view_quiet_le (k : Name) (e : Entry V) (h : List (Nat × Op V)) (hq : ∀ x ∈ h, Quiet k x.2) :
    view k (some e) h = some e ∨ view k (some e) h = none := by
  induction h generalizing e with
  | nil => exact .inl rfl
  | cons x r ih =>
    obtain ⟨t, op⟩ := x
    have hq0 := hq (t, op) (by simp)
    have hr : ∀ x ∈ r, Quiet k x.2 := fun x hx => hq x (by simp [hx])
    have : after k t op (some e) = some e ∨ after k t op (some e) = none := by
      cases op <;> simp only [after, Quiet] at hq0 ⊢
      case load k' =>
        by_cases hp : e.past t
        · split <;> simp [Option.filter, hp]
        · split <;> simp [Option.filter, hp]
      case maintain =>
        by_cases hp : e.due t <;> simp [Option.filter, hp]
      all_goals first | (rw [if_neg hq0]; exact .inl rfl) | exact .inl trivial
    rcases this with h1 | h1
    · simp only [view, h1]; exact ih e hr
    · simp only [view, h1]; exact .inr (view_none k r hr)

/-- **C27** (latest value): the value most recently stored is returned, at any time, if the entry was
not touched since; in particular neither other keys nor maintenance remove a value without expiry. -/
theorem C27_latest_value (hc : ∀ v, de (ser v) = some v) (h1 h2 : List (Nat × Op V)) (t0 : Nat) (k : Name)
    (v : V) (d : Dir) (he : Exec ser de (fun _ => none) (h1 ++ (t0, .store k v) :: h2) d)
    (hu : ∀ x ∈ h1 ++ (t0, .store k v) :: h2, Usual x.1 x.2) (hq : ∀ x ∈ h2, Quiet k x.2) (now : Nat) :
    (load de now d k).2 = .ok (some v) := by
  have hk : Good k := hu (t0, .store k v) (by simp)
  rw [C27_map_with_expiry hc _ d he hu k hk now, view_append]
  have hnd : ∀ t, ¬ (⟨v, none, fun _ => none⟩ : Entry V).due t := by rintro t ⟨s, hs, _⟩; cases hs
  have : view k (view k none h1) ((t0, .store k v) :: h2) = some ⟨v, none, fun _ => none⟩ := by
    simp only [view, after, if_true]
    exact view_quiet k _ h2 hq (fun x _ => hnd _)
  rw [this]
  have hnp : ¬ (⟨v, none, fun _ => none⟩ : Entry V).past now := fun h => hnd _ (past_due h)
  simp [visible, Option.filter, hnp]

/-- **C27** (deleted or never stored): nothing is returned. -/
theorem C27_absent (hc : ∀ v, de (ser v) = some v) (h1 h2 : List (Nat × Op V)) (t0 : Nat) (k : Name)
    (d : Dir) (he : Exec ser de (fun _ => none) (h1 ++ (t0, .delete k) :: h2) d)
    (hu : ∀ x ∈ h1 ++ (t0, .delete k) :: h2, Usual x.1 x.2) (hq : ∀ x ∈ h2, Quiet k x.2) (now : Nat) :
    (load de now d k).2 = .ok none := by
  have hk : Good k := hu (t0, .delete k) (by simp)
  rw [C27_map_with_expiry hc _ d he hu k hk now, view_append]
  have : view k (view k none h1) ((t0, .delete k) :: h2) = none := by
    simp only [view, after, if_true]
    exact view_none k h2 hq
  rw [this]
  rfl

/-- **C27** (expiry): a value stored and given an expiry of `s` is returned as long as every operation
since and the load lie before `s` in time, and never after `s`. -/
theorem C27_expiring_value (hc : ∀ v, de (ser v) = some v) (h1 h2 h3 : List (Nat × Op V)) (t0 t1 dur : Nat) (k : Name)
    (v : V) (d : Dir)
    (he : Exec ser de (fun _ => none) (h1 ++ (t0, .store k v) :: (h2 ++ (t1, .setExpiry k dur) :: h3)) d)
    (hu : ∀ x ∈ h1 ++ (t0, .store k v) :: (h2 ++ (t1, .setExpiry k dur) :: h3), Usual x.1 x.2)
    (hq2 : ∀ x ∈ h2, Quiet k x.2) (hq3 : ∀ x ∈ h3, Quiet k x.2) (now : Nat) :
    ((∀ x ∈ h3, x.1 < (t1 + dur) / second * second) → now ≤ (t1 + dur) / second * second →
      (load de now d k).2 = .ok (some v)) ∧
    ((t1 + dur) / second * second < now → (load de now d k).2 = .ok none) := by
  have hk : Good k := hu (t0, .store k v) (by simp)
  have hv0 : view k (view k none h1) ((t0, .store k v) :: (h2 ++ (t1, .setExpiry k dur) :: h3)) =
      view k (some ⟨v, some ((t1 + dur) / second), fun _ => none⟩) h3 := by
    simp only [view, after, if_true]
    rw [view_append, view_quiet k _ h2 hq2 (by rintro x _ ⟨s, hs, _⟩; cases hs)]
    simp only [view, after, if_true, Option.map_some]
  rw [C27_map_with_expiry hc _ d he hu k hk now, view_append, hv0]
  constructor
  · intro h3t hnow
    rw [view_quiet k _ h3 hq3]
    · have : ¬ (⟨v, some ((t1 + dur) / second), fun _ => none⟩ : Entry V).past now := by
        rintro ⟨s, hs, hlt⟩
        simp only [Option.some.injEq] at hs
        subst hs
        omega
      simp [visible, Option.filter, this]
    · rintro x hx ⟨s, hs, hle⟩
      simp only [Option.some.injEq] at hs
      subst hs
      have := h3t x hx
      omega
  · intro hnow
    rcases view_quiet_le k ⟨v, some ((t1 + dur) / second), fun _ => none⟩ h3 hq3 with h | h
    · rw [h]
      have : (⟨v, some ((t1 + dur) / second), fun _ => none⟩ : Entry V).past now := ⟨_, rfl, hnow⟩
      simp [visible, Option.filter, this]
    · rw [h]; rfl

/-! ### C28 -/

/-- **C28**: if the process stops after `n` of the system calls of a store operation, a later load
returns the old value before the last call and the new value after it, and no other key is affected;
this holds in every state reached by any history, including earlier interrupted operations. -/
theorem C28_crash_atomic (hc : ∀ v, de (ser v) = some v) (h : List (Nat × Op V)) (d : Dir)
    (he : Exec ser de (fun _ => none) h d) (hu : ∀ x ∈ h, Usual x.1 x.2) (k : Name) (hk : Good k) (v : V)
    (pieces : List Bytes) (hp : pieces.flatten = ser v) (n : Nat) (now : Nat) :
    (n < pieces.length + 2 → ∀ k', Good k' →
      (load de now (storeUpTo d k pieces n) k').2 = (load de now d k').2) ∧
    (n ≥ pieces.length + 2 →
      (load de now (storeUpTo d k pieces n) k).2 = .ok (some v) ∧
      ∀ k', Good k' → k' ≠ k → (load de now (storeUpTo d k pieces n) k').2 = (load de now d k').2) := by
  have R := exec_rel hc he (rel_empty ser) hu
  constructor
  · intro hn k' hk'
    rw [(load_spec hc (R.stopped hk pieces n hn) hk' now).1, (load_spec hc R hk' now).1]
  · intro hn
    have e : storeUpTo d k pieces n = (storeOps k pieces).foldl Dir.apply d := by
      unfold storeUpTo
      rw [List.take_of_length_le]
      simp [storeOps]
      omega
    rw [e]
    have R' := R.store hk v pieces hp
    constructor
    · rw [(load_spec hc R' hk now).1, if_pos rfl]
      have : ¬ (⟨v, none, fun _ => none⟩ : Entry V).past now := by rintro ⟨s, hs, _⟩; cases hs
      simp [visible, Option.filter, this]
    · intro k' hk' hne
      rw [(load_spec hc R' hk' now).1, (load_spec hc R hk' now).1, if_neg hne]

end Directory

/-! ### C29 -/

/-- **C29**: two different keys without `_` and `.` have different files, which are different from all
temporary files; GUIDs and base64 session ids are such keys (`C29_guid`). Missing: other keys
(`C29_violated`). -/
theorem C29_distinct_files_partial (k k' : Name) (h : Good k) (h' : Good k') :
    (escape k = escape k' ↔ k = k') ∧ escape k ≠ tmpName (escape k') := by
  exact ⟨⟨good_escape_injective h h', fun e => by rw [e]⟩, good_ne_tmp h _⟩

theorem hexDigit_ok {n : Nat} (h : n < 16) : Types.hexDigit n ≠ '_' ∧ Types.hexDigit n ≠ '.' ∧ Types.hexDigit n ≠ '/' := by
  have : ∀ m : Fin 16, Types.hexDigit m.val ≠ '_' ∧ Types.hexDigit m.val ≠ '.' ∧ Types.hexDigit m.val ≠ '/' := by decide
  exact this ⟨n, h⟩

theorem hexEncode_ok (b : Bytes) : ∀ c ∈ Types.hexEncode b, c ≠ '_' ∧ c ≠ '.' ∧ c ≠ '/' := by
  induction b with
  | nil => simp [Types.hexEncode]
  | cons x r ih =>
    have hx := x.toNat_lt
    intro c hc
    simp only [Types.hexEncode, List.mem_cons] at hc
    rcases hc with rfl | rfl | hc
    · exact hexDigit_ok (by omega)
    · exact hexDigit_ok (by omega)
    · exact ih c hc

theorem hexEncode_length (b : Bytes) : (Types.hexEncode b).length = 2 * b.length := by
  induction b with
  | nil => rfl
  | cons x r ih => simp [Types.hexEncode, ih]; omega

theorem guidText_good (g : Bytes) : Good (guidText g) := by
  refine ⟨by simp [guidText], ?_⟩
  intro c hc
  have hm : ∀ c, c ∈ Types.hexEncode g → c ≠ '_' ∧ c ≠ '.' := fun c h => ⟨(hexEncode_ok g c h).1, (hexEncode_ok g c h).2.1⟩
  have hd : ('-' : Char) ≠ '_' ∧ ('-' : Char) ≠ '.' := by decide
  simp only [guidText, List.mem_append, List.mem_cons, List.not_mem_nil, or_false] at hc
  rcases hc with (((((((hc | rfl) | hc) | rfl) | hc) | rfl) | hc) | rfl) | hc
  · exact hm c (List.mem_of_mem_take hc)
  · exact hd
  · exact hm c (List.mem_of_mem_drop (List.mem_of_mem_take hc))
  · exact hd
  · exact hm c (List.mem_of_mem_drop (List.mem_of_mem_take hc))
  · exact hd
  · exact hm c (List.mem_of_mem_drop (List.mem_of_mem_take hc))
  · exact hd
  · exact hm c (List.mem_of_mem_drop hc)

theorem guidText_injective (g g' : Bytes) (h : g.length = 16) (h' : g'.length = 16)
    (he : guidText g = guidText g') : g = g' := by
  have l := hexEncode_length g
  have l' := hexEncode_length g'
  rw [h] at l
  rw [h'] at l'
  unfold guidText at he
  simp only at he
  generalize e1 : Types.hexEncode g = x at *
  generalize e2 : Types.hexEncode g' = y at *
  have key : x = y := by
    obtain ⟨h1, h2⟩ := List.append_inj he (by simp [l, l'])
    obtain ⟨h1, _⟩ := List.append_inj h1 (by simp [l, l'])
    obtain ⟨h1, h3⟩ := List.append_inj h1 (by simp [l, l'])
    obtain ⟨h1, _⟩ := List.append_inj h1 (by simp [l, l'])
    obtain ⟨h1, h4⟩ := List.append_inj h1 (by simp [l, l'])
    obtain ⟨h1, _⟩ := List.append_inj h1 (by simp [l, l'])
    obtain ⟨h1, h5⟩ := List.append_inj h1 (by simp [l, l'])
    obtain ⟨h1, _⟩ := List.append_inj h1 (by simp [l, l'])
    have s : ∀ z : List Char, z = z.take 8 ++ ((z.drop 8).take 4 ++ ((z.drop 12).take 4 ++ ((z.drop 16).take 4 ++ z.drop 20))) := by
      intro z
      have a1 : (z.drop 8).drop 4 = z.drop 12 := by rw [List.drop_drop]
      have a2 : (z.drop 12).drop 4 = z.drop 16 := by rw [List.drop_drop]
      have a3 : (z.drop 16).drop 4 = z.drop 20 := by rw [List.drop_drop]
      rw [← a3, List.take_append_drop, ← a2, List.take_append_drop, ← a1, List.take_append_drop, List.take_append_drop]
    rw [s x, s y, h1, h5, h4, h3, h2]
  have := Types.hexDecode_encode g
  rw [e1, key, ← e2, Types.hexDecode_encode] at this
  exact (Option.some.inj this).symm

/-- **C29** (GUIDs): the stores of vouchers and registrations keep different GUIDs in different files. -/
theorem C29_guid (g g' : Bytes) (h : g.length = 16) (h' : g'.length = 16) (hne : g ≠ g') :
    escape (guidText g) ≠ escape (guidText g') ∧ escape (guidText g) ≠ tmpName (escape (guidText g')) :=
  ⟨fun he => hne (guidText_injective g g' h h' (good_escape_injective (guidText_good g) (guidText_good g') he)),
    good_ne_tmp (guidText_good g) _⟩

/-- The standard base64 alphabet, in which session ids are written (crate `async-session`). -/
def base64Char (c : Char) : Prop := c.isAlphanum = true ∨ c = '+' ∨ c = '/' ∨ c = '='

/-- **C29** (sessions): session ids in base64 are kept in different files, although `/` is rewritten. -/
theorem C29_session_ids (k k' : Name) (hk : k ≠ []) (hk' : k' ≠ []) (h : ∀ c ∈ k, base64Char c)
    (h' : ∀ c ∈ k', base64Char c) (hne : k ≠ k') : escape k ≠ escape k' := by
  have good : ∀ c, base64Char c → c ≠ '_' ∧ c ≠ '.' := by
    intro c hc
    constructor <;> rintro rfl <;> rcases hc with hc | hc | hc | hc <;> revert hc <;> decide
  exact fun he => hne (good_escape_injective ⟨hk, fun c hc => good c (h c hc)⟩ ⟨hk', fun c hc => good c (h' c hc)⟩ he)

/-- The full C29 is false: keys with a slash and keys with its replacement share a file. -/
theorem C29_violated : ∃ k k' : Name, k ≠ k' ∧ escape k = escape k' :=
  ⟨"a/b".toList, "a_slash_b".toList, by decide, by decide⟩

/-- Nor is every key's file distinct from temporary files. -/
theorem C29_tmp_violated : ∃ k k' : Name, k ≠ k' ∧ escape k' = tmpName (escape k) :=
  ⟨"a".toList, ".a.tmp".toList, by decide, by decide⟩

example : Good (guidText (List.replicate 16 171)) ∧ Good "q/W+=".toList := by
  refine ⟨guidText_good _, by decide, ?_⟩
  decide

/-! ### C30 -/

/-- A readable expiry of a file, in seconds. -/
def expiryOf (f : File) : Option Nat :=
  match f.xattrs (xattrName ttlKey) with
  | none => none
  | some b => some (leNat b)

/-- All expiry attributes are eight bytes within the range of the clock, as the store writes them. -/
def Readable (d : Dir) : Prop :=
  ∀ n f b, d n = some f → f.xattrs (xattrName ttlKey) = some b → b.length = 8 ∧ leNat b < 2 ^ 63

theorem ttl_ok {b : Bytes} (h : b.length = 8 ∧ leNat b < 2 ^ 63) : ttlFromDisk b = .ok (leNat b) := by
  unfold ttlFromDisk
  rw [if_neg (by simp [h.1]), if_neg (by omega)]

/-- **C30** (load): past its expiry an entry is not returned, whatever the directory contains. -/
theorem C30_load_expired {V : Type} (de : Bytes → Option V) (now : Nat) (d : Dir) (hr : Readable d) (k : Name)
    (f : File) (s : Nat) (hf : d (escape k) = some f) (hs : expiryOf f = some s) (hnow : s * second < now) :
    (load de now d k).2 = .ok none := by
  unfold expiryOf at hs
  unfold load
  rw [hf]
  simp only [fileExpired]
  cases hx : f.xattrs (xattrName ttlKey) with
  | none => rw [hx] at hs; cases hs
  | some b =>
    rw [hx] at hs
    simp only [Option.some.injEq] at hs
    simp only [ttl_ok (hr _ f b hf hx), hs, decide_eq_true hnow]

/-- **C30** (maintenance, for directories whose expiry attributes can be read): exactly the entries whose
expiry has been reached are removed; all others, and those without expiry, are kept as they are. Missing:
an unreadable attribute stops maintenance (`C30_maintenance_violated`). -/
theorem C30_maintenance_partial (now : Nat) (d : Dir) (hr : Readable d) (ls : List Name)
    (hls : ∀ n, d n ≠ none → n ∈ ls) :
    (maintain now d ls).2 = .ok () ∧ ∀ n,
      (maintain now d ls).1 n = match d n with
        | none => none
        | some f =>
          match expiryOf f with
          | none => some f
          | some s => if s * second ≤ now then none else some f := by
  -- for a listing of part of the directory
  have gen : ∀ (ls : List Name) (d : Dir), Readable d → (maintain now d ls).2 = .ok () ∧ ∀ n,
      (maintain now d ls).1 n = if n ∈ ls then (match d n with
        | none => none
        | some f =>
          match expiryOf f with
          | none => some f
          | some s => if s * second ≤ now then none else some f) else d n := by
    intro ls
    induction ls with
    | nil => intro d _; exact ⟨rfl, fun n => by simp [maintain]⟩
    | cons a r ih =>
      intro d hr
      have keep : ∀ g, maintain now d (a :: r) = maintain now d r → d a = g →
          (match g with
            | none => none
            | some f =>
              match expiryOf f with
              | none => some f
              | some s => if s * second ≤ now then none else some f) = g →
          ((maintain now d (a :: r)).2 = .ok () ∧ ∀ n,
            (maintain now d (a :: r)).1 n = if n ∈ a :: r then (match d n with
              | none => none
              | some f =>
                match expiryOf f with
                | none => some f
                | some s => if s * second ≤ now then none else some f) else d n) := by
        intro g he hg hsame
        rw [he]
        obtain ⟨i1, i2⟩ := ih d hr
        refine ⟨i1, fun n => ?_⟩
        rw [i2 n]
        by_cases c : n = a
        · subst c
          simp only [List.mem_cons, true_or, if_true, hg, hsame]
          split <;> rfl
        · simp [List.mem_cons, c]
      cases hd : d a with
      | none => exact keep none (by simp [maintain, hd]) hd rfl
      | some f =>
        cases hx : f.xattrs (xattrName ttlKey) with
        | none => exact keep (some f) (by simp [maintain, hd, hx]) hd (by simp [expiryOf, hx])
        | some b =>
          have hok := ttl_ok (hr a f b hd hx)
          by_cases hnow : now < leNat b * second
          · refine keep (some f) (by simp [maintain, hd, hx, hok, hnow]) hd ?_
            simp only [expiryOf, hx]
            rw [if_neg (by omega)]
          · have he : maintain now d (a :: r) = maintain now (d.erase a) r := by
              simp [maintain, hd, hx, hok, hnow]
            rw [he]
            have hr' : Readable (d.erase a) := by
              intro n f' b' h1 h2
              unfold Dir.erase at h1
              split at h1
              · cases h1
              · exact hr n f' b' h1 h2
            obtain ⟨i1, i2⟩ := ih (d.erase a) hr'
            refine ⟨i1, fun n => ?_⟩
            rw [i2 n]
            by_cases c : n = a
            · subst c
              have hle : leNat b * second ≤ now := by omega
              simp only [Dir.erase, if_true, List.mem_cons, true_or, hd, expiryOf, hx, if_pos hle]
              split <;> rfl
            · simp [List.mem_cons, c, Dir.erase]
  obtain ⟨g1, g2⟩ := gen ls d hr
  refine ⟨g1, fun n => ?_⟩
  rw [g2 n]
  by_cases c : n ∈ ls
  · rw [if_pos c]
  · rw [if_neg c]
    cases hd : d n with
    | none => rfl
    | some f => exact absurd (hls n (by rw [hd]; simp)) c

/-- Every directory reached by the store's own operations has readable expiry attributes, so that
`C30_load_expired` and `C30_maintenance_partial` apply to it. -/
theorem C30_reachable_readable {V : Type} {ser : V → Bytes} {de : Bytes → Option V} (hc : ∀ v, de (ser v) = some v)
    (h : List (Nat × Op V)) (d : Dir) (he : Exec ser de (fun _ => none) h d) (hu : ∀ x ∈ h, Usual x.1 x.2) :
    Readable d := by
  intro n f b hf hb
  obtain ⟨_, _, s, _, _, _, _, _, hbs, hlt⟩ := (exec_rel hc he (rel_empty ser) hu).ttl hf hb
  subst hbs
  refine ⟨leBytes_length 8 s, ?_⟩
  rw [leNat_leBytes 8 s (by have : (2:Nat) ^ 63 < 256 ^ 8 := by decide
                            omega)]
  exact hlt

/-- A file with an expiry attribute. -/
def fileWith (b : Bytes) : File := ⟨[1], fun a => if a = xattrName ttlKey then some b else none⟩

/-- For arbitrary directories the full C30 is false: maintenance stops at the first file whose expiry
attribute does not have eight bytes, and leaves expired entries behind. -/
theorem C30_maintenance_violated : ∃ (d : Dir) (ls : List Name) (n : Name) (f : File) (s now : Nat),
    (∀ m, m ∈ ls ↔ d m ≠ none) ∧ d n = some f ∧ expiryOf f = some s ∧ s * second ≤ now ∧
    (maintain now d ls).1 n = some f := by
  refine ⟨fun n => if n = ['a'] then some (fileWith [1]) else if n = ['b'] then some (fileWith (leBytes 8 5)) else none,
    [['a'], ['b']], ['b'], fileWith (leBytes 8 5), 5, 6000000000, ?_, by rfl, by rfl, by decide, by rfl⟩
  intro m
  by_cases h1 : m = ['a']
  · simp [h1]
  · by_cases h2 : m = ['b']
    · simp [h2]
    · simp [h1, h2]

/-- At the very moment of its expiry an entry is still loaded, while maintenance removes it. -/
theorem C30_boundary : ∃ (d : Dir) (f : File) (s : Nat), d ['b'] = some f ∧ expiryOf f = some s ∧
    (load (fun b => some b) (s * second) d ['b']).2 = .ok (some f.content) ∧
    (maintain (s * second) d [['b']]).1 ['b'] = none := by
  exact ⟨fun n => if n = ['b'] then some (fileWith (leBytes 8 5)) else none, fileWith (leBytes 8 5), 5,
    by rfl, by rfl, by rfl, by rfl⟩

/-! ### C31 -/

/-- A voucher is due for registration: onboarding is not recorded as performed, and the wait time is
unset or before now (in whole seconds). -/
def Pending {V : Type} (now : Nat) (e : Entry V) : Prop :=
  e.attrs to2Key ≠ some (.flag true) ∧ ∀ w, e.attrs to0Key = some (.time w) → w < ((now / second : Nat) : Int)

/-- The metadata of vouchers as the owner server writes it (handlers.rs:586-664, main.rs:86-117): the
flag under one key, the wait time under the other. -/
def OwnerMeta {V : Type} (t : Nat) : Op V → Prop
  | .setMeta _ m v => (m = to2Key → ∃ b, v = .flag b) ∧
      (m = to0Key → ∃ d, v = .after d ∧ 0 ≤ ((t : Int) + d) / (second : Int))
  | _ => True

/-- Typing of the entries written so. -/
def Typed {V : Type} (e : Entry V) : Prop :=
  (∀ x, e.attrs to2Key = some x → ∃ b, x = .flag b) ∧
  (∀ x, e.attrs to0Key = some x → ∃ w : Int, x = .time w ∧ 0 ≤ w ∧ w ≤ maxTime)

theorem after_typed {V : Type} {k : Name} {t : Nat} {op : Op V} (hu : Usual t op) (ho : OwnerMeta t op)
    {e : Option (Entry V)} (he : ∀ x, e = some x → Typed x) : ∀ x, after k t op e = some x → Typed x := by
  intro x hx
  cases op with
  | load k' =>
    simp only [after] at hx
    split at hx
    · exact he x (Option.filter_eq_some_iff.1 hx).1
    · exact he x hx
  | store k' v =>
    simp only [after] at hx
    split at hx
    · cases hx; exact ⟨fun x h => (nomatch h), fun x h => (nomatch h)⟩
    · exact he x hx
  | stopped k' v => exact he x hx
  | delete k' =>
    simp only [after] at hx
    split at hx
    · cases hx
    · exact he x hx
  | setExpiry k' d =>
    simp only [after] at hx
    split at hx
    · obtain ⟨y, hy, rfl⟩ := Option.map_eq_some_iff.1 hx
      exact he y hy
    · exact he x hx
  | clearExpiry k' =>
    simp only [after] at hx
    split at hx
    · obtain ⟨y, hy, rfl⟩ := Option.map_eq_some_iff.1 hx
      exact he y hy
    · exact he x hx
  | maintain =>
    simp only [after] at hx
    exact he x (Option.filter_eq_some_iff.1 hx).1
  | clearMeta k' m =>
    simp only [after] at hx
    split at hx
    · obtain ⟨y, hy, rfl⟩ := Option.map_eq_some_iff.1 hx
      obtain ⟨h1, h2⟩ := he y hy
      constructor
      · intro x hx
        simp only at hx
        split at hx
        · cases hx
        · exact h1 x hx
      · intro x hx
        simp only at hx
        split at hx
        · cases hx
        · exact h2 x hx
    · exact he x hx
  | setMeta k' m v =>
    simp only [after] at hx
    split at hx
    · obtain ⟨y, hy, rfl⟩ := Option.map_eq_some_iff.1 hx
      obtain ⟨h1, h2⟩ := he y hy
      obtain ⟨_, _, hrange⟩ := hu
      constructor
      · intro x hx
        simp only at hx
        split at hx
        · rename_i hm
          obtain ⟨b, hb⟩ := ho.1 hm.symm
          cases hx
          exact ⟨b, by rw [hb]; rfl⟩
        · exact h1 x hx
      · intro x hx
        simp only at hx
        split at hx
        · rename_i hm
          obtain ⟨d, hb, _⟩ := ho.2 hm.symm
          cases hx
          obtain ⟨g1, g2⟩ := hrange d hb
          exact ⟨_, by rw [hb]; rfl, g1, g2⟩
        · exact h2 x hx
    · exact he x hx

theorem view_typed {V : Type} {k : Name} (h : List (Nat × Op V)) (hu : ∀ x ∈ h, Usual x.1 x.2)
    (ho : ∀ x ∈ h, OwnerMeta x.1 x.2) (e : Option (Entry V)) (he : ∀ x, e = some x → Typed x) :
    ∀ x, view k e h = some x → Typed x := by
  induction h generalizing e with
  | nil => exact he
  | cons x r ih =>
    obtain ⟨t, op⟩ := x
    exact ih (fun x hx => hu x (by simp [hx])) (fun x hx => ho x (by simp [hx])) _
      (after_typed (hu (t, op) (by simp)) (ho (t, op) (by simp)) he)

/-- No leftover of an interrupted store operation. -/
def NoTmp (d : Dir) : Prop := ∀ n f, d n = some f → ∃ k, Good k ∧ n = escape k

theorem erase_noTmp {d : Dir} (h : NoTmp d) (n : Name) : NoTmp (d.erase n) := by
  intro m f hf
  unfold Dir.erase at hf
  split at hf
  · cases hf
  · exact h m f hf

theorem put_noTmp {d : Dir} (h : NoTmp d) {k : Name} (hk : Good k) (f : File) : NoTmp (d.put (escape k) f) := by
  intro m f hf
  unfold Dir.put at hf
  split at hf
  · rename_i e; exact ⟨k, hk, e⟩
  · exact h m f hf

theorem maintain_noTmp (now : Nat) (ls : List Name) (d : Dir) (h : NoTmp d) : NoTmp (maintain now d ls).1 := by
  induction ls generalizing d with
  | nil => exact h
  | cons n r ih =>
    unfold maintain
    split
    · exact ih d h
    · split
      · exact ih d h
      · split
        · exact h
        · exact h
        · split
          · exact ih d h
          · exact ih _ (erase_noTmp h n)

theorem step_noTmp {V : Type} {ser : V → Bytes} {de : Bytes → Option V} {d d' : Dir} {t : Nat} {op : Op V}
    (hu : Usual t op) (hno : ∀ k v, op ≠ .stopped k v) (hs : DirStep ser de t op d d') (h : NoTmp d) : NoTmp d' := by
  cases hs with
  | load =>
    unfold load
    split
    · exact h
    · split
      · exact h
      · exact h
      · exact erase_noTmp h _
      · split <;> exact h
  | @store k v pieces _ hp =>
    have hk : Good k := hu
    obtain ⟨n1, n2, n3⟩ := good_not_special hk
    have : (store d k pieces).1 = (storeOps k pieces).foldl Dir.apply d := by
      unfold store
      rw [if_neg n1, if_neg (by rintro (h | h); exacts [n2 h, n3 h])]
    rw [this]
    obtain ⟨h1, h2, h3⟩ := storeAll_spec d k pieces (good_ne_tmp hk _)
    intro n f hf
    by_cases c1 : n = escape k
    · exact ⟨k, hk, c1⟩
    · by_cases c2 : n = tmpName (escape k)
      · rw [c2, h2] at hf; cases hf
      · rw [h3 n c1 c2] at hf
        exact h n f hf
  | stopped => exact absurd rfl (hno _ _)
  | delete =>
    unfold destroy
    split
    · exact h
    · exact erase_noTmp h _
  | @setExpiry k s =>
    unfold setMeta
    split
    · exact h
    · split
      · exact put_noTmp h hu.1 _
      · exact h
      · exact h
  | @setMeta k m v =>
    unfold setMeta
    split
    · exact h
    · split
      · exact put_noTmp h hu.1 _
      · exact h
      · exact h
  | @clearExpiry k =>
    unfold clearMeta
    split
    · exact h
    · split
      · exact h
      · exact put_noTmp h hu _
  | @clearMeta k m =>
    unfold clearMeta
    split
    · exact h
    · split
      · exact h
      · exact put_noTmp h hu.1 _
  | maintain => exact maintain_noTmp t _ d h

theorem exec_noTmp {V : Type} {ser : V → Bytes} {de : Bytes → Option V} {d d' : Dir} {h : List (Nat × Op V)}
    (he : Exec ser de d h d') (hu : ∀ x ∈ h, Usual x.1 x.2) (hno : ∀ x ∈ h, ∀ k v, x.2 ≠ .stopped k v)
    (hn : NoTmp d) : NoTmp d' := by
  induction he with
  | nil => exact hn
  | @cons d d1 d2 t op h hs _ ih =>
    exact ih (fun x hx => hu x (by simp [hx])) (fun x hx => hno x (by simp [hx]))
      (step_noTmp (hu (t, op) (by simp)) (hno (t, op) (by simp)) hs hn)

theorem leInt_time (w : Int) (h0 : 0 ≤ w) (h1 : w ≤ maxTime) :
    (leBytes 8 (w % 2 ^ 64).toNat).length = 8 ∧ leInt (leBytes 8 (w % 2 ^ 64).toNat) = w := by
  unfold maxTime at h1
  have e : (w % 2 ^ 64).toNat = w.toNat := by rw [Int.emod_eq_of_lt h0 (by omega)]
  refine ⟨leBytes_length _ _, ?_⟩
  have hb : w.toNat < 256 ^ 8 := by
    have : (253402300799 : Nat) < 256 ^ 8 := by decide
    omega
  unfold leInt
  rw [e, leNat_leBytes 8 _ hb, if_pos (by have : (253402300799 : Nat) < 2 ^ 63 := by decide
                                          omega)]
  omega

/-- Filtering of a file that holds an entry. -/
theorem pending_file {V : Type} {ser : V → Bytes} {f : File} {e : Entry V} (hh : Holds ser f e) (ht : Typed e)
    (now : Nat) :
    ∃ b, passesLt f [(to0Key, ((now / second : Nat) : Int))] = .ok b ∧
      ((passesNeq f [(to2Key, "true".toUTF8.toList)] && b) = true ↔ Pending now e) := by
  have k2 : to2Key ≠ ttlKey := by decide
  have k0 : to0Key ≠ ttlKey := by decide
  have h2 := hh.attrs to2Key k2
  have h0 := hh.attrs to0Key k0
  have hneq : passesNeq f [(to2Key, "true".toUTF8.toList)] = true ↔ e.attrs to2Key ≠ some (.flag true) := by
    simp only [passesNeq, List.any_cons, List.any_nil, Bool.or_false, h2]
    cases ha : e.attrs to2Key with
    | none => simp
    | some x =>
      obtain ⟨b, rfl⟩ := ht.1 x ha
      simp only [Option.map_some]
      cases b with
      | true =>
        have : attrDiffers "true".toUTF8.toList (metaBytes (.flag true)) = false := by decide +kernel
        rw [this]
        simp
      | false =>
        have : attrDiffers "true".toUTF8.toList (metaBytes (.flag false)) = true := by decide +kernel
        rw [this]
        simp
  cases ha : e.attrs to0Key with
  | none =>
    rw [ha] at h0
    refine ⟨true, by simp [passesLt, h0], ?_⟩
    rw [Bool.and_true]
    constructor
    · intro h
      exact ⟨hneq.1 h, fun w hw => by rw [ha] at hw; cases hw⟩
    · intro h; exact hneq.2 h.1
  | some x =>
    obtain ⟨w, rfl, hw0, hw1⟩ := ht.2 x ha
    rw [ha] at h0
    simp only [Option.map_some, metaBytes] at h0
    obtain ⟨l1, l2⟩ := leInt_time w hw0 hw1
    refine ⟨decide (w < ((now / second : Nat) : Int)), ?_, ?_⟩
    · simp only [passesLt, h0]
      rw [if_neg (by rw [l1]; decide), l2, Bool.or_false]
    · rw [Bool.and_eq_true, hneq, decide_eq_true_eq]
      constructor
      · rintro ⟨g1, g2⟩
        refine ⟨g1, fun w' hw' => ?_⟩
        rw [ha] at hw'; cases hw'
        exact g2
      · rintro ⟨g1, g2⟩
        exact ⟨g1, g2 w ha⟩

/-- **C31** (directory store): after every history without interrupted store operations, and for every
order in which the directory is listed, the query returns exactly the vouchers due. Missing: an
interrupted store operation leaves a file which is returned as well (`C31_leftover_violated`). -/
theorem C31_directory_partial {V : Type} {ser : V → Bytes} {de : Bytes → Option V} (hc : ∀ v, de (ser v) = some v)
    (h : List (Nat × Op V)) (d : Dir) (he : Exec ser de (fun _ => none) h d) (hu : ∀ x ∈ h, Usual x.1 x.2)
    (ho : ∀ x ∈ h, OwnerMeta x.1 x.2) (hno : ∀ x ∈ h, ∀ k v, x.2 ≠ .stopped k v)
    (now : Nat) (ls : List Name) (hls : ∀ n, n ∈ ls ↔ d n ≠ none) :
    ∃ l, pendingDir de now d ls = .ok l ∧
      ∀ v, v ∈ l ↔ ∃ k e, Good k ∧ view k none h = some e ∧ Pending now e ∧ e.value = v := by
  have R := exec_rel hc he (rel_empty ser) hu
  have hT : ∀ k e, view k none h = some e → Typed e := fun k e hv =>
    view_typed h hu ho none (fun x hx => (nomatch hx)) e hv
  have hN := exec_noTmp he hu hno (fun n f hf => (nomatch hf))
  have gen : ∀ ls : List Name, ∃ l, pendingDir de now d ls = .ok l ∧
      ∀ v, v ∈ l ↔ ∃ k e, Good k ∧ escape k ∈ ls ∧ view k none h = some e ∧ Pending now e ∧ e.value = v := by
    intro ls
    induction ls with
    | nil => exact ⟨[], rfl, fun v => by simp⟩
    | cons n r ih =>
      obtain ⟨l, hl, hm⟩ := ih
      -- the head contributes nothing
      have skip : pendingDir de now d (n :: r) = pendingDir de now d r →
          (∀ k e, Good k → escape k = n → view k none h = some e → ¬ Pending now e) →
          ∃ l, pendingDir de now d (n :: r) = .ok l ∧
            ∀ v, v ∈ l ↔ ∃ k e, Good k ∧ escape k ∈ n :: r ∧ view k none h = some e ∧ Pending now e ∧ e.value = v := by
        intro e1 e2
        refine ⟨l, by rw [e1, hl], fun v => ?_⟩
        rw [hm v]
        constructor
        · rintro ⟨k, e, a1, a2, a3⟩
          exact ⟨k, e, a1, List.mem_cons_of_mem _ a2, a3⟩
        · rintro ⟨k, e, a1, a2, a3, a4, a5⟩
          rcases List.mem_cons.1 a2 with a2 | a2
          · exact absurd a4 (e2 k e a1 a2 a3)
          · exact ⟨k, e, a1, a2, a3, a4, a5⟩
      cases hd : d n with
      | none =>
        refine skip (by simp [pendingDir, query, hd]) ?_
        intro k e hk hn hv
        obtain ⟨f, hf, _⟩ := R.some_of k hk e hv
        rw [hn, hd] at hf; cases hf
      | some f =>
        obtain ⟨k, hk, hn⟩ := hN n f hd
        rw [hn] at hd
        obtain ⟨e, hv, hh⟩ := R.file hk hd
        obtain ⟨b, hb, hp⟩ := pending_file hh (hT k e hv) now
        rw [← hn] at hd
        have hl' : query de d [(to2Key, "true".toUTF8.toList)] [(to0Key, ((now / second : Nat) : Int))] r = .ok l := hl
        have uniq : ∀ k' e', Good k' → escape k' = n → view k' none h = some e' → k' = k ∧ e' = e := by
          intro k' e' hk' hn' hv'
          have : k' = k := good_escape_injective hk' hk (by rw [hn', hn])
          subst this
          rw [hv] at hv'; cases hv'
          exact ⟨rfl, rfl⟩
        by_cases c1 : passesNeq f [(to2Key, "true".toUTF8.toList)] = true
        · cases b with
          | true =>
            have hP : Pending now e := hp.1 (by rw [c1]; rfl)
            refine ⟨e.value :: l, ?_, fun v => ?_⟩
            · simp only [pendingDir, query, hd, if_pos c1, hb, hl', hh.content, hc]
            · rw [List.mem_cons, hm v]
              constructor
              · rintro (rfl | ⟨k', e', a1, a2, a3⟩)
                · exact ⟨k, e, hk, by simp [hn], hv, hP, rfl⟩
                · exact ⟨k', e', a1, List.mem_cons_of_mem _ a2, a3⟩
              · rintro ⟨k', e', a1, a2, a3, a4, a5⟩
                rcases List.mem_cons.1 a2 with a2 | a2
                · obtain ⟨_, rfl⟩ := uniq k' e' a1 a2 a3
                  exact .inl a5.symm
                · exact .inr ⟨k', e', a1, a2, a3, a4, a5⟩
          | false =>
            refine skip (by simp only [pendingDir, query, hd, if_pos c1, hb]) ?_
            intro k' e' a1 a2 a3 hP
            obtain ⟨_, rfl⟩ := uniq k' e' a1 a2 a3
            have := hp.2 hP
            simp at this
        · refine skip (by simp only [pendingDir, query, hd, if_neg c1]) ?_
          intro k' e' a1 a2 a3 hP
          obtain ⟨_, rfl⟩ := uniq k' e' a1 a2 a3
          have := hp.2 hP
          rw [Bool.and_eq_true] at this
          exact c1 this.1
  obtain ⟨l, hl, hm⟩ := gen ls
  refine ⟨l, hl, fun v => ?_⟩
  rw [hm v]
  constructor
  · rintro ⟨k, e, a1, _, a3⟩; exact ⟨k, e, a1, a3⟩
  · rintro ⟨k, e, a1, a3⟩
    obtain ⟨f, hf, _⟩ := R.some_of k a1 e a3.1
    exact ⟨k, e, a1, (hls _).2 (by rw [hf]; simp), a3⟩

/-- Codec for examples: one byte. -/
def toySer (b : UInt8) : Bytes := [b]
/-- Its decoder. -/
def toyDe : Bytes → Option UInt8
  | [b] => some b
  | _ => none

/-- The full C31 is false: after an interrupted store operation the value that was never stored is
returned by the query. -/
theorem C31_leftover_violated : ∃ (h : List (Nat × Op UInt8)) (d : Dir) (ls : List Name),
    Exec toySer toyDe (fun _ => none) h d ∧ (∀ x ∈ h, Usual x.1 x.2) ∧ (∀ n, n ∈ ls ↔ d n ≠ none) ∧
    pendingDir toyDe 0 d ls = .ok [7] ∧ ∀ k, view k none h = none := by
  refine ⟨[(0, .stopped ['a'] 7)], storeUpTo (fun _ => none) ['a'] [[7]] 2, [".a.tmp".toList],
    .cons (.stopped rfl (by decide)) .nil, ?_, ?_, by rfl, fun k => rfl⟩
  · intro x hx
    simp only [List.mem_cons, List.not_mem_nil, or_false] at hx
    subst hx
    exact ⟨by decide, by decide⟩
  · intro n
    by_cases hn : n = ".a.tmp".toList
    · subst hn
      simp only [List.mem_cons, true_or, true_iff, ne_eq]
      intro h
      cases h
    · have : storeUpTo (fun _ => none) ['a'] [[7]] 2 n = none := storeUpTo_other _ _ _ 2 (by decide) n hn
      rw [this]
      simp only [List.mem_cons, hn, List.not_mem_nil, or_false, ne_eq, not_true]

theorem decodeRows_spec {V : Type} (de : Bytes → Option V) (t : Table) (h : ∀ r ∈ t, de r.contents ≠ none) :
    ∃ l, decodeRows de t = .ok l ∧ ∀ v, v ∈ l ↔ ∃ r ∈ t, de r.contents = some v := by
  induction t with
  | nil => exact ⟨[], rfl, by simp⟩
  | cons r rs ih =>
    obtain ⟨l, hl, hm⟩ := ih (fun r hr => h r (by simp [hr]))
    cases hd : de r.contents with
    | none => exact absurd hd (h r (by simp))
    | some v =>
      refine ⟨v :: l, by simp [decodeRows, hd, hl], fun w => ?_⟩
      rw [List.mem_cons, hm w]
      constructor
      · rintro (rfl | ⟨r', h1, h2⟩)
        · exact ⟨r, by simp, hd⟩
        · exact ⟨r', by simp [h1], h2⟩
      · rintro ⟨r', h1, h2⟩
        rcases List.mem_cons.1 h1 with rfl | h1
        · rw [hd] at h2; cases h2; exact .inl rfl
        · exact .inr ⟨r', h1, h2⟩

/-- **C31** (database stores): for every table the query returns exactly the vouchers due. -/
theorem C31_database {V : Type} (de : Bytes → Option V) (now : Nat) (t : Table)
    (h : ∀ r ∈ t, de r.contents ≠ none) :
    ∃ l, pendingDb de now t = .ok l ∧ ∀ v, v ∈ l ↔ ∃ r ∈ t, de r.contents = some v ∧ r.to2 ≠ some true ∧
      ∀ w, r.to0 = some w → w < ((now / second : Nat) : Int) := by
  obtain ⟨l, hl, hm⟩ := decodeRows_spec de (dbSelect t false ((now / second : Nat) : Int)) (by
    intro r hr
    exact h r (List.mem_filter.1 hr).1)
  refine ⟨l, hl, fun v => ?_⟩
  rw [hm v]
  have sel : ∀ r : Row, ((match r.to0 with
      | none => true
      | some s => decide (s < ((now / second : Nat) : Int))) &&
    (match r.to2 with
      | none => true
      | some b => b == false)) = true ↔ (r.to2 ≠ some true ∧ ∀ w, r.to0 = some w → w < ((now / second : Nat) : Int)) := by
    intro r
    cases h0 : r.to0 with
    | none =>
      cases h2 : r.to2 with
      | none => simp
      | some b => cases b <;> simp
    | some w =>
      cases h2 : r.to2 with
      | none => simp
      | some b => cases b <;> simp
  constructor
  · rintro ⟨r, h1, h2⟩
    obtain ⟨g1, g2⟩ := List.mem_filter.1 h1
    exact ⟨r, g1, h2, (sel r).1 g2⟩
  · rintro ⟨r, g1, h2, g2⟩
    exact ⟨r, List.mem_filter.2 ⟨g1, (sel r).2 g2⟩, h2⟩

/-- The other query of the database stores ignores its first parameter: asked for vouchers whose
onboarding has been performed it does not return one, and returns one whose onboarding has not. -/
theorem C31_parameter_violated : ∃ (t : Table) (r r' : Row), r ∈ t ∧ r.to2 = some true ∧ r' ∈ t ∧ r'.to2 = some false ∧
    dbQueryTo2To0 (fun b => some b) t true 10 = .ok [r'.contents] ∧ r.contents ≠ r'.contents :=
  ⟨[⟨['a'], [1], some true, none, none⟩, ⟨['b'], [2], some false, none, none⟩],
    ⟨['a'], [1], some true, none, none⟩, ⟨['b'], [2], some false, none, none⟩, List.mem_cons_self, rfl,
    List.mem_cons_of_mem _ List.mem_cons_self, rfl, by rfl, by decide⟩

/-- A history for the example: two vouchers, one onboarded, one with a wait time in the past. -/
def toyHistory : List (Nat × Op UInt8) :=
  [ (0, .store ['a'] 1), (0, .store ['b'] 2), (5000000000, .setMeta ['a'] to2Key (.flag true)),
    (5000000000, .setMeta ['b'] to0Key (.after 3000000000)), (6000000000, .setExpiry ['a'] 9000000000),
    (7000000000, .load ['a']), (8000000000, .maintain) ]

example : (∀ x ∈ toyHistory, Usual x.1 x.2) ∧ (∀ x ∈ toyHistory, OwnerMeta x.1 x.2) ∧
    (∀ v, toyDe (toySer v) = some v) ∧
    visible 9000000000 (view ['a'] none toyHistory) = some 1 ∧
    visible 16000000000 (view ['a'] none toyHistory) = none := by
  refine ⟨?_, ?_, fun v => rfl, rfl, rfl⟩
  · intro x hx
    simp only [toyHistory, List.mem_cons, List.not_mem_nil, or_false] at hx
    rcases hx with rfl | rfl | rfl | rfl | rfl | rfl | rfl
    · exact ⟨by decide, by decide⟩
    · exact ⟨by decide, by decide⟩
    · exact ⟨⟨by decide, by decide⟩, by decide, fun d hd => by cases hd⟩
    · refine ⟨⟨by decide, by decide⟩, by decide, fun d hd => ?_⟩
      cases hd
      decide
    · exact ⟨⟨by decide, by decide⟩, by decide⟩
    · exact ⟨by decide, by decide⟩
    · trivial
  · intro x hx
    simp only [toyHistory, List.mem_cons, List.not_mem_nil, or_false] at hx
    rcases hx with rfl | rfl | rfl | rfl | rfl | rfl | rfl
    · trivial
    · trivial
    · exact ⟨fun _ => ⟨true, rfl⟩, fun h => absurd h (by decide)⟩
    · exact ⟨fun h => absurd h (by decide), fun _ => ⟨_, rfl, by decide⟩⟩
    · trivial
    · trivial
    · trivial

/-! ### C32 -/

section Database
variable {V : Type} (ser : V → Bytes) (de : Bytes → Option V) (guidOf : V → Name)

/-- One operation on a database store. Inserts and updates are atomic, so an interrupted store operation
has no effect. -/
def dbStep (kind : Kind) (now : Nat) (t : Table) : Op V → Res SErr Table
  | .load k =>
    match dbLoad de t k with
    | .ok _ => .ok t
    | .err e => .err e
    | .panic => .panic
  | .store k v =>
    match dbStore t (if kind = .rendezvous then k else guidOf v) (ser v) with
    | (t', .ok _) => .ok t'
    | (_, .err e) => .err e
    | (_, .panic) => .panic
  | .stopped _ _ => .ok t
  | .delete k => .ok (dbDestroy t k)
  | .setExpiry k d =>
    match dbSetMeta kind now t k ttlKey (.after (d : Int)) with
    | (t', .ok _) => .ok t'
    | (_, .err e) => .err e
    | (_, .panic) => .panic
  | .setMeta k m v =>
    match dbSetMeta kind now t k m v with
    | (t', .ok _) => .ok t'
    | (_, .err e) => .err e
    | (_, .panic) => .panic
  | .clearExpiry k => .ok (dbClearMeta kind t k)
  | .clearMeta k _ => .ok (dbClearMeta kind t k)
  | .maintain => .ok (dbMaintain kind now t)

/-- A history on a database store, up to the first failure. -/
def dbRun (kind : Kind) : Table → List (Nat × Op V) → Res SErr Table
  | t, [] => .ok t
  | t, (now, op) :: h =>
    match dbStep ser de guidOf kind now t op with
    | .ok t' => dbRun kind t' h
    | .err e => .err e
    | .panic => .panic

/-- Operations the database stores carry out like the directory store, given what is stored under each
key: no store under a key in use, no load of a key not in use or expired, metadata of the kind the table
has columns for, and metadata cleared only where the other one is unset. Vouchers are stored under their
own GUID. -/
def Careful (kind : Kind) (t : Nat) (A : Name → Option (Entry V)) : Op V → Prop
  | .load k => ∃ e, A k = some e ∧ ¬ e.past t
  | .store k v => A k = none ∧ (kind = .rendezvous ∨ guidOf v = k)
  | .stopped _ _ => True
  | .delete _ => True
  | .setExpiry _ _ => kind ≠ .owner
  | .setMeta _ m v => kind = .owner ∧ ((m = to2Key ∧ ∃ b, v = .flag b) ∨ (m = to0Key ∧ ∃ d, v = .after d))
  | .clearExpiry _ => kind ≠ .owner
  | .clearMeta k m => kind = .owner ∧ ∀ e, A k = some e →
      (m = to2Key ∧ e.attrs to0Key = none) ∨ (m = to0Key ∧ e.attrs to2Key = none)
  | .maintain => True

/-- All operations of a history are careful. -/
def CarefulAll (kind : Kind) (A : Name → Option (Entry V)) : List (Nat × Op V) → Prop
  | [] => True
  | (t, op) :: h => Careful guidOf kind t A op ∧ CarefulAll kind (fun k => after k t op (A k)) h

/-- A row represents an entry. -/
structure RowOf (kind : Kind) (r : Row) (e : Entry V) : Prop where
  contents : r.contents = ser e.value
  ttl : r.ttl = e.expiry.map (fun s => (s : Int))
  to2 : e.attrs to2Key = r.to2.map Meta.flag
  to0 : e.attrs to0Key = r.to0.map Meta.time
  owner : kind = .owner → e.expiry = none

/-- A table represents a map. -/
structure DRel (kind : Kind) (t : Table) (A : Name → Option (Entry V)) : Prop where
  unique : t.Pairwise (fun a b => a.guid ≠ b.guid)
  rows : ∀ r ∈ t, ∃ e, A r.guid = some e ∧ RowOf ser kind r e
  keys : ∀ k e, A k = some e → ∃ r ∈ t, r.guid = k

variable {ser de guidOf}

theorem find_row {t : Table} {r : Row} (hu : t.Pairwise (fun a b => a.guid ≠ b.guid)) (hr : r ∈ t) :
    t.find? (fun x => x.guid = r.guid) = some r := by
  induction t with
  | nil => cases hr
  | cons a l ih =>
    rw [List.pairwise_cons] at hu
    rcases List.mem_cons.1 hr with rfl | hr
    · simp
    · rw [List.find?_cons_of_neg (by simpa using hu.1 r hr)]
      exact ih hu.2 hr

/-- A load of a key in use. -/
theorem DRel.load (hc : ∀ v, de (ser v) = some v) {kind : Kind} {t : Table} {A : Name → Option (Entry V)}
    (R : DRel ser kind t A) {k : Name} {e : Entry V} (he : A k = some e) : dbLoad de t k = .ok (some e.value) := by
  obtain ⟨r, hr, hk⟩ := R.keys k e he
  obtain ⟨e', he', ho⟩ := R.rows r hr
  rw [hk, he] at he'
  cases he'
  have := find_row R.unique hr
  rw [hk] at this
  unfold dbLoad
  rw [this]
  simp only [ho.contents, hc]

theorem DRel.update {kind : Kind} {t : Table} {A : Name → Option (Entry V)} (R : DRel ser kind t A) (k : Name)
    (g : Row → Row) (g' : Entry V → Entry V) (hg : ∀ r, (g r).guid = r.guid)
    (h : ∀ r e, A k = some e → RowOf ser kind r e → RowOf ser kind (g r) (g' e)) :
    DRel ser kind (t.update k g) (fun k' => if k = k' then (A k').map g' else A k') where
  unique := by
    unfold Table.update
    rw [List.pairwise_map]
    refine R.unique.imp ?_
    intro a b hab
    have : ∀ r : Row, (if r.guid = k then g r else r).guid = r.guid := by
      intro r; split
      · exact hg r
      · rfl
    rw [this, this]
    exact hab
  rows := by
    intro r hr
    obtain ⟨r0, hr0, rfl⟩ := List.mem_map.1 hr
    obtain ⟨e, he, ho⟩ := R.rows r0 hr0
    by_cases c : r0.guid = k
    · rw [if_pos c, hg, c, if_pos rfl]
      rw [c] at he
      exact ⟨g' e, by rw [he]; rfl, h _ _ he ho⟩
    · rw [if_neg c, if_neg (Ne.symm c)]
      exact ⟨e, he, ho⟩
  keys := by
    intro k' e he
    have : ∃ e0, A k' = some e0 := by
      split at he
      · obtain ⟨e0, h0, _⟩ := Option.map_eq_some_iff.1 he
        exact ⟨e0, h0⟩
      · exact ⟨e, he⟩
    obtain ⟨e0, h0⟩ := this
    obtain ⟨r, hr, hk⟩ := R.keys k' e0 h0
    refine ⟨if r.guid = k then g r else r, List.mem_map.2 ⟨r, hr, rfl⟩, ?_⟩
    split
    · rw [hg, hk]
    · exact hk

theorem DRel.filter {kind : Kind} {t : Table} {A B : Name → Option (Entry V)} (R : DRel ser kind t A) (p : Row → Bool)
    (h1 : ∀ r e, A r.guid = some e → RowOf ser kind r e → p r = true → B r.guid = some e)
    (h2 : ∀ r e, A r.guid = some e → RowOf ser kind r e → p r = false → B r.guid = none)
    (h3 : ∀ k, A k = none → B k = none) : DRel ser kind (t.filter p) B where
  unique := R.unique.filter p
  rows := by
    intro r hr
    obtain ⟨hr, hp⟩ := List.mem_filter.1 hr
    obtain ⟨e, he, ho⟩ := R.rows r hr
    exact ⟨e, h1 r e he ho hp, ho⟩
  keys := by
    intro k e he
    cases hA : A k with
    | none => rw [h3 k hA] at he; cases he
    | some e0 =>
      obtain ⟨r, hr, hk⟩ := R.keys k e0 hA
      obtain ⟨e1, he1, ho⟩ := R.rows r hr
      cases hp : p r with
      | true => exact ⟨r, List.mem_filter.2 ⟨hr, hp⟩, hk⟩
      | false =>
        have := h2 r e1 he1 ho hp
        rw [hk, he] at this
        cases this

theorem DRel.congr {kind : Kind} {t : Table} {A B : Name → Option (Entry V)} (R : DRel ser kind t A)
    (h : ∀ k, A k = B k) : DRel ser kind t B := by
  have : A = B := funext h
  exact this ▸ R

theorem timestamp_ok {now : Nat} {d : Int} (h0 : 0 ≤ ((now : Int) + d) / (second : Int))
    (h1 : ((now : Int) + d) / (second : Int) ≤ maxTime) :
    MValue.timestamp now d = .ok (((now : Int) + d) / (second : Int)) := by
  unfold MValue.timestamp
  unfold maxTime at h1
  simp only
  rw [if_neg (by omega)]

/-- One careful operation succeeds and has the effect on the map. -/
theorem dbStep_rel (hc : ∀ v, de (ser v) = some v) {kind : Kind} {t : Table} {A : Name → Option (Entry V)}
    (R : DRel ser kind t A) {now : Nat} {op : Op V} (hu : Usual now op) (hs : Careful guidOf kind now A op) :
    ∃ t', dbStep ser de guidOf kind now t op = .ok t' ∧ DRel ser kind t' (fun k => after k now op (A k)) := by
  cases op with
  | load k =>
    obtain ⟨e, he, hp⟩ := hs
    refine ⟨t, by simp only [dbStep, R.load hc he], R.congr ?_⟩
    intro k'
    simp only [after]
    split
    · rename_i c
      subst c
      rw [he, filter_not_past_some hp]
    · rfl
  | stopped k v => exact ⟨t, rfl, R⟩
  | store k v =>
    obtain ⟨hA, hk⟩ := hs
    have hkey : (if kind = .rendezvous then k else guidOf v) = k := by
      rcases hk with hk | hk
      · rw [if_pos hk]
      · rw [hk]; split <;> rfl
    have hno : ∀ r ∈ t, r.guid ≠ k := by
      intro r hr e
      obtain ⟨e', he', _⟩ := R.rows r hr
      rw [e, hA] at he'
      cases he'
    refine ⟨t ++ [⟨k, ser v, none, none, none⟩], ?_, ?_⟩
    · have : t.any (fun r => r.guid = k) = false := by
        rw [List.any_eq_false]
        intro r hr
        simp [hno r hr]
      simp only [dbStep, hkey, dbStore, this]
      rfl
    · constructor
      · rw [List.pairwise_append]
        refine ⟨R.unique, List.pairwise_singleton _ _, ?_⟩
        intro a ha b hb
        rw [List.mem_singleton] at hb
        subst hb
        exact hno a ha
      · intro r hr
        rcases List.mem_append.1 hr with hr | hr
        · obtain ⟨e, he, ho⟩ := R.rows r hr
          refine ⟨e, ?_, ho⟩
          simp only [after]
          rw [if_neg (Ne.symm (hno r hr)), he]
        · rw [List.mem_singleton] at hr
          subst hr
          refine ⟨⟨v, none, fun _ => none⟩, by simp [after], ⟨rfl, rfl, rfl, rfl, fun _ => rfl⟩⟩
      · intro k' e he
        simp only [after] at he
        by_cases c : k = k'
        · exact ⟨_, List.mem_append_right _ (List.mem_singleton.2 rfl), c⟩
        · rw [if_neg c] at he
          obtain ⟨r, hr, hk⟩ := R.keys k' e he
          exact ⟨r, List.mem_append_left _ hr, hk⟩
  | delete k =>
    refine ⟨_, rfl, R.filter _ ?_ ?_ ?_⟩
    · intro r e he _ hp
      simp only [Bool.not_eq_true', decide_eq_false_iff_not] at hp
      simp only [after]
      rw [if_neg (Ne.symm hp), he]
    · intro r e he _ hp
      simp only [Bool.not_eq_false', decide_eq_true_eq] at hp
      simp only [after]
      rw [if_pos hp.symm]
    · intro k' h
      simp only [after]
      split
      · rfl
      · exact h
  | setExpiry k d =>
    obtain ⟨_, hb⟩ := hu
    have hk : kind ≠ .owner := hs
    have e : ((now : Int) + (d : Int)) / (second : Int) = (((now + d) / second : Nat) : Int) := by
      rw [Int.natCast_ediv]; rfl
    have ht : MValue.timestamp now (d : Int) = .ok (((now + d) / second : Nat) : Int) := by
      rw [← e]
      exact timestamp_ok (by rw [e]; exact Int.natCast_nonneg _) (by rw [e]; exact hb)
    refine ⟨t.update k (fun r => { r with ttl := some (((now + d) / second : Nat) : Int) }), ?_, ?_⟩
    · cases kind with
      | owner => exact absurd rfl hk
      | manufacturer => simp only [dbStep, dbSetMeta, ht]
      | rendezvous => simp only [dbStep, dbSetMeta, ht]
    · refine R.update k _ (fun e => { e with expiry := some ((now + d) / second) }) (fun _ => rfl) ?_
      intro r e _ ho
      exact ⟨ho.contents, rfl, ho.to2, ho.to0, fun h => absurd h hk⟩
  | setMeta k m v =>
    obtain ⟨hk, hm⟩ := hs
    obtain ⟨_, _, hr⟩ := hu
    subst hk
    have hne : to0Key ≠ to2Key := by decide
    rcases hm with ⟨rfl, b, rfl⟩ | ⟨rfl, d, rfl⟩
    · refine ⟨t.update k (fun r => { r with to2 := some b }), by simp only [dbStep, dbSetMeta, if_true], ?_⟩
      refine R.update k _ (fun e => { e with attrs := fun m' => if m' = to2Key then some (metaOf now (.flag b)) else e.attrs m' })
        (fun _ => rfl) ?_
      intro r e _ ho
      refine ⟨ho.contents, ho.ttl, ?_, ?_, ho.owner⟩
      · simp only [if_true]; rfl
      · simp only [if_neg hne]; exact ho.to0
    · obtain ⟨h0, h1⟩ := hr d rfl
      refine ⟨t.update k (fun r => { r with to0 := some (((now : Int) + d) / (second : Int)) }), ?_, ?_⟩
      · simp only [dbStep, dbSetMeta, if_neg hne, if_true, timestamp_ok h0 h1]
      · refine R.update k _ (fun e => { e with attrs := fun m' => if m' = to0Key then some (metaOf now (.after d)) else e.attrs m' })
          (fun _ => rfl) ?_
        intro r e _ ho
        refine ⟨ho.contents, ho.ttl, ?_, ?_, ho.owner⟩
        · simp only [if_neg (Ne.symm hne)]; exact ho.to2
        · simp only [if_true]; rfl
  | clearExpiry k =>
    have hk : kind ≠ .owner := hs
    refine ⟨t.update k (fun r => { r with ttl := none }), ?_, ?_⟩
    · cases kind with
      | owner => exact absurd rfl hk
      | manufacturer => rfl
      | rendezvous => rfl
    · refine R.update k _ (fun e => { e with expiry := none }) (fun _ => rfl) ?_
      intro r e _ ho
      exact ⟨ho.contents, rfl, ho.to2, ho.to0, fun _ => rfl⟩
  | clearMeta k m =>
    obtain ⟨hk, hm⟩ := hs
    subst hk
    have hne : to0Key ≠ to2Key := by decide
    refine ⟨t.update k (fun r => { r with to0 := none, to2 := none }), rfl, ?_⟩
    refine R.update k _ (fun e => { e with attrs := fun m' => if m' = m then none else e.attrs m' }) (fun _ => rfl) ?_
    intro r e he ho
    refine ⟨ho.contents, ho.ttl, ?_, ?_, ho.owner⟩
    · rcases hm e he with ⟨rfl, _⟩ | ⟨rfl, h⟩
      · simp
      · simp only [if_neg (Ne.symm hne), h]; rfl
    · rcases hm e he with ⟨rfl, h⟩ | ⟨rfl, _⟩
      · simp only [if_neg hne, h]; rfl
      · simp
  | maintain =>
    by_cases hk : kind = .owner
    · subst hk
      refine ⟨t, rfl, R.congr ?_⟩
      intro k
      cases hA : A k with
      | none => rfl
      | some e =>
        obtain ⟨r, hr, hk⟩ := R.keys k e hA
        obtain ⟨e', he', ho⟩ := R.rows r hr
        rw [hk, hA] at he'
        cases he'
        have : ¬ e.due now := by
          rintro ⟨s, h, _⟩
          rw [ho.owner rfl] at h
          cases h
        simp [after, Option.filter, this]
    · refine ⟨t.filter (fun r => match r.ttl with
        | none => true
        | some s => !(decide (s ≤ ((now / second : Nat) : Int)))), ?_, ?_⟩
      · cases kind with
        | owner => exact absurd rfl hk
        | manufacturer => rfl
        | rendezvous => rfl
      · have key : ∀ (r : Row) (e : Entry V), RowOf ser kind r e →
            ((match r.ttl with
              | none => true
              | some s => !(decide (s ≤ ((now / second : Nat) : Int)))) = true ↔ ¬ e.due now) := by
          intro r e ho
          have hpos : 0 < second := by decide
          cases hx : e.expiry with
          | none =>
            have ht : r.ttl = none := by rw [ho.ttl, hx]; rfl
            rw [ht]
            refine ⟨fun _ => ?_, fun _ => rfl⟩
            rintro ⟨s, h, _⟩
            rw [hx] at h; cases h
          | some s =>
            have ht : r.ttl = some (s : Int) := by rw [ho.ttl, hx]; rfl
            rw [ht]
            have hd : ((s : Int) ≤ ((now / second : Nat) : Int)) ↔ e.due now := by
              rw [Int.ofNat_le, Nat.le_div_iff_mul_le hpos]
              constructor
              · intro h; exact ⟨s, hx, h⟩
              · rintro ⟨s', h1, h2⟩; rw [hx] at h1; cases h1; exact h2
            rw [← hd]
            simp
        refine R.filter _ ?_ ?_ ?_
        · intro r e he ho hp
          have := (key r e ho).1 hp
          simp [after, he, Option.filter, this]
        · intro r e he ho hp
          have : e.due now := Classical.not_not.1 (fun c => by rw [(key r e ho).2 c] at hp; cases hp)
          simp [after, he, Option.filter, this]
        · intro k h
          simp [after, h]

theorem dbRun_rel (hc : ∀ v, de (ser v) = some v) {kind : Kind} (h : List (Nat × Op V)) {t : Table}
    {A : Name → Option (Entry V)} (R : DRel ser kind t A) (hu : ∀ x ∈ h, Usual x.1 x.2)
    (hs : CarefulAll guidOf kind A h) :
    ∃ t', dbRun ser de guidOf kind t h = .ok t' ∧ DRel ser kind t' (fun k => view k (A k) h) := by
  induction h generalizing t A with
  | nil => exact ⟨t, rfl, R⟩
  | cons x r ih =>
    obtain ⟨now, op⟩ := x
    obtain ⟨t1, h1, R1⟩ := dbStep_rel hc R (hu (now, op) (by simp)) hs.1
    obtain ⟨t2, h2, R2⟩ := ih R1 (fun x hx => hu x (by simp [hx])) hs.2
    exact ⟨t2, by simp only [dbRun, h1, h2], R2⟩

theorem drel_empty (kind : Kind) : DRel ser kind [] (fun _ => (none : Option (Entry V))) :=
  ⟨List.Pairwise.nil, fun _ hr => (nomatch hr), fun _ _ h => (nomatch h)⟩

/-- **C32**: every careful history succeeds on a database store, and afterwards a load of any key which is
in use and not expired has the result of the directory store after the same history. Missing: the
operations excluded by `Careful`; see the `C32_…_violated` theorems. -/
theorem C32_like_directory_partial (hc : ∀ v, de (ser v) = some v) (kind : Kind) (h : List (Nat × Op V))
    (hu : ∀ x ∈ h, Usual x.1 x.2) (hs : CarefulAll guidOf kind (fun _ => none) h) :
    ∃ t, dbRun ser de guidOf kind [] h = .ok t ∧
      ∀ d, Exec ser de (fun _ => none) h d → ∀ k now e, Good k → view k none h = some e → ¬ e.past now →
        dbLoad de t k = .ok (some e.value) ∧ dbLoad de t k = (load de now d k).2 := by
  obtain ⟨t, h1, R⟩ := dbRun_rel hc h (drel_empty kind) hu hs
  refine ⟨t, h1, fun d he k now e hk hv hp => ?_⟩
  have hl := R.load hc hv
  refine ⟨hl, ?_⟩
  have hd := (load_spec hc (exec_rel hc he (rel_empty ser) hu) hk now).1
  rw [hd, hl, hv]
  simp [visible, Option.filter, hp]

/-- **C31**, **C32**: after a careful history of the owner's voucher store without interrupted operations
the directory store and the database store find the same vouchers due for registration. -/
theorem C31_backends_agree_partial (hc : ∀ v, de (ser v) = some v) (h : List (Nat × Op V))
    (hu : ∀ x ∈ h, Usual x.1 x.2) (hs : CarefulAll guidOf .owner (fun _ => none) h)
    (ho : ∀ x ∈ h, OwnerMeta x.1 x.2) (hno : ∀ x ∈ h, ∀ k v, x.2 ≠ .stopped k v) :
    ∃ t, dbRun ser de guidOf .owner [] h = .ok t ∧
      ∀ d, Exec ser de (fun _ => none) h d → ∀ now ls, (∀ n, n ∈ ls ↔ d n ≠ none) →
        ∃ l l', pendingDir de now d ls = .ok l ∧ pendingDb de now t = .ok l' ∧ ∀ v, v ∈ l ↔ v ∈ l' := by
  obtain ⟨t, h1, R⟩ := dbRun_rel hc h (drel_empty .owner) hu hs
  refine ⟨t, h1, fun d he now ls hls => ?_⟩
  obtain ⟨l, hl, hm⟩ := C31_directory_partial hc h d he hu ho hno now ls hls
  obtain ⟨l', hl', hm'⟩ := C31_database de now t (by
    intro r hr
    obtain ⟨e, _, hr⟩ := R.rows r hr
    rw [hr.contents, hc]; simp)
  -- keys in use are good
  have good : ∀ (h : List (Nat × Op V)) (e : Option (Entry V)) (k : Name), e = none ∨ Good k →
      (∀ x ∈ h, ∀ k v, x.2 = .store k v → Good k) → view k e h = none ∨ Good k := by
    intro h
    induction h with
    | nil => intro e k hk _; exact hk
    | cons x r ih =>
      intro e k hk hg
      obtain ⟨t0, op⟩ := x
      refine ih _ k ?_ (fun x hx => hg x (by simp [hx]))
      rcases hk with rfl | hk
      · by_cases c : ∃ v, op = .store k v
        · obtain ⟨v, rfl⟩ := c
          exact .inr (hg (t0, .store k v) (by simp) k v rfl)
        · left
          cases op with
          | store k' v =>
            simp only [after]
            split
            · rename_i h; subst h; exact absurd ⟨v, rfl⟩ c
            · rfl
          | _ => simp [after]
      · exact .inr hk
  refine ⟨l, l', hl, hl', fun v => ?_⟩
  rw [hm v, hm' v]
  have pend : ∀ (r : Row) (e : Entry V), RowOf ser .owner r e → (Pending now e ↔
      (r.to2 ≠ some true ∧ ∀ w, r.to0 = some w → w < ((now / second : Nat) : Int))) := by
    intro r e hr
    unfold Pending
    rw [hr.to2, hr.to0]
    constructor
    · rintro ⟨a, b⟩
      refine ⟨fun c => a (by rw [c]; rfl), fun w hw => b w (by rw [hw]; rfl)⟩
    · rintro ⟨a, b⟩
      refine ⟨fun c => ?_, fun w hw => ?_⟩
      · obtain ⟨x, hx, hxe⟩ := Option.map_eq_some_iff.1 c
        cases hxe
        exact a hx
      · obtain ⟨x, hx, hxe⟩ := Option.map_eq_some_iff.1 hw
        cases hxe
        exact b w hx
  constructor
  · rintro ⟨k, e, hk, hv, hp, rfl⟩
    obtain ⟨r, hr, hrk⟩ := R.keys k e hv
    obtain ⟨e', he', ho'⟩ := R.rows r hr
    rw [hrk] at he'
    simp only [hv] at he'
    cases he'
    exact ⟨r, hr, by rw [ho'.contents, hc], (pend r e ho').1 hp⟩
  · rintro ⟨r, hr, hd, hp⟩
    obtain ⟨e, he', ho'⟩ := R.rows r hr
    have hv : e.value = v := by
      rw [ho'.contents, hc] at hd
      exact Option.some.inj hd
    refine ⟨r.guid, e, ?_, he', (pend r e ho').2 hp, hv⟩
    rcases good h none r.guid (.inl rfl)
      (fun x hx k v e => by have := hu x hx; rw [e] at this; exact this) with c | c
    · simp only [c] at he'
      cases he'
    · exact c

end Database

/-- The full C32 is false: storing under a key in use fails and leaves the old value. -/
theorem C32_replace_violated : ∃ (t : Table) (k : Name),
    dbStep toySer toyDe (fun _ => k) .rendezvous 0 [] (.store k 1) = .ok t ∧
    dbStep toySer toyDe (fun _ => k) .rendezvous 0 t (.store k 2) = .err .database ∧
    (dbStore t k (toySer 2)).1 = t ∧ dbLoad toyDe t k = .ok (some 1) :=
  ⟨[⟨['a'], [1], none, none, none⟩], ['a'], by rfl, by rfl, by rfl, by rfl⟩

/-- Loading a key not in use panics, whatever the table. -/
theorem C32_missing_violated {V : Type} (de : Bytes → Option V) (t : Table) (k : Name) (h : ∀ r ∈ t, r.guid ≠ k) :
    dbLoad de t k = .panic := by
  unfold dbLoad
  rw [List.find?_eq_none.2 (fun r hr => by simpa using h r hr)]

/-- Clearing the wait time of a voucher clears the record that its onboarding was performed, which makes
it due for registration again. -/
theorem C32_clear_violated : ∃ (t : Table) (k : Name) (h : List (Nat × Op UInt8)),
    dbRun toySer toyDe (fun _ => k) .owner [] h = .ok t ∧ h.getLast? = some (0, .clearMeta k to0Key) ∧
    (0, .setMeta k to2Key (.flag true)) ∈ h ∧ pendingDb toyDe 10000000000 t = .ok [1] :=
  ⟨[⟨['a'], [1], none, none, none⟩], ['a'],
    [(0, .store ['a'] 1), (0, .setMeta ['a'] to2Key (.flag true)), (0, .setMeta ['a'] to0Key (.after 0)),
      (0, .clearMeta ['a'] to0Key)], by rfl, by rfl, by simp, by rfl⟩

/-- An expired registration is still returned by a load (until the next maintenance run). -/
theorem C32_expired_violated : ∃ (t : Table) (k : Name) (h : List (Nat × Op UInt8)),
    dbRun toySer toyDe (fun _ => k) .rendezvous [] h = .ok t ∧ visible 9000000000 (view k none h) = none ∧
    dbLoad toyDe t k = .ok (some 1) :=
  ⟨[⟨['a'], [1], none, none, some 5⟩], ['a'], [(0, .store ['a'] 1), (0, .setExpiry ['a'] 5000000000)],
    by rfl, by rfl, by rfl⟩

/-- A history of the owner's store which meets the hypotheses of the two theorems above. -/
def toyOwnerHistory : List (Nat × Op UInt8) :=
  [ (0, .store ['a'] 1), (0, .store ['b'] 2), (5000000000, .setMeta ['a'] to2Key (.flag true)),
    (5000000000, .setMeta ['b'] to0Key (.after 3000000000)), (7000000000, .load ['a']),
    (7000000000, .clearMeta ['b'] to0Key), (8000000000, .maintain) ]

example : CarefulAll (fun v : UInt8 => if v = 1 then ['a'] else ['b']) .owner (fun _ => none) toyOwnerHistory := by
  refine ⟨⟨rfl, .inr rfl⟩, ⟨rfl, .inr rfl⟩, ⟨rfl, .inl ⟨rfl, true, rfl⟩⟩, ⟨rfl, .inr ⟨rfl, _, rfl⟩⟩, ⟨_, rfl, ?_⟩,
    ⟨rfl, ?_⟩, trivial, trivial⟩
  · rintro ⟨s, h, _⟩
    cases h
  · intro e he
    right
    refine ⟨rfl, ?_⟩
    cases he
    rfl

end Verif.Store

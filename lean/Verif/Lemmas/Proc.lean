import Verif.Model.Prog
/-!
Taking apart programs written as a sequence of steps.
-/
namespace Verif.Proc
open Verif
variable {S : Sig} {α β ε : Type}

theorem ends_ask_bind {e : S.Eff} {f : S.Ans e → Proc S ε β} {t : Trace S} {b : β}
    (h : Prog.Ends (ask e >>= f : Proc S ε β) t (.ok b)) :
    ∃ a t', t = ⟨e, a⟩ :: t' ∧ Prog.Ends (f a) t' (.ok b) := Prog.ends_act h

theorem ends_some_bind {e : ε} {o : Option α} {f : α → Proc S ε β} {t : Trace S} {b : β}
    (h : Prog.Ends (some? e o >>= f : Proc S ε β) t (.ok b)) : ∃ a, o = some a ∧ Prog.Ends (f a) t (.ok b) := by
  cases o with
  | some a => exact ⟨a, rfl, h⟩
  | none => cases (Prog.ends_ret h).2

theorem ends_check_bind {e : ε} {c : Bool} {f : Unit → Proc S ε β} {t : Trace S} {b : β}
    (h : Prog.Ends (check e c >>= f : Proc S ε β) t (.ok b)) : c = true ∧ Prog.Ends (f ()) t (.ok b) := by
  cases c with
  | true => exact ⟨rfl, h⟩
  | false => cases (Prog.ends_ret h).2

theorem ends_lift_bind {r : Res ε α} {f : α → Proc S ε β} {t : Trace S} {b : β}
    (h : Prog.Ends (lift r >>= f : Proc S ε β) t (.ok b)) : ∃ a, r = .ok a ∧ Prog.Ends (f a) t (.ok b) := by
  cases r with
  | ok a => exact ⟨a, rfl, h⟩
  | err e => cases (Prog.ends_ret h).2
  | panic => cases (Prog.ends_ret h).2

theorem does_ask_bind {e : S.Eff} {f : S.Ans e → Proc S ε β} {t : Trace S}
    (h : Prog.Does (ask e >>= f : Proc S ε β) t) : t = [] ∨ ∃ a t', t = ⟨e, a⟩ :: t' ∧ Prog.Does (f a) t' := by
  obtain ⟨q, h⟩ := h
  rcases Prog.steps_act h with ⟨h, _⟩ | ⟨a, t', rfl, h'⟩
  · exact .inl h
  · exact .inr ⟨a, t', rfl, q, h'⟩

theorem does_some_bind {e : ε} {o : Option α} {f : α → Proc S ε β} {t : Trace S}
    (h : Prog.Does (some? e o >>= f : Proc S ε β) t) : t = [] ∨ ∃ a, o = some a ∧ Prog.Does (f a) t := by
  cases o with
  | some a => exact .inr ⟨a, rfl, h⟩
  | none => exact .inl (Prog.steps_ret h.choose_spec).1

theorem does_check_bind {e : ε} {c : Bool} {f : Unit → Proc S ε β} {t : Trace S}
    (h : Prog.Does (check e c >>= f : Proc S ε β) t) : t = [] ∨ c = true ∧ Prog.Does (f ()) t := by
  cases c with
  | true => exact .inr ⟨rfl, h⟩
  | false => exact .inl (Prog.steps_ret h.choose_spec).1

theorem does_lift_bind {r : Res ε α} {f : α → Proc S ε β} {t : Trace S}
    (h : Prog.Does (lift r >>= f : Proc S ε β) t) : t = [] ∨ ∃ a, r = .ok a ∧ Prog.Does (f a) t := by
  cases r with
  | ok a => exact .inr ⟨a, rfl, h⟩
  | err e => exact .inl (Prog.steps_ret h.choose_spec).1
  | panic => exact .inl (Prog.steps_ret h.choose_spec).1

/-! ### Deeds that do not happen -/

variable {P : S.Eff → Prop}

theorem only_bind {p : Proc S ε α} {f : α → Proc S ε β} (hp : Prog.Only P p) (hf : ∀ a, Prog.Only P (f a)) :
    Prog.Only P (p >>= f : Proc S ε β) :=
  Prog.only_bind hp fun r => match r with
    | .ok a => hf a
    | .err _ => Prog.only_ret
    | .panic => Prog.only_ret

theorem only_ask {e : S.Eff} (h : P e) : Prog.Only P (ask e : Proc S ε _) := Prog.only_act h fun _ => Prog.only_ret

theorem only_some? {e : ε} {o : Option α} : Prog.Only P (some? e o : Proc S ε α) := by
  cases o <;> exact Prog.only_ret

theorem only_check {e : ε} {b : Bool} : Prog.Only P (check e b : Proc S ε Unit) := by
  cases b <;> exact Prog.only_ret

theorem only_lift {r : Res ε α} : Prog.Only P (lift r : Proc S ε α) := Prog.only_ret

theorem only_pure {a : α} : Prog.Only P (pure a : Proc S ε α) := Prog.only_ret

theorem only_fail {e : ε} : Prog.Only P (fail e : Proc S ε α) := Prog.only_ret

theorem only_attempt {p : Proc S ε α} (h : Prog.Only P p) : Prog.Only P (attempt p) :=
  Prog.only_bind h fun r => match r with
    | .ok _ => Prog.only_ret
    | .err _ => Prog.only_ret
    | .panic => Prog.only_ret

theorem only_ite {p q : Prog S α} {b : Prop} [Decidable b] (hp : Prog.Only P p) (hq : Prog.Only P q) :
    Prog.Only P (if b then p else q) := by
  split
  · exact hp
  · exact hq

/-! ### Reaching a deed -/

/-- The program may do `t` and then `d`. -/
def Reaches (p : Prog S α) (t : Trace S) (d : S.Deed) : Prop := ∃ u, Prog.Does p (t ++ d :: u)

theorem not_reaches {p : Prog S α} {t : Trace S} {d : S.Deed} (h : Prog.Only P p) (hd : ¬ P d.1) : ¬ Reaches p t d :=
  fun ⟨_, hu⟩ => hd (h _ hu d (by simp))

/-- A deed of `p >>= f` is one of `p`, or one of `f` after `p` has succeeded. -/
theorem reaches_bind {p : Proc S ε α} {f : α → Proc S ε β} {t : Trace S} {d : S.Deed}
    (h : Reaches (p >>= f : Proc S ε β) t d) :
    Reaches p t d ∨ ∃ a u t', t = u ++ t' ∧ Prog.Ends p u (.ok a) ∧ Reaches (f a) t' d := by
  obtain ⟨u, h⟩ := h
  rcases does_bind h with h | ⟨a, t1, t2, he, h1, h2⟩
  · exact .inl ⟨u, h⟩
  · rw [List.append_eq_append_iff] at he
    rcases he with ⟨as, rfl, h4⟩ | ⟨bs, rfl, rfl⟩
    · cases as with
      | nil =>
        rw [List.nil_append] at h4
        refine .inr ⟨a, t, [], by simp, by simpa using h1, u, ?_⟩
        rw [← h4] at h2
        exact h2
      | cons x as =>
        rw [List.cons_append, List.cons.injEq] at h4
        obtain ⟨rfl, _⟩ := h4
        exact .inl ⟨as, _, h1⟩
    · exact .inr ⟨a, t1, bs, rfl, h1, u, h2⟩

/-- If `p` does nothing like `d`, only `f` can. -/
theorem reaches_after {p : Proc S ε α} {f : α → Proc S ε β} {t : Trace S} {d : S.Deed} (hp : Prog.Only P p)
    (hd : ¬ P d.1) (h : Reaches (p >>= f : Proc S ε β) t d) :
    ∃ a u t', t = u ++ t' ∧ Prog.Ends p u (.ok a) ∧ Reaches (f a) t' d :=
  (reaches_bind h).resolve_left (not_reaches hp hd)

/-- If the rest does nothing like `d`, only `p` can. -/
theorem reaches_before {p : Proc S ε α} {f : α → Proc S ε β} {t : Trace S} {d : S.Deed} (hf : ∀ a, Prog.Only P (f a))
    (hd : ¬ P d.1) (h : Reaches (p >>= f : Proc S ε β) t d) : Reaches p t d :=
  (reaches_bind h).resolve_right fun ⟨a, _, _, _, _, h⟩ => not_reaches (hf a) hd h

end Verif.Proc

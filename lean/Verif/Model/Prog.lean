import Verif.Basic
/-!
Programs which interact with their surroundings (network, files, clock, randomness). A program is a tree: it
stops with a result, or performs an effect and goes on with the answer. Nothing is assumed about answers, and a
program may be cut off (crash) between any two effects: what it did up to then is its trace.
-/
namespace Verif

/-- The effects available to a program and the answers to them. -/
structure Sig where
  Eff : Type
  Ans : Eff → Type

/-- A program. -/
inductive Prog (S : Sig) (α : Type) where
  | ret (a : α)
  | act (e : S.Eff) (k : S.Ans e → Prog S α)

/-- An effect with its answer. -/
abbrev Sig.Deed (S : Sig) := (e : S.Eff) × S.Ans e

/-- What a program did. -/
abbrev Trace (S : Sig) := List S.Deed

namespace Prog
variable {S : Sig} {α β ε : Type}

/-- First one program, then another one with its result. -/
def bind (p : Prog S α) (f : α → Prog S β) : Prog S β :=
  match p with
  | .ret a => f a
  | .act e k => .act e fun a => bind (k a) f

/-- `Steps p t q`: the program `p` may do `t`, after which `q` is left to be done. -/
inductive Steps : Prog S α → Trace S → Prog S α → Prop
  | nil (p : Prog S α) : Steps p [] p
  | cons {e : S.Eff} {k : S.Ans e → Prog S α} {a : S.Ans e} {t : Trace S} {q : Prog S α} (h : Steps (k a) t q) :
      Steps (.act e k) (⟨e, a⟩ :: t) q

/-- The program may do `t`, and perhaps more. -/
def Does (p : Prog S α) (t : Trace S) : Prop := ∃ q, Steps p t q

/-- The program may do `t` and then stop with result `a`. -/
def Ends (p : Prog S α) (t : Trace S) (a : α) : Prop := Steps p t (.ret a)

/-- Running a program with given surroundings, which have a state. -/
def exec {σ : Type} (env : σ → (e : S.Eff) → σ × S.Ans e) (s : σ) : Prog S α → σ × α
  | .ret a => (s, a)
  | .act e k => exec env (env s e).1 (k (env s e).2)

/-- The trace of such a run. -/
def doings {σ : Type} (env : σ → (e : S.Eff) → σ × S.Ans e) (s : σ) : Prog S α → Trace S
  | .ret _ => []
  | .act e k => ⟨e, (env s e).2⟩ :: doings env (env s e).1 (k (env s e).2)

theorem exec_ends {σ : Type} (env : σ → (e : S.Eff) → σ × S.Ans e) (s : σ) (p : Prog S α) :
    Ends p (doings env s p) (exec env s p).2 := by
  induction p generalizing s with
  | ret a => exact .nil _
  | act e k ih => exact .cons (ih _ _)

theorem steps_ret {a : α} {t : Trace S} {q : Prog S α} (h : Steps (.ret a) t q) : t = [] ∧ q = .ret a := by
  cases h; exact ⟨rfl, rfl⟩

theorem steps_append {p q r : Prog S α} {t u : Trace S} (h : Steps p t q) (h' : Steps q u r) : Steps p (t ++ u) r := by
  induction h with
  | nil => exact h'
  | cons _ ih => exact .cons (ih h')

theorem steps_split {p r : Prog S α} {t u : Trace S} (h : Steps p (t ++ u) r) : ∃ q, Steps p t q ∧ Steps q u r := by
  induction t generalizing p with
  | nil => exact ⟨p, .nil _, h⟩
  | cons x t ih =>
    cases h with
    | cons h =>
      obtain ⟨q, h1, h2⟩ := ih h
      exact ⟨q, .cons h1, h2⟩

/-- A trace of `bind p f`: still in `p`, or `p` has stopped. -/
theorem steps_bind {p : Prog S α} {f : α → Prog S β} {t : Trace S} {q : Prog S β} (h : Steps (bind p f) t q) :
    (∃ p', Steps p t p' ∧ q = bind p' f) ∨ ∃ a t1 t2, t = t1 ++ t2 ∧ Ends p t1 a ∧ Steps (f a) t2 q := by
  induction p generalizing t with
  | ret a => exact .inr ⟨a, [], t, rfl, .nil _, h⟩
  | act e k ih =>
    cases h with
    | nil => exact .inl ⟨_, .nil _, rfl⟩
    | cons h =>
      rcases ih _ h with ⟨p', h1, h2⟩ | ⟨a, t1, t2, rfl, h1, h2⟩
      · exact .inl ⟨p', .cons h1, h2⟩
      · exact .inr ⟨a, _, t2, rfl, .cons h1, h2⟩

theorem bind_steps {p : Prog S α} {f : α → Prog S β} {t1 t2 : Trace S} {a : α} {q : Prog S β} (h1 : Ends p t1 a)
    (h2 : Steps (f a) t2 q) : Steps (bind p f) (t1 ++ t2) q := by
  induction p generalizing t1 with
  | ret b =>
    obtain ⟨rfl, hb⟩ := steps_ret h1
    cases hb
    exact h2
  | act e k ih =>
    cases h1 with
    | cons h => exact .cons (ih _ h)

/-- `bind p f` stops only after `p` has. -/
theorem ends_bind {p : Prog S α} {f : α → Prog S β} {t : Trace S} {b : β} (h : Ends (bind p f) t b) :
    ∃ a t1 t2, t = t1 ++ t2 ∧ Ends p t1 a ∧ Ends (f a) t2 b := by
  rcases steps_bind h with ⟨p', h1, h2⟩ | h
  · cases p' with
    | ret a =>
      refine ⟨a, t, [], by simp, h1, ?_⟩
      change Steps (f a) [] (.ret b)
      rw [h2]
      exact .nil _
    | act e k => simp [bind] at h2
  · exact h

theorem steps_act {e : S.Eff} {k : S.Ans e → Prog S α} {t : Trace S} {q : Prog S α} (h : Steps (.act e k) t q) :
    (t = [] ∧ q = .act e k) ∨ ∃ a t', t = ⟨e, a⟩ :: t' ∧ Steps (k a) t' q := by
  cases h with
  | nil => exact .inl ⟨rfl, rfl⟩
  | cons h => exact .inr ⟨_, _, rfl, h⟩

theorem ends_act {e : S.Eff} {k : S.Ans e → Prog S α} {t : Trace S} {b : α} (h : Ends (.act e k) t b) :
    ∃ a t', t = ⟨e, a⟩ :: t' ∧ Ends (k a) t' b := by
  cases h with
  | cons h => exact ⟨_, _, rfl, h⟩

theorem ends_ret {a b : α} {t : Trace S} (h : Ends (S := S) (.ret a) t b) : t = [] ∧ a = b := by
  cases h; exact ⟨rfl, rfl⟩

/-- All deeds of a program satisfy `P`, whatever the answers. -/
def Only (P : S.Eff → Prop) (p : Prog S α) : Prop := ∀ t, Does p t → ∀ d ∈ t, P d.1

theorem only_ret {P : S.Eff → Prop} {a : α} : Only P (.ret a : Prog S α) := by
  intro t ⟨q, h⟩ d hd
  obtain ⟨rfl, _⟩ := steps_ret h
  cases hd

theorem only_act {P : S.Eff → Prop} {e : S.Eff} {k : S.Ans e → Prog S α} (he : P e) (hk : ∀ a, Only P (k a)) :
    Only P (.act e k) := by
  intro t ⟨q, h⟩ d hd
  rcases steps_act h with ⟨rfl, _⟩ | ⟨a, t', rfl, h'⟩
  · cases hd
  · rcases List.mem_cons.mp hd with rfl | hd
    · exact he
    · exact hk a t' ⟨q, h'⟩ d hd

theorem only_bind {P : S.Eff → Prop} {p : Prog S α} {f : α → Prog S β} (hp : Only P p) (hf : ∀ a, Only P (f a)) :
    Only P (bind p f) := by
  intro t ⟨q, h⟩ d hd
  rcases steps_bind h with ⟨p', h1, _⟩ | ⟨a, t1, t2, rfl, h1, h2⟩
  · exact hp t ⟨_, h1⟩ d hd
  · rcases List.mem_append.mp hd with hd | hd
    · exact hp t1 ⟨_, h1⟩ d hd
    · exact hf a t2 ⟨_, h2⟩ d hd

end Prog

/-- A program that may fail or panic. -/
def Proc (S : Sig) (ε α : Type) := Prog S (Res ε α)

namespace Proc
variable {S : Sig} {α β ε : Type}

/-- Goes on only after success. -/
def bind (p : Proc S ε α) (f : α → Proc S ε β) : Proc S ε β :=
  Prog.bind p fun
    | .ok a => f a
    | .err e => .ret (.err e)
    | .panic => .ret .panic

instance : Monad (Proc S ε) where
  pure a := Prog.ret (.ok a)
  bind := Proc.bind

/-- A result. -/
def lift (r : Res ε α) : Proc S ε α := Prog.ret r

/-- Performing an effect. -/
def ask (e : S.Eff) : Proc S ε (S.Ans e) := Prog.act e fun a => .ret (.ok a)

/-- Failing. -/
def fail (e : ε) : Proc S ε α := Prog.ret (.err e)

/-- Failing unless there is a value. -/
def some? (e : ε) : Option α → Proc S ε α
  | some a => Prog.ret (.ok a)
  | none => Prog.ret (.err e)

/-- Failing unless a condition holds. -/
def check (e : ε) (b : Bool) : Proc S ε Unit := if b then Prog.ret (.ok ()) else Prog.ret (.err e)

/-- Going on with an error as a value. -/
def attempt (p : Proc S ε α) : Proc S ε (Option α) :=
  Prog.bind p fun
    | .ok a => .ret (.ok (some a))
    | .err _ => .ret (.ok none)
    | .panic => .ret .panic

theorem bind_eq (p : Proc S ε α) (f : α → Proc S ε β) : (p >>= f) = Proc.bind p f := rfl

/-- A trace of `p >>= f`: still in `p`, or `p` has failed, or it has succeeded. -/
theorem steps_bind {p : Proc S ε α} {f : α → Proc S ε β} {t : Trace S} {q : Proc S ε β}
    (h : Prog.Steps (p >>= f : Proc S ε β) t q) :
    (∃ p', Prog.Steps p t p') ∨ ∃ a t1 t2, t = t1 ++ t2 ∧ Prog.Ends p t1 (.ok a) ∧ Prog.Steps (f a) t2 q := by
  rcases Prog.steps_bind h with ⟨p', h1, _⟩ | ⟨r, t1, t2, rfl, h1, h2⟩
  · exact .inl ⟨p', h1⟩
  · cases r with
    | ok a => exact .inr ⟨a, t1, t2, rfl, h1, h2⟩
    | err e =>
      obtain ⟨rfl, _⟩ := Prog.steps_ret h2
      exact .inl ⟨_, by rw [List.append_nil]; exact h1⟩
    | panic =>
      obtain ⟨rfl, _⟩ := Prog.steps_ret h2
      exact .inl ⟨_, by rw [List.append_nil]; exact h1⟩

theorem does_bind {p : Proc S ε α} {f : α → Proc S ε β} {t : Trace S} (h : Prog.Does (p >>= f : Proc S ε β) t) :
    Prog.Does p t ∨ ∃ a t1 t2, t = t1 ++ t2 ∧ Prog.Ends p t1 (.ok a) ∧ Prog.Does (f a) t2 := by
  obtain ⟨q, h⟩ := h
  rcases steps_bind h with ⟨p', h⟩ | ⟨a, t1, t2, h1, h2, h3⟩
  · exact .inl ⟨p', h⟩
  · exact .inr ⟨a, t1, t2, h1, h2, q, h3⟩

/-- `p >>= f` succeeds only after both have. -/
theorem ends_bind {p : Proc S ε α} {f : α → Proc S ε β} {t : Trace S} {b : β}
    (h : Prog.Ends (p >>= f : Proc S ε β) t (.ok b)) :
    ∃ a t1 t2, t = t1 ++ t2 ∧ Prog.Ends p t1 (.ok a) ∧ Prog.Ends (f a) t2 (.ok b) := by
  obtain ⟨r, t1, t2, rfl, h1, h2⟩ := Prog.ends_bind h
  cases r with
  | ok a => exact ⟨a, t1, t2, rfl, h1, h2⟩
  | err e => cases (Prog.ends_ret h2).2
  | panic => cases (Prog.ends_ret h2).2

/-- Any end of `p >>= f`. -/
theorem ends_bind' {p : Proc S ε α} {f : α → Proc S ε β} {t : Trace S} {r : Res ε β}
    (h : Prog.Ends (p >>= f : Proc S ε β) t r) :
    (∃ a t1 t2, t = t1 ++ t2 ∧ Prog.Ends p t1 (.ok a) ∧ Prog.Ends (f a) t2 r) ∨
    (∃ e, Prog.Ends p t (.err e) ∧ r = .err e) ∨ (Prog.Ends p t .panic ∧ r = .panic) := by
  obtain ⟨x, t1, t2, rfl, h1, h2⟩ := Prog.ends_bind h
  cases x with
  | ok a => exact .inl ⟨a, t1, t2, rfl, h1, h2⟩
  | err e =>
    obtain ⟨rfl, rfl⟩ := Prog.ends_ret h2
    exact .inr (.inl ⟨e, by rw [List.append_nil]; exact h1, rfl⟩)
  | panic =>
    obtain ⟨rfl, rfl⟩ := Prog.ends_ret h2
    exact .inr (.inr ⟨by rw [List.append_nil]; exact h1, rfl⟩)

theorem ends_ask {e : S.Eff} {t : Trace S} {r : Res ε (S.Ans e)} (h : Prog.Ends (ask e : Proc S ε _) t r) :
    ∃ a, r = .ok a ∧ t = [⟨e, a⟩] := by
  obtain ⟨a, t', rfl, h'⟩ := Prog.ends_act h
  obtain ⟨rfl, rfl⟩ := Prog.ends_ret h'
  exact ⟨a, rfl, rfl⟩

theorem does_ask {e : S.Eff} {t : Trace S} (h : Prog.Does (ask e : Proc S ε _) t) : t = [] ∨ ∃ a, t = [⟨e, a⟩] := by
  obtain ⟨q, h⟩ := h
  rcases Prog.steps_act h with ⟨rfl, _⟩ | ⟨a, t', rfl, h'⟩
  · exact .inl rfl
  · obtain ⟨rfl, _⟩ := Prog.steps_ret h'
    exact .inr ⟨a, rfl⟩

theorem ends_lift {r r' : Res ε α} {t : Trace S} (h : Prog.Ends (lift r : Proc S ε α) t r') : t = [] ∧ r = r' :=
  Prog.ends_ret h

theorem does_lift {r : Res ε α} {t : Trace S} (h : Prog.Does (lift r : Proc S ε α) t) : t = [] :=
  (Prog.steps_ret h.choose_spec).1

theorem ends_pure {a b : α} {t : Trace S} (h : Prog.Ends (pure a : Proc S ε α) t (.ok b)) : t = [] ∧ a = b := by
  obtain ⟨rfl, h'⟩ := Prog.ends_ret h
  exact ⟨rfl, Res.ok.inj h'⟩

theorem does_pure {a : α} {t : Trace S} (h : Prog.Does (pure a : Proc S ε α) t) : t = [] :=
  (Prog.steps_ret h.choose_spec).1

theorem ends_some? {e : ε} {o : Option α} {a : α} {t : Trace S} (h : Prog.Ends (some? e o : Proc S ε α) t (.ok a)) :
    t = [] ∧ o = some a := by
  cases o with
  | some b =>
    obtain ⟨rfl, h'⟩ := Prog.ends_ret h
    exact ⟨rfl, congrArg some (Res.ok.inj h')⟩
  | none => cases (Prog.ends_ret h).2

theorem does_some? {e : ε} {o : Option α} {t : Trace S} (h : Prog.Does (some? e o : Proc S ε α) t) : t = [] := by
  cases o <;> exact (Prog.steps_ret h.choose_spec).1

theorem ends_check {e : ε} {b : Bool} {t : Trace S} (h : Prog.Ends (check e b : Proc S ε Unit) t (.ok ())) :
    t = [] ∧ b = true := by
  cases b with
  | true => exact ⟨(Prog.ends_ret h).1, rfl⟩
  | false => cases (Prog.ends_ret h).2

theorem does_check {e : ε} {b : Bool} {t : Trace S} (h : Prog.Does (check e b : Proc S ε Unit) t) : t = [] := by
  cases b <;> exact (Prog.steps_ret h.choose_spec).1

theorem ends_fail {e : ε} {a : α} {t : Trace S} (h : Prog.Ends (fail e : Proc S ε α) t (.ok a)) : False := by
  cases (Prog.ends_ret h).2

theorem does_fail {e : ε} {t : Trace S} (h : Prog.Does (fail e : Proc S ε α) t) : t = [] :=
  (Prog.steps_ret h.choose_spec).1

end Proc

end Verif

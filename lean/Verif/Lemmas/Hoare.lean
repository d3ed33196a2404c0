import Verif.Model.Prog
/-!
Reasoning about programs and their surroundings: the surroundings have a state, which an effect with its answer may change
as `step` says. `Hoare step I P p Q`: started in a state with `P`, the program keeps `I` up to every point (also when cut
off there), and if it stops, then with a result and a state satisfying `Q`.
-/
namespace Verif

/-- Changes of the state along a trace. -/
inductive Runs {S : Sig} {σ : Type} (step : σ → S.Deed → σ → Prop) : σ → Trace S → σ → Prop
  | nil {s : σ} : Runs step s [] s
  | cons {s s1 s2 : σ} {d : S.Deed} {t : Trace S} (h : step s d s1) (ht : Runs step s1 t s2) : Runs step s (d :: t) s2

variable {S : Sig} {σ : Type} {step : σ → S.Deed → σ → Prop} {α β ε : Type}

theorem runs_append {s s2 : σ} {t u : Trace S} (h : Runs step s (t ++ u) s2) :
    ∃ s1, Runs step s t s1 ∧ Runs step s1 u s2 := by
  induction t generalizing s with
  | nil => exact ⟨s, .nil, h⟩
  | cons d t ih =>
    cases h with
    | cons h h' =>
      obtain ⟨s1, h1, h2⟩ := ih h'
      exact ⟨s1, .cons h h1, h2⟩

theorem append_runs {s s1 s2 : σ} {t u : Trace S} (h : Runs step s t s1) (h' : Runs step s1 u s2) :
    Runs step s (t ++ u) s2 := by
  induction h with
  | nil => exact h'
  | cons h _ ih => exact .cons h (ih h')

/-- See the beginning of this file. -/
def Hoare (step : σ → S.Deed → σ → Prop) (I P : σ → Prop) (p : Prog S α) (Q : α → σ → Prop) : Prop :=
  ∀ s t s', P s → Runs step s t s' → (Prog.Does p t → I s') ∧ (∀ a, Prog.Ends p t a → Q a s')

namespace Hoare
variable {I P : σ → Prop}

theorem conseq {P' I' : σ → Prop} {p : Prog S α} {Q Q' : α → σ → Prop} (h : Hoare step I P p Q) (hP : ∀ s, P' s → P s)
    (hQ : ∀ a s, Q a s → Q' a s) (hI : ∀ s, I s → I' s) : Hoare step I' P' p Q' := fun s t s' hp hr =>
  ⟨fun hd => hI _ ((h s t s' (hP _ hp) hr).1 hd), fun a he => hQ _ _ ((h s t s' (hP _ hp) hr).2 a he)⟩

theorem post {p : Prog S α} {Q Q' : α → σ → Prop} (h : Hoare step I P p Q)
    (hQ : ∀ a s, Q a s → Q' a s) : Hoare step I P p Q' := h.conseq (fun _ h => h) hQ (fun _ h => h)

theorem pre {P' : σ → Prop} {p : Prog S α} {Q : α → σ → Prop} (h : Hoare step I P p Q)
    (hP : ∀ s, P' s → P s) : Hoare step I P' p Q := h.conseq hP (fun _ _ h => h) (fun _ h => h)

/-- The crash invariant may be used together with the result. -/
theorem withI {p : Prog S α} {Q : α → σ → Prop} (h : Hoare step I P p Q) : Hoare step I P p fun a s => I s ∧ Q a s :=
  fun s t s' hp hr => ⟨(h s t s' hp hr).1, fun a he => ⟨(h s t s' hp hr).1 ⟨_, he⟩, (h s t s' hp hr).2 a he⟩⟩

theorem ret {a : α} {Q : α → σ → Prop} (hI : ∀ s, P s → I s) (hQ : ∀ s, P s → Q a s) :
    Hoare step I P (.ret a : Prog S α) Q := by
  intro s t s' hp hr
  refine ⟨fun ⟨q, h⟩ => ?_, fun b h => ?_⟩
  · obtain ⟨rfl, _⟩ := Prog.steps_ret h
    cases hr
    exact hI _ hp
  · obtain ⟨rfl, rfl⟩ := Prog.ends_ret h
    cases hr
    exact hQ _ hp

theorem act {e : S.Eff} {k : S.Ans e → Prog S α} {Q : α → σ → Prop} (hI : ∀ s, P s → I s)
    (hk : ∀ a, Hoare step I (fun s' => ∃ s, P s ∧ step s ⟨e, a⟩ s') (k a) Q) : Hoare step I P (.act e k) Q := by
  intro s t s' hp hr
  refine ⟨fun ⟨q, h⟩ => ?_, fun b h => ?_⟩
  · rcases Prog.steps_act h with ⟨rfl, _⟩ | ⟨a, t', rfl, h'⟩
    · cases hr
      exact hI _ hp
    · cases hr with
      | cons h1 h2 => exact (hk a _ t' s' ⟨s, hp, h1⟩ h2).1 ⟨q, h'⟩
  · obtain ⟨a, t', rfl, h'⟩ := Prog.ends_act h
    cases hr with
    | cons h1 h2 => exact (hk a _ t' s' ⟨s, hp, h1⟩ h2).2 b h'

theorem progBind {p : Prog S α} {f : α → Prog S β} {M : α → σ → Prop} {Q : β → σ → Prop} (hp : Hoare step I P p M)
    (hf : ∀ a, Hoare step I (M a) (f a) Q) : Hoare step I P (Prog.bind p f) Q := by
  intro s t s' h0 hr
  refine ⟨fun ⟨q, h⟩ => ?_, fun b h => ?_⟩
  · rcases Prog.steps_bind h with ⟨p', h1, _⟩ | ⟨a, t1, t2, rfl, h1, h2⟩
    · exact (hp s t s' h0 hr).1 ⟨_, h1⟩
    · obtain ⟨u, r1, r2⟩ := runs_append hr
      exact (hf a u t2 s' ((hp s t1 u h0 r1).2 a h1) r2).1 ⟨_, h2⟩
  · obtain ⟨a, t1, t2, rfl, h1, h2⟩ := Prog.ends_bind h
    obtain ⟨u, r1, r2⟩ := runs_append hr
    exact (hf a u t2 s' ((hp s t1 u h0 r1).2 a h1) r2).2 b h2

/-- What holds after a step of a program that may fail: `M` after success; a failure is passed on. -/
def Mid (M : α → σ → Prop) (Q : Res ε β → σ → Prop) : Res ε α → σ → Prop
  | .ok a => M a
  | .err e => Q (.err e)
  | .panic => Q .panic

theorem bind {p : Proc S ε α} {f : α → Proc S ε β} {M : α → σ → Prop} {Q : Res ε β → σ → Prop}
    (hp : Hoare step I P p (Mid M Q)) (hI : ∀ r s, Q r s → I s) (hf : ∀ a, Hoare step I (M a) (f a) Q) :
    Hoare step I P (p >>= f : Proc S ε β) Q := by
  refine progBind (M := Mid M Q) hp fun r => ?_
  cases r with
  | ok a => exact hf a
  | err e => exact ret (hI _) (fun _ h => h)
  | panic => exact ret (hI _) (fun _ h => h)

theorem ask {e : S.Eff} {Q : Res ε (S.Ans e) → σ → Prop} (hI : ∀ s, P s → I s)
    (hI' : ∀ r s, Q r s → I s) (hs : ∀ s a s', P s → step s ⟨e, a⟩ s' → Q (.ok a) s') :
    Hoare step I P (Proc.ask e : Proc S ε _) Q :=
  act hI fun a => ret (fun s' ⟨_, h1, h2⟩ => hI' _ _ (hs _ _ _ h1 h2)) (fun s' ⟨_, h1, h2⟩ => hs _ _ _ h1 h2)

theorem pure {a : α} {Q : Res ε α → σ → Prop} (hI : ∀ s, P s → I s) (hQ : ∀ s, P s → Q (.ok a) s) :
    Hoare step I P (Pure.pure a : Proc S ε α) Q := ret hI hQ

theorem lift {r : Res ε α} {Q : Res ε α → σ → Prop} (hI : ∀ s, P s → I s) (hQ : ∀ s, P s → Q r s) :
    Hoare step I P (Proc.lift r : Proc S ε α) Q := ret hI hQ

theorem some? {e : ε} {o : Option α} {Q : Res ε α → σ → Prop} (hI : ∀ s, P s → I s)
    (hs : ∀ s a, o = some a → P s → Q (.ok a) s) (hn : ∀ s, o = none → P s → Q (.err e) s) :
    Hoare step I P (Proc.some? e o : Proc S ε α) Q := by
  cases o with
  | some a => exact ret hI fun s h => hs s a rfl h
  | none => exact ret hI fun s h => hn s rfl h

theorem check {e : ε} {b : Bool} {Q : Res ε Unit → σ → Prop} (hI : ∀ s, P s → I s)
    (hs : ∀ s, b = true → P s → Q (.ok ()) s) (hn : ∀ s, b = false → P s → Q (.err e) s) :
    Hoare step I P (Proc.check e b : Proc S ε Unit) Q := by
  cases b with
  | true => exact ret hI fun s h => hs s rfl h
  | false => exact ret hI fun s h => hn s rfl h

theorem fail {e : ε} {Q : Res ε α → σ → Prop} (hI : ∀ s, P s → I s) (hQ : ∀ s, P s → Q (.err e) s) :
    Hoare step I P (Proc.fail e : Proc S ε α) Q := ret hI hQ

/-- A program that has an assumption about its start. -/
theorem assume {φ : Prop} {p : Prog S α} {Q : α → σ → Prop} (h : φ → Hoare step I P p Q) :
    Hoare step I (fun s => φ ∧ P s) p Q := fun s t s' ⟨h1, h2⟩ hr => h h1 s t s' h2 hr

theorem exists_pre {γ : Type} {P : γ → σ → Prop} {p : Prog S α} {Q : α → σ → Prop} (h : ∀ x, Hoare step I (P x) p Q) :
    Hoare step I (fun s => ∃ x, P x s) p Q := fun s t s' ⟨x, h1⟩ hr => h x s t s' h1 hr

end Hoare

/-- The surroundings which remember what was done. -/
def remember (t : Trace S) (d : S.Deed) (t' : Trace S) : Prop := t' = t ++ [d]

theorem runs_remember {t u : Trace S} : Runs remember t u (t ++ u) := by
  induction u generalizing t with
  | nil => rw [List.append_nil]; exact .nil
  | cons d u ih =>
    have := ih (t := t ++ [d])
    rw [List.append_assoc] at this
    exact .cons rfl this

theorem remember_runs {t u t' : Trace S} (h : Runs remember t u t') : t' = t ++ u := by
  induction h with
  | nil => simp
  | cons h _ ih => rw [ih, h]; simp

/-- From a triple about traces to traces. -/
theorem Hoare.trace {I : Trace S → Prop} {p : Prog S α} {Q : α → Trace S → Prop}
    (h : Hoare remember I (fun t => t = []) p Q) (t : Trace S) :
    (Prog.Does p t → I t) ∧ ∀ a, Prog.Ends p t a → Q a t := by
  have := h [] t t rfl (by simpa using runs_remember (S := S) (t := []) (u := t))
  exact this

end Verif

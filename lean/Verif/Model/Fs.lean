import Verif.Lemmas.Hoare
/-!
Files: the operations used by the tools and the device, as effects of programs, and what they do to a file
system. Any operation may fail; a failing write may have written a part. Renaming is atomic (POSIX). Being cut off
inside an operation is the same as that operation failing with nothing done afterwards.
-/
namespace Verif.Fs
open Verif

/-- Paths are compared as written; links and `..` are not modelled. -/
abbrev Path := List Char

/-- Contents of the regular files. Directories, owners and permissions are not part of it. -/
abbrev Files := Path → Option Bytes

/-- A file system with one file changed. -/
def Files.set (s : Files) (p : Path) (c : Option Bytes) : Files := fun q => if q = p then c else s q

/-- File operations: `Path::exists`, `fs::read`, `File::create` (truncating), `write_all`, `fs::rename`,
`fs::remove_file`. -/
inductive Op where
  | exists? (p : Path)
  | read (p : Path)
  | create (p : Path)
  | append (p : Path) (b : Bytes)
  | rename (a b : Path)
  | remove (p : Path)
  deriving DecidableEq

/-- Answers to them. -/
def Op.Ans : Op → Type
  | .read _ => Option Bytes
  | _ => Bool

/-- Programs working on files. -/
abbrev sig : Sig := ⟨Op, Op.Ans⟩

/-- What an operation with a given answer may do to the file system. -/
inductive Step : Files → sig.Deed → Files → Prop
  | exists? {s : Files} {p : Path} : Step s ⟨.exists? p, ((s p).isSome : Bool)⟩ s
  | read {s : Files} {p : Path} {c : Bytes} (h : s p = some c) : Step s ⟨.read p, (some c : Option Bytes)⟩ s
  | readFails {s : Files} {p : Path} : Step s ⟨.read p, (none : Option Bytes)⟩ s
  | create {s : Files} {p : Path} : Step s ⟨.create p, true⟩ (s.set p (some []))
  | createFails {s : Files} {p : Path} : Step s ⟨.create p, false⟩ s
  | append {s : Files} {p : Path} {c b : Bytes} (h : s p = some c) : Step s ⟨.append p b, true⟩ (s.set p (some (c ++ b)))
  | appendFails {s : Files} {p : Path} {c b b' : Bytes} (h : s p = some c) (hb : b' <+: b) :
      Step s ⟨.append p b, false⟩ (s.set p (some (c ++ b')))
  | rename {s : Files} {a b : Path} {c : Bytes} (h : s a = some c) :
      Step s ⟨.rename a b, true⟩ ((s.set a none).set b (some c))
  | renameFails {s : Files} {a b : Path} : Step s ⟨.rename a b, false⟩ s
  | remove {s : Files} {p : Path} (h : (s p).isSome) : Step s ⟨.remove p, true⟩ (s.set p none)
  | removeFails {s : Files} {p : Path} : Step s ⟨.remove p, false⟩ s

/-- The effect of a sequence of operations. -/
abbrev Run : Files → Trace sig → Files → Prop := Runs Step

theorem run_append {s s2 : Files} {t u : Trace sig} (h : Run s (t ++ u) s2) : ∃ s1, Run s t s1 ∧ Run s1 u s2 :=
  runs_append h

variable {ε : Type}

/-- `fs::read(..)?`. -/
def readFile (e : ε) (p : Path) : Proc sig ε Bytes := do
  let c ← Proc.ask (S := sig) (.read p)
  Proc.some? e (c : Option Bytes)

/-- `fs::write(..)?`: create or truncate, then write. -/
def writeFile (e : ε) (p : Path) (b : Bytes) : Proc sig ε Unit := do
  let ok ← Proc.ask (S := sig) (.create p)
  Proc.check e (ok : Bool)
  let ok ← Proc.ask (S := sig) (.append p b)
  Proc.check e (ok : Bool)

/-- `fs::rename(..)?`. -/
def renameFile (e : ε) (a b : Path) : Proc sig ε Unit := do
  let ok ← Proc.ask (S := sig) (.rename a b)
  Proc.check e (ok : Bool)

/-- `fs::remove_file(..)?`. -/
def removeFile (e : ε) (p : Path) : Proc sig ε Unit := do
  let ok ← Proc.ask (S := sig) (.remove p)
  Proc.check e (ok : Bool)

/-! ### What these do, in any run -/

/-- A read changes nothing. -/
theorem readFile_does {e : ε} {p : Path} {t : Trace sig} {s s' : Files} (h : Prog.Does (readFile e p) t) (hr : Run s t s') :
    s' = s := by
  rcases Proc.does_bind h with h | ⟨a, t1, t2, rfl, h1, h2⟩
  · rcases Proc.does_ask h with rfl | ⟨a, rfl⟩
    · cases hr; rfl
    · cases hr with
      | cons h1 h2 => cases h2; cases h1 <;> rfl
  · have := Proc.does_some? h2
    subst this
    obtain ⟨b, _, rfl⟩ := Proc.ends_ask h1
    rw [List.append_nil] at hr
    cases hr with
    | cons h1 h2 => cases h2; cases h1 <;> rfl

theorem readFile_ends {e : ε} {p : Path} {t : Trace sig} {c : Bytes} {s s' : Files}
    (h : Prog.Ends (readFile e p) t (.ok c)) (hr : Run s t s') : s' = s ∧ s p = some c := by
  refine ⟨readFile_does ⟨_, h⟩ hr, ?_⟩
  obtain ⟨a, t1, t2, rfl, h1, h2⟩ := Proc.ends_bind h
  obtain ⟨rfl, h3⟩ := Proc.ends_some? h2
  obtain ⟨b, hb, rfl⟩ := Proc.ends_ask h1
  cases hb
  rw [List.append_nil] at hr
  cases hr with
  | cons hs _ =>
    cases hs with
    | read hc => rw [hc]; exact h3
    | readFails => cases h3

/-- A write changes no other file. -/
theorem writeFile_does {e : ε} {p : Path} {b : Bytes} {t : Trace sig} {s s' : Files}
    (h : Prog.Does (writeFile e p b) t) (hr : Run s t s') : (∀ q, q ≠ p → s' q = s q) ∧
      (s' p = s p ∨ ∃ b', b' <+: b ∧ s' p = some b') := by
  have key1 : ∀ {a : Bool} {u : Files}, Run s [⟨.create p, a⟩] u → (∀ q, q ≠ p → u q = s q) ∧
      (a = false → u p = s p) ∧ (a = true → u p = some []) := by
    intro a u h
    cases h with
    | cons h1 h2 =>
      cases h2
      cases h1 with
      | create => exact ⟨fun q hq => by simp [Files.set, hq], nofun, fun _ => by simp [Files.set]⟩
      | createFails => exact ⟨fun q hq => rfl, fun _ => rfl, nofun⟩
  rcases Proc.does_bind h with h | ⟨a, t1, t2, rfl, h1, h2⟩
  · rcases Proc.does_ask h with rfl | ⟨a, rfl⟩
    · cases hr; exact ⟨fun _ _ => rfl, .inl rfl⟩
    · obtain ⟨k1, k2, k3⟩ := key1 hr
      refine ⟨k1, ?_⟩
      cases a with
      | true => exact .inr ⟨[], List.nil_prefix, k3 rfl⟩
      | false => exact .inl (k2 rfl)
  · obtain ⟨a', ha, rfl⟩ := Proc.ends_ask h1
    cases ha
    obtain ⟨u, r1, r2⟩ := run_append hr
    obtain ⟨k1, k2, k3⟩ := key1 r1
    rcases Proc.does_bind h2 with h2 | ⟨_, u1, u2, rfl, h3, h4⟩
    · have := Proc.does_check h2
      subst this
      cases r2
      refine ⟨k1, ?_⟩
      cases a with
      | true => exact .inr ⟨[], List.nil_prefix, k3 rfl⟩
      | false => exact .inl (k2 rfl)
    · obtain ⟨rfl, ha⟩ := Proc.ends_check h3
      have hu : u p = some [] := k3 ha
      rw [List.nil_append] at r2
      have key2 : ∀ {x : Bool} {w : Files}, Run u [⟨.append p b, x⟩] w → (∀ q, q ≠ p → w q = u q) ∧
          ∃ b', b' <+: b ∧ w p = some b' := by
        intro x w h
        cases h with
        | cons h1 h2 =>
          cases h2
          cases h1 with
          | append h =>
            rw [hu] at h
            cases h
            exact ⟨fun q hq => by simp [Files.set, hq], b, List.prefix_refl _, by simp [Files.set]⟩
          | appendFails h hb =>
            rw [hu] at h
            cases h
            exact ⟨fun q hq => by simp [Files.set, hq], _, hb, by simp [Files.set]⟩
      have fin : (∃ x : Bool, Run u [⟨.append p b, x⟩] s') → (∀ q, q ≠ p → s' q = s q) ∧
          (s' p = s p ∨ ∃ b', b' <+: b ∧ s' p = some b') := by
        rintro ⟨x, hx⟩
        obtain ⟨m1, m2⟩ := key2 hx
        exact ⟨fun q hq => by rw [m1 q hq, k1 q hq], .inr m2⟩
      rcases Proc.does_bind h4 with h4 | ⟨x, w1, w2, rfl, h5, h6⟩
      · rcases Proc.does_ask h4 with rfl | ⟨x, rfl⟩
        · cases r2
          exact ⟨k1, .inr ⟨[], List.nil_prefix, hu⟩⟩
        · exact fin ⟨x, r2⟩
      · obtain ⟨x', hx, rfl⟩ := Proc.ends_ask h5
        have := Proc.does_check h6
        subst this
        rw [List.append_nil] at r2
        exact fin ⟨x', r2⟩

theorem writeFile_ends {e : ε} {p : Path} {b : Bytes} {t : Trace sig} {s s' : Files}
    (h : Prog.Ends (writeFile e p b) t (.ok ())) (hr : Run s t s') : s' p = some b := by
  obtain ⟨a, t1, t2, rfl, h1, h2⟩ := Proc.ends_bind h
  obtain ⟨a', ha, rfl⟩ := Proc.ends_ask h1
  cases ha
  obtain ⟨_, u1, u2, rfl, h3, h4⟩ := Proc.ends_bind h2
  obtain ⟨rfl, ha⟩ := Proc.ends_check h3
  obtain ⟨x, w1, w2, rfl, h5, h6⟩ := Proc.ends_bind h4
  obtain ⟨x', hx, rfl⟩ := Proc.ends_ask h5
  cases hx
  obtain ⟨rfl, hx⟩ := Proc.ends_check h6
  rw [List.append_nil, List.nil_append] at hr
  cases hr with
  | cons r1 r2 =>
    cases r2 with
    | cons r2 r3 =>
      cases r3
      cases ha
      cases hx
      cases r1
      cases r2 with
      | append h =>
        simp only [Files.set, if_true] at h ⊢
        cases h
        rfl

theorem renameFile_does {e : ε} {a b : Path} {t : Trace sig} {s s' : Files} (hab : a ≠ b)
    (h : Prog.Does (renameFile e a b) t) (hr : Run s t s') :
    s' = s ∨ (s' b = s a ∧ s' a = none ∧ ∀ q, q ≠ a → q ≠ b → s' q = s q) := by
  have key : ∀ {x : Bool} {w : Files}, Run s [⟨.rename a b, x⟩] w →
      w = s ∨ (w b = s a ∧ w a = none ∧ ∀ q, q ≠ a → q ≠ b → w q = s q) := by
    intro x w h
    cases h with
    | cons h1 h2 =>
      cases h2
      cases h1 with
      | rename h => exact .inr ⟨by simp [Files.set, h], by simp [Files.set, hab], fun q h1 h2 => by simp [Files.set, h1, h2]⟩
      | renameFails => exact .inl rfl
  rcases Proc.does_bind h with h | ⟨x, t1, t2, rfl, h1, h2⟩
  · rcases Proc.does_ask h with rfl | ⟨x, rfl⟩
    · cases hr; exact .inl rfl
    · exact key hr
  · obtain ⟨x', hx, rfl⟩ := Proc.ends_ask h1
    have := Proc.does_check h2
    subst this
    rw [List.append_nil] at hr
    exact key hr

theorem renameFile_ends {e : ε} {a b : Path} {t : Trace sig} {s s' : Files} (hab : a ≠ b)
    (h : Prog.Ends (renameFile e a b) t (.ok ())) (hr : Run s t s') :
    s' b = s a ∧ s' a = none ∧ ∀ q, q ≠ a → q ≠ b → s' q = s q := by
  obtain ⟨x, t1, t2, rfl, h1, h2⟩ := Proc.ends_bind h
  obtain ⟨x', hx, rfl⟩ := Proc.ends_ask h1
  cases hx
  obtain ⟨rfl, hx⟩ := Proc.ends_check h2
  cases hx
  rw [List.append_nil] at hr
  cases hr with
  | cons h1 h2 =>
    cases h2
    cases h1 with
    | rename h => exact ⟨by simp [Files.set, h], by simp [Files.set, hab], fun q h1 h2 => by simp [Files.set, h1, h2]⟩

theorem removeFile_ends {e : ε} {p : Path} {t : Trace sig} {s s' : Files}
    (h : Prog.Ends (removeFile e p) t (.ok ())) (hr : Run s t s') : s' p = none ∧ ∀ q, q ≠ p → s' q = s q := by
  obtain ⟨x, t1, t2, rfl, h1, h2⟩ := Proc.ends_bind h
  obtain ⟨x', hx, rfl⟩ := Proc.ends_ask h1
  cases hx
  obtain ⟨rfl, hx⟩ := Proc.ends_check h2
  cases hx
  rw [List.append_nil] at hr
  cases hr with
  | cons h1 h2 =>
    cases h2
    cases h1 with
    | remove h => exact ⟨by simp [Files.set], fun q h1 => by simp [Files.set, h1]⟩

theorem removeFile_does {e : ε} {p : Path} {t : Trace sig} {s s' : Files}
    (h : Prog.Does (removeFile e p) t) (hr : Run s t s') : (s' p = none ∨ s' p = s p) ∧ ∀ q, q ≠ p → s' q = s q := by
  have key : ∀ {x : Bool} {w : Files}, Run s [⟨.remove p, x⟩] w →
      (w p = none ∨ w p = s p) ∧ ∀ q, q ≠ p → w q = s q := by
    intro x w h
    cases h with
    | cons h1 h2 =>
      cases h2
      cases h1 with
      | remove h => exact ⟨.inl (by simp [Files.set]), fun q h1 => by simp [Files.set, h1]⟩
      | removeFails => exact ⟨.inr rfl, fun _ _ => rfl⟩
  rcases Proc.does_bind h with h | ⟨x, t1, t2, rfl, h1, h2⟩
  · rcases Proc.does_ask h with rfl | ⟨x, rfl⟩
    · cases hr; exact ⟨.inr rfl, fun _ _ => rfl⟩
    · exact key hr
  · obtain ⟨x', hx, rfl⟩ := Proc.ends_ask h1
    have := Proc.does_check h2
    subst this
    rw [List.append_nil] at hr
    exact key hr

/-! ### The same as rules -/

theorem readFile_hoare {I : Files → Prop} {s0 : Files} {e : ε} {p : Path} {Q : Res ε Bytes → Files → Prop} (hI : I s0)
    (ok : ∀ c, s0 p = some c → Q (.ok c) s0) (bad : Q (.err e) s0) :
    Hoare Step I (fun s => s = s0) (readFile e p) Q := by
  rintro s t s' rfl hr
  refine ⟨fun h => by rw [readFile_does h hr]; exact hI, fun r h => ?_⟩
  cases r with
  | ok c =>
    obtain ⟨rfl, h2⟩ := readFile_ends h hr
    exact ok c h2
  | err e' =>
    have hs := readFile_does ⟨_, h⟩ hr
    subst hs
    rcases Proc.ends_bind' h with ⟨a, t1, t2, rfl, _, h2⟩ | ⟨e2, h2, _⟩ | ⟨h2, _⟩
    · cases a with
      | some c => cases (Prog.ends_ret h2).2
      | none => cases (Prog.ends_ret h2).2; exact bad
    · obtain ⟨_, h3, _⟩ := Proc.ends_ask h2
      cases h3
    · obtain ⟨_, h3, _⟩ := Proc.ends_ask h2
      cases h3
  | panic =>
    rcases Proc.ends_bind' h with ⟨a, t1, t2, rfl, _, h2⟩ | ⟨e2, h2, _⟩ | ⟨h2, _⟩
    · cases a <;> cases (Prog.ends_ret h2).2
    · obtain ⟨_, h3, _⟩ := Proc.ends_ask h2
      cases h3
    · obtain ⟨_, h3, _⟩ := Proc.ends_ask h2
      cases h3

theorem check_not_panic {e : ε} {b : Bool} {t : Trace sig} {r : Res ε Unit}
    (h : Prog.Ends (Proc.check e b : Proc sig ε Unit) t r) : r = .ok () ∨ r = .err e := by
  cases b with
  | true => exact .inl (Prog.ends_ret h).2.symm
  | false => exact .inr (Prog.ends_ret h).2.symm

theorem writeFile_result {e : ε} {p : Path} {b : Bytes} {t : Trace sig} {r : Res ε Unit}
    (h : Prog.Ends (writeFile e p b) t r) : r = .ok () ∨ r = .err e := by
  rcases Proc.ends_bind' h with ⟨a, t1, t2, rfl, _, h2⟩ | ⟨e2, h2, _⟩ | ⟨h2, _⟩
  · rcases Proc.ends_bind' h2 with ⟨a, t1, t2, rfl, _, h3⟩ | ⟨e2, h3, rfl⟩ | ⟨h3, rfl⟩
    · rcases Proc.ends_bind' h3 with ⟨a, t1, t2, rfl, _, h4⟩ | ⟨e2, h4, _⟩ | ⟨h4, _⟩
      · exact check_not_panic h4
      · obtain ⟨_, h5, _⟩ := Proc.ends_ask h4; cases h5
      · obtain ⟨_, h5, _⟩ := Proc.ends_ask h4; cases h5
    · rcases check_not_panic h3 with h | h
      · cases h
      · cases h; exact .inr rfl
    · rcases check_not_panic h3 with h | h <;> cases h
  · obtain ⟨_, h3, _⟩ := Proc.ends_ask h2; cases h3
  · obtain ⟨_, h3, _⟩ := Proc.ends_ask h2; cases h3

theorem writeFile_hoare {I : Files → Prop} {s0 : Files} {e : ε} {p : Path} {b : Bytes} {Q : Res ε Unit → Files → Prop}
    (hI : ∀ s, (∀ q, q ≠ p → s q = s0 q) → (s p = s0 p ∨ ∃ b', b' <+: b ∧ s p = some b') → I s)
    (ok : ∀ s, (∀ q, q ≠ p → s q = s0 q) → s p = some b → Q (.ok ()) s)
    (bad : ∀ s, (∀ q, q ≠ p → s q = s0 q) → (s p = s0 p ∨ ∃ b', b' <+: b ∧ s p = some b') → Q (.err e) s) :
    Hoare Step I (fun s => s = s0) (writeFile e p b) Q := by
  rintro s t s' rfl hr
  refine ⟨fun h => hI _ (writeFile_does h hr).1 (writeFile_does h hr).2, fun r h => ?_⟩
  rcases writeFile_result h with rfl | rfl
  · exact ok _ (writeFile_does ⟨_, h⟩ hr).1 (writeFile_ends h hr)
  · exact bad _ (writeFile_does ⟨_, h⟩ hr).1 (writeFile_does ⟨_, h⟩ hr).2

theorem renameFile_hoare {I : Files → Prop} {s0 : Files} {e : ε} {a b : Path} (hab : a ≠ b) {Q : Res ε Unit → Files → Prop}
    (hI : I s0) (hI' : ∀ s, (s b = s0 a ∧ s a = none ∧ ∀ q, q ≠ a → q ≠ b → s q = s0 q) → I s)
    (ok : ∀ s, (s b = s0 a ∧ s a = none ∧ ∀ q, q ≠ a → q ≠ b → s q = s0 q) → Q (.ok ()) s) (bad : ∀ s, I s → Q (.err e) s) :
    Hoare Step I (fun s => s = s0) (renameFile e a b) Q := by
  rintro s t s' rfl hr
  have key : Prog.Does (renameFile e a b) t → I s' := fun h => by
    rcases renameFile_does hab h hr with rfl | h
    · exact hI
    · exact hI' _ h
  refine ⟨key, fun r h => ?_⟩
  have : r = .ok () ∨ r = .err e := by
    rcases Proc.ends_bind' h with ⟨a, t1, t2, rfl, _, h2⟩ | ⟨e2, h2, _⟩ | ⟨h2, _⟩
    · exact check_not_panic h2
    · obtain ⟨_, h3, _⟩ := Proc.ends_ask h2; cases h3
    · obtain ⟨_, h3, _⟩ := Proc.ends_ask h2; cases h3
  rcases this with rfl | rfl
  · exact ok _ (renameFile_ends hab h hr)
  · exact bad _ (key ⟨_, h⟩)

/-- A file system on which every operation succeeds that can. -/
def faithful (s : Files) : (e : sig.Eff) → Files × sig.Ans e
  | .exists? p => (s, ((s p).isSome : Bool))
  | .read p => (s, (s p : Option Bytes))
  | .create p => (s.set p (some []), true)
  | .append p b => match s p with
    | some c => (s.set p (some (c ++ b)), true)
    | none => (s, true)
  | .rename a b => match s a with
    | some c => ((s.set a none).set b (some c), true)
    | none => (s, false)
  | .remove p => if (s p).isSome then (s.set p none, true) else (s, false)

end Verif.Fs

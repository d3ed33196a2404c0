import Verif.Spec.Talk
/-!
A client and a server run together, for examples: the answers to the client's other effects are given by functions with a state,
and requests and replies get lost as a list says.
-/
namespace Verif.Http
open Verif

/-- What happens to a request: it gets lost, the reply gets lost, or neither. -/
inductive Fate where
  | lost
  | mute
  | good
  deriving DecidableEq

/-- Surroundings of a client: requests as they arrive (depending on the number of requests before), their fates, the IVs, and
the answers to other effects. -/
structure Around (Sv : Server) (X : Sig) (A : Type) where
  req : Nat → Sent → Request Sv
  fate : Nat → Fate
  ivs : Nat → Bytes
  ans : A → (e : X.Eff) → A × X.Ans e
  kdf : Request Sv → Bool

/-- State of the surroundings: number of requests, what has happened to the server, its state, and that of the rest. -/
structure Now (Sv : Server) (M A : Type) where
  n : Nat
  past : List (Event Sv M)
  server : St Sv
  rest : A

variable {Sv : Server} {M A : Type} {X : Sig}

/-- A reply as it arrives. -/
def arrive (kdf : Bool) : Reply → NetReply
  | .ok om b tok => ⟨true, .code om.code, tok.map fun t => some ("Bearer ".toList ++ t), kdf, b⟩
  | .reject => ⟨false, .code 255, none, kdf, []⟩

theorem arrive_arrives (kdf : Bool) (r : Reply) : Arrives kdf r (arrive kdf r) := by
  cases r <;> rfl

/-- Answers of the surroundings. -/
def answer (W : Around Sv X A) (s : Now Sv M A) : (e : (netSig X).Eff) → Now Sv M A × (netSig X).Ans e
  | .iv => (s, W.ivs s.n)
  | .app e => ({ s with rest := (W.ans s.rest e).1 }, (W.ans s.rest e).2)
  | .net q =>
    match W.fate s.n with
    | .lost => ({ s with n := s.n + 1 }, (none : Option NetReply))
    | .mute => (⟨s.n + 1, s.past ++ [.request (W.req s.n q)], (step s.server (W.req s.n q)).1, s.rest⟩, (none : Option NetReply))
    | .good => (⟨s.n + 1, s.past ++ [.request (W.req s.n q)], (step s.server (W.req s.n q)).1, s.rest⟩,
        some (arrive (W.kdf (W.req s.n q)) (step s.server (W.req s.n q)).2))

/-- Requests are carried as they are sent. -/
def Around.Faithful (W : Around Sv X A) : Prop := ∀ n q, Carries q (W.req n q)

/-- Such a run is a talk of client and server. -/
theorem talk_run (mv : M → Sv.W → Sv.W) (σ0 : St Sv) (W : Around Sv X A) (hW : W.Faithful) {α : Type} (p : Prog (netSig X) α)
    (s : Now Sv M A) (hs : s.server = replay mv σ0 s.past) (i : Option Sv.Id) :
    ∃ h, (Prog.exec (answer W) s p).1.past = s.past ++ h ∧ Talk mv σ0 W.kdf i s.past h (Prog.doings (answer W) s p) := by
  induction p generalizing s i with
  | ret a => exact ⟨[], by simp [Prog.exec], .done⟩
  | act e k ih =>
    cases e with
    | iv =>
      obtain ⟨h, h1, h2⟩ := ih (W.ivs s.n) s hs i
      exact ⟨h, h1, .iv _ h2⟩
    | app e =>
      obtain ⟨h, h1, h2⟩ := ih (W.ans s.rest e).2 { s with rest := (W.ans s.rest e).1 } hs i
      exact ⟨h, h1, .app _ _ h2⟩
    | net q =>
      cases hf : W.fate s.n with
      | lost =>
        have he : answer W s (.net q) = ({ s with n := s.n + 1 }, (none : Option NetReply)) := by
          simp only [answer, hf]; rfl
        obtain ⟨h, h1, h2⟩ := ih (none : Option NetReply) { s with n := s.n + 1 } hs i
        refine ⟨h, ?_, ?_⟩
        · simp only [Prog.exec, he]; exact h1
        · simp only [Prog.doings, he]; exact .lost _ h2
      | mute =>
        have he : answer W s (.net q) = (⟨s.n + 1, s.past ++ [.request (W.req s.n q)], (step s.server (W.req s.n q)).1, s.rest⟩,
            (none : Option NetReply)) := by
          simp only [answer, hf]; rfl
        obtain ⟨h, h1, h2⟩ := ih (none : Option NetReply)
          ⟨s.n + 1, s.past ++ [.request (W.req s.n q)], (step s.server (W.req s.n q)).1, s.rest⟩
          (by rw [replay_snoc, ← hs]; rfl) (turn i (accept (replay mv σ0 s.past) (W.req s.n q)))
        refine ⟨.request (W.req s.n q) :: h, ?_, ?_⟩
        · simp only [Prog.exec, he]; rw [h1]; simp
        · simp only [Prog.doings, he]; exact .served _ _ _ (hW _ _) nofun h2
      | good =>
        have he : answer W s (.net q) = (⟨s.n + 1, s.past ++ [.request (W.req s.n q)], (step s.server (W.req s.n q)).1, s.rest⟩,
            some (arrive (W.kdf (W.req s.n q)) (step s.server (W.req s.n q)).2)) := by
          simp only [answer, hf]; rfl
        obtain ⟨h, h1, h2⟩ := ih (some (arrive (W.kdf (W.req s.n q)) (step s.server (W.req s.n q)).2))
          ⟨s.n + 1, s.past ++ [.request (W.req s.n q)], (step s.server (W.req s.n q)).1, s.rest⟩
          (by rw [replay_snoc, ← hs]; rfl) (turn i (accept (replay mv σ0 s.past) (W.req s.n q)))
        refine ⟨.request (W.req s.n q) :: h, ?_, ?_⟩
        · simp only [Prog.exec, he]; rw [h1]; simp
        · simp only [Prog.doings, he]
          refine .served _ _ _ (hW _ _) ?_ h2
          rintro r' hr
          cases hr
          rw [← hs]
          exact arrive_arrives _ _

/-- Where the answers in the trace come from. -/
theorem run_answers (W : Around Sv X A) {α : Type} (p : Prog (netSig X) α) (s : Now Sv M A) (e : X.Eff) (a : X.Ans e)
    (h : (⟨.app e, a⟩ : (netSig X).Deed) ∈ Prog.doings (answer W) s p) : ∃ r, a = (W.ans r e).2 := by
  induction p generalizing s with
  | ret a => cases h
  | act e' k ih =>
    rcases List.mem_cons.mp h with h | h
    · cases e' with
      | iv => cases h
      | net q => cases h
      | app e' => cases h; exact ⟨s.rest, rfl⟩
    · exact ih _ _ h

/-- Where the requests come from. -/
theorem run_requests (W : Around Sv X A) {α : Type} (p : Prog (netSig X) α) (s : Now Sv M A) (rq : Request Sv)
    (h : .request rq ∈ (Prog.exec (answer W) s p).1.past) : .request rq ∈ s.past ∨ ∃ n q, rq = W.req n q := by
  induction p generalizing s with
  | ret a => exact .inl h
  | act e' k ih =>
    rcases ih _ _ h with h | h
    · cases e' with
      | iv => exact .inl h
      | app e => exact .inl h
      | net q =>
        simp only [answer] at h
        split at h
        · exact .inl h
        all_goals
          simp only [List.mem_append, List.mem_singleton] at h
          rcases h with h | h
          · exact .inl h
          · cases h; exact .inr ⟨s.n, q, rfl⟩
    · exact .inr h

/-- Nothing else happens to the server. -/
theorem run_events (W : Around Sv X A) {α : Type} (p : Prog (netSig X) α) (s : Now Sv M A) (ev : Event Sv M)
    (h : ev ∈ (Prog.exec (answer W) s p).1.past) : ev ∈ s.past ∨ ∃ n q, ev = .request (W.req n q) := by
  induction p generalizing s with
  | ret a => exact .inl h
  | act e' k ih =>
    rcases ih _ _ h with h | h
    · cases e' with
      | iv => exact .inl h
      | app e => exact .inl h
      | net q =>
        simp only [answer] at h
        split at h
        · exact .inl h
        all_goals
          simp only [List.mem_append, List.mem_singleton] at h
          rcases h with h | h
          · exact .inl h
          · exact .inr ⟨s.n, q, h⟩
    · exact .inr h

/-- The server's state is the one reached by what has happened. -/
theorem run_server (mv : M → Sv.W → Sv.W) (σ0 : St Sv) (W : Around Sv X A) {α : Type} (p : Prog (netSig X) α) (s : Now Sv M A)
    (hs : s.server = replay mv σ0 s.past) :
    (Prog.exec (answer W) s p).1.server = replay mv σ0 (Prog.exec (answer W) s p).1.past := by
  induction p generalizing s with
  | ret a => exact hs
  | act e k ih =>
    refine ih _ _ ?_
    cases e with
    | iv => exact hs
    | app e => exact hs
    | net q =>
      simp only [answer]
      split
      · exact hs
      all_goals
        rw [replay_snoc, ← hs]
        rfl

end Verif.Http

import Verif.Props.To0Example
import Verif.Props.To0Report
/-!
Examples for C89: the owner of `To0Example` reports its voucher (a Hello and an OwnerSign to one URL); and an owner which trusts
another device manufacturer does not.
-/
namespace Verif.To0.Toy
open Verif Verif.Voucher
open Verif.Device.Toy (env sized cfg)

/-- What is sent in the run, and its result. -/
def reported (v : Voucher sized) : Bool :=
  decide ((trace0 v).length = 5) && decide ((connects (trace0 v)).length = 1) &&
  (match (end0 v).2 with | .ok w => decide (w = 100) | _ => false)

theorem run_reported : (match voucher with | some v => reported v | none => false) = true := by decide +kernel

/-- The hypotheses of `C89_trusted`, `C89_contacts`, `C89_sends` and `C89_granted` are met. -/
example : ∃ v, Prog.Does (reporting v) (trace0 v) ∧ Prog.Ends (reporting v) (trace0 v) (.ok 100) ∧ (trace0 v).length = 5 ∧
    (connects (trace0 v)).length = 1 := by
  have h := run_reported
  cases hv : voucher with
  | none => rw [hv] at h; cases h
  | some v =>
    rw [hv] at h
    simp only [reported, Bool.and_eq_true, decide_eq_true_eq] at h
    obtain ⟨⟨h1, h2⟩, h3⟩ := h
    have he : Prog.Ends (reporting v) (trace0 v) (end0 v).2 := Prog.exec_ends _ _ _
    refine ⟨v, ⟨_, he⟩, ?_, h1, h2⟩
    generalize (end0 v).2 = r at h3 he
    cases r with
    | ok w =>
      have h3 := of_decide_eq_true h3
      subst h3
      exact he
    | err e => cases h3
    | panic => cases h3

/-- An owner which trusts devices certified by 55 only. -/
def other : OwnerServer.Config env.toOwnerEnv := { cfg with deviceKeys := some [((55 : Nat), (55 : Nat))] }

/-- The hypothesis of `C89_untrusted` is met. -/
example : ∃ v, voucher = some v ∧ ¬ Trusts env.toOwnerEnv other.deviceKeys v := by
  have hf := voucher_fits
  cases hv : voucher with
  | none => rw [hv] at hf; cases hf
  | some v =>
    rw [hv] at hf
    simp only [fits, Bool.and_eq_true, decide_eq_true_eq] at hf
    have h2 := hf.1.1.1.1.1.2
    refine ⟨v, rfl, ?_⟩
    rintro ⟨ch, seg, root, rest, h1, h3, -, -, h4⟩
    rw [h1] at h2
    have h2 : ch = (9 : UInt8) := of_decide_eq_true h2
    subst h2
    obtain ⟨x, hx, h5⟩ := h4 _ rfl
    have hx : x = ((55, 55) : Nat × Nat) := List.mem_singleton.1 hx
    subst hx
    have hm : root ∈ ([(9, 100), (100, 100)] : List (Nat × Nat)) := by
      have : root ∈ env.certs (9 : UInt8) := by rw [h3]; simp
      exact this
    rcases List.mem_cons.1 hm with h | h
    · have h : root = ((9, 100) : Nat × Nat) := h
      subst h
      revert h5; decide
    · have h : root = ((100, 100) : Nat × Nat) := List.mem_singleton.1 h
      subst h
      revert h5; decide

end Verif.To0.Toy

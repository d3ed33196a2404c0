import Verif.Props.StartupTimes
import Verif.Props.StartupExample
/-!
Cases of C93: times that are given, left out, and refused.
-/
namespace Verif.Startup.Toy
open Verif Verif.Settings
open Verif.Device.Toy (env)

/-- Null is written `~`; some numbers. -/
def N : Scalars := ⟨fun s => s == "~", some, fun s =>
  if s = "0" then some 0 else if s = "60" then some 60 else if s = "90" then some 90 else if s = "300" then some 300 else none⟩

def timed (l : List (String × Val)) : Val := .table (l ++ [("owner_private_key_path", .leaf "/12"), ("owner_public_key_path", .leaf "/12")])

/-- The times with which the owner server starts, or why it does not. -/
def times (l : List (String × Val)) : Except Fail (Nat × Nat) :=
  match owner N W true owner2 (timed l) with
  | .ok cfg => .ok (cfg.period, cfg.window)
  | .err e => .error e
  | .panic => .error .rest

/-- Given, left out, null; windows that are too short, or longer than the period; no number. -/
example : times [("ov_registration_period", .leaf "300"), ("ov_re_registration_window", .leaf "90")] = .ok (300, 90) := by rfl
example : times [] = .ok (600, 61) := by rfl
example : times [("ov_registration_period", .leaf "~"), ("ov_re_registration_window", .leaf "90")] = .ok (600, 90) := by rfl
example : times [("ov_re_registration_window", .leaf "60")] = .error .times := by rfl
example : times [("ov_registration_period", .leaf "0")] = .error .times := by rfl
example : times [("ov_registration_period", .leaf "60")] = .error .times := by rfl
example : times [("ov_registration_period", .leaf "long")] = .error .type := by rfl

/-- The numbers of the settings. -/
example : Number N (timed [("ov_registration_period", .leaf "300")]) "ov_registration_period" 600 300 ∧
    Number N (timed [("ov_registration_period", .leaf "300")]) "ov_re_registration_window" 61 61 := by
  refine ⟨⟨fun _ => ⟨"300", rfl, by decide⟩, fun h => absurd ⟨_, rfl, by rintro s ⟨⟩; decide⟩ h⟩, ⟨fun h => ?_, fun _ => rfl⟩⟩
  obtain ⟨x, hx, -⟩ := h
  cases hx

/-- A rendezvous server starts with a maximum of no time at all. -/
theorem C93_zero_violated : ∃ cfg, rendezvous N W true (.table [("max_wait_seconds", .leaf "0")]) = .ok cfg ∧ cfg.maxWait = 0 :=
  ⟨_, rfl, rfl⟩

/-- The hypotheses of `C93_registers_partial` about the settings are met by those of the examples of C73, see also `full_starts`. -/
example : rendezvous S W true full = .ok To0.Toy.rcfg ∧
    owner S W true owner2 (ownerSet "/12" "/12") = .ok ocfg ∧ ocfg.period = 600 ∧ To0.Toy.rcfg.maxWait = 100 := ⟨rfl, rfl, rfl, rfl⟩

end Verif.Startup.Toy

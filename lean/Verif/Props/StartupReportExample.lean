import Verif.Props.StartupReport
import Verif.Props.StartupSiExample
import Verif.Props.OwnerExample
/-!
Cases of C101: an owner server with one voucher in its directory.
-/
namespace Verif.Startup.ReportToy
open Verif Verif.Settings Verif.OwnerServer

def settings (b : String) : Val := .table [("report_to_rendezvous_endpoint_enabled", .leaf b)]

/-- The setting is met; without it, or with something else, there is no start. -/
example : reportEnabled SiToy.S (settings "false") = .ok false ∧ reportEnabled SiToy.S (settings "true") = .ok true ∧
    reportEnabled SiToy.S (settings "maybe") = .err .type ∧ reportEnabled SiToy.S (.table []) = .err .missing := ⟨rfl, rfl, rfl, rfl⟩

example (b : Bool) : Entry (settings (if b then "true" else "false")) "report_to_rendezvous_endpoint_enabled" (IsBool SiToy.S) b :=
  ⟨_, rfl, _, rfl, by cases b <;> rfl⟩

/-- The store with the voucher. -/
def world : OwnerServer.Toy.dbB.W := (OwnerServer.reached OwnerServer.Toy.env true OwnerServer.Toy.dbB OwnerServer.Toy.cfg some RvServer.Toy.aead OwnerServer.Toy.encode (OwnerServer.Toy.imported OwnerServer.Toy.dbB)).world

/-- A rendezvous server that grants 300 seconds. -/
def grants : Outcome OwnerServer.Toy.env := fun _ => some (0, 300)

def path : List (List Char) := ["report-to-rendezvous".toList]

def count (enabled : Bool) (e : Occasion OwnerServer.Toy.env) : Nat := (occasion (R := OwnerServer.Toy.env) OwnerServer.Toy.dbB OwnerServer.Toy.cfg enabled e world).1.length

/-- On demand the voucher is reported if the settings say so; by maintenance, it is anyway. -/
theorem counts : count true (.request true path 0 [] grants) = 1 ∧ count false (.request true path 0 [] grants) = 0 ∧
    count true (.request false path 0 [] grants) = 0 ∧ count true (.request true ["ping".toList] 0 [] grants) = 0 ∧
    count false (.round 0 [] grants 0 fun _ => none) ≠ 0 := by decide +kernel

/-- The hypotheses of `C101_enabled` and `C101_maintenance_violated` are met. -/
example : ∃ l x, OwnerServer.Toy.dbB.pending 0 [] (OwnerServer.Toy.dbB.maintain 0 [] world) = .ok l ∧ x ∈ l := by
  have h : (match OwnerServer.Toy.dbB.pending 0 [] (OwnerServer.Toy.dbB.maintain 0 [] world) with
    | .ok (_ :: _) => true
    | _ => false) = true := by decide +kernel
  split at h
  · rename_i x l hl
    exact ⟨_, x, hl, List.mem_cons_self⟩
  · cases h

/-- How many vouchers each occasion of a history reports: a voucher just reported is not due again. -/
def history (enabled : Bool) : List Nat :=
  (occasions (R := OwnerServer.Toy.env) OwnerServer.Toy.dbB OwnerServer.Toy.cfg enabled
    [.request true path 0 [] grants, .request true path 0 [] grants, .round 0 [] grants 0 (fun _ => none)] world).1.map List.length

theorem histories : history true ≠ history false ∧ (history true).take 2 = [1, 0] ∧ (history false).take 2 = [0, 0] := by decide +kernel

end Verif.Startup.ReportToy

import Verif.Props.StartupStore
/-!
Cases of C102.
-/
namespace Verif.Startup.StoreToy
open Verif Verif.Settings

/-- Names are read as they are written. -/
def S : Reads where
  isNull s := s == "~"
  text := some
  u32 _ := none
  bool _ := none
  items _ := none
  variant l
    | .leaf s => if s ∈ l then some s else none
    | .table _ => none

/-- Directories can be created under `/var`; there is one database. -/
def W : StoreWorld where
  createDirs p := p.take 5 = "/var/".toList
  canonical p := some p
  pool _ u := u = "sqlite:///var/db".toList

def directory (p : String) : Val := .table [("Directory", .table [("path", .leaf p)])]
def sqlite (t u : String) : Val := .table [("Sqlite", .table [("server", .leaf t), ("url", .leaf u)])]
def settings (main session : Val) : Val := .table [("ownership_voucher_store_driver", main), ("session_store_driver", session)]

/-- The owner server with each kind of store; the rendezvous server wants another setting. -/
example : stores W S ownerStores (settings (directory "/var/ov") (directory "/var/sessions")) =
    .ok [.directory "/var/ov".toList, .directory "/var/sessions".toList] := by decide +kernel
example : stores W S ownerStores (settings (sqlite "Owner" "sqlite:///var/db") (directory "/var/sessions")) =
    .ok [.db .sqlite .owner "sqlite:///var/db".toList, .directory "/var/sessions".toList] := by decide +kernel
example : stores W S manufacturingStores (settings (directory "/var/ov") (directory "/var/sessions")) =
    .ok [.directory "/var/sessions".toList, .directory "/var/ov".toList] := by decide +kernel
example : stores W S rendezvousStores (settings (directory "/var/ov") (directory "/var/sessions")) = .err .missing := by decide +kernel

/-- Relative paths, directories that cannot be created, databases out of reach, unknown kinds. -/
example : stores W S ownerStores (settings (directory "ov") (directory "/var/sessions")) = .err .rest := by decide +kernel
example : stores W S ownerStores (settings (directory "/etc/ov") (directory "/var/sessions")) = .err .rest := by decide +kernel
example : stores W S ownerStores (settings (sqlite "Owner" "sqlite:///etc/db") (directory "/var/sessions")) = .panic := by decide +kernel
example : stores W S ownerStores (settings (sqlite "Device" "sqlite:///var/db") (directory "/var/sessions")) = .err .type := by decide +kernel
example : stores W S ownerStores (settings (.leaf "Directory") (directory "/var/sessions")) = .err .type := by decide +kernel

/-- The hypotheses of `C102_relative`. -/
example : Entry (settings (directory "ov") (directory "/var/sessions")) "ownership_voucher_store_driver" (SaysStore S)
    (.directory "ov".toList) ∧ ∀ r, "ov".toList ≠ '/' :: r :=
  ⟨⟨_, rfl, .directory rfl ⟨_, rfl, _, _, rfl, rfl, rfl⟩⟩, fun r h => by cases h⟩

/-- The owner server with the manufacturer's tables starts, and reports nothing. -/
example : ∃ main, stores W S ownerStores (settings (sqlite "Manufacturer" "sqlite:///var/db") (directory "/var/sessions")) =
    .ok [main, .directory "/var/sessions".toList] ∧ main.reports = false :=
  C102_type_violated (t := .manufacturer) (kind := .sqlite) (u := "sqlite:///var/db".toList) (d := .directory "/var/sessions".toList)
    (by decide) ⟨_, rfl, .sqlite rfl ⟨_, rfl, .manufacturer rfl⟩ ⟨_, rfl, _, _, rfl, rfl, rfl⟩⟩ (by decide)
    ⟨_, rfl, .directory rfl ⟨_, rfl, _, _, rfl, rfl, rfl⟩⟩ (.directory ⟨_, rfl⟩ (by decide) rfl)

end Verif.Startup.StoreToy

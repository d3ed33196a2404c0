import Verif.Props.Startup
import Verif.Props.To0ReportExample
/-!
Cases of C90: servers with files of trusted certificates, a misspelt setting, and an owner whose keys do not fit.
-/
namespace Verif.Startup.Toy
open Verif Verif.Settings
open Verif.Device.Toy (env)

/-- Null is written `~`; texts stand for themselves. -/
def S : Scalars := ⟨fun s => s == "~", some, fun _ => some 100⟩

/-- A file with trusted manufacturers (7), one with trusted device certificates (100), an empty one, keys 12 and 13. A certificate is
one byte. -/
def W : World env.toOwnerEnv where
  file p :=
    if p = "/m.pem" then some [7] else if p = "/d.pem" then some [100] else if p = "/empty.pem" then some []
    else if p = "/12" then some [12] else if p = "/13" then some [13] else none
  stackFromPem b := some (b.map fun x => ((x.toNat, x.toNat) : Nat × Nat))
  certFromPem b := b.head?.map fun x => ((x.toNat, 100) : Nat × Nat)
  keyFromDer b := b.head?

def full : Val := .table [("trusted_manufacturer_keys_path", .leaf "/m.pem"), ("trusted_device_keys_path", .leaf "/d.pem"),
  ("max_wait_seconds", .leaf "100")]

theorem full_mfg : Has S full "trusted_manufacturer_keys_path" := ⟨_, rfl, by rintro s ⟨⟩; decide⟩
theorem full_dev : Has S full "trusted_device_keys_path" := ⟨_, rfl, by rintro s ⟨⟩; decide⟩

/-- The hypotheses of `C90_rendezvous` are met, with the configuration of the other examples as result. -/
theorem full_starts : rendezvous S W true full = .ok To0.Toy.rcfg := by rfl

example : Holds S W full "trusted_manufacturer_keys_path" [((7, 7) : Nat × Nat)] :=
  ⟨"/m.pem", "/m.pem", [7], rfl, rfl, by decide, rfl, rfl⟩

/-- Files that are not there, relative paths, empty paths and tables: the server does not start. -/
example : rendezvous S W true (.table [("trusted_device_keys_path", .leaf "/none.pem")]) = .err .read := by rfl
example : rendezvous S W true (.table [("trusted_device_keys_path", .leaf "d.pem")]) = .err .path := by rfl
example : rendezvous S W true (.table [("trusted_device_keys_path", .leaf "")]) = .err .path := by rfl
example : rendezvous S W true (.table [("trusted_device_keys_path", .table [])]) = .err .type := by rfl

/-- The hypotheses of `C90_empty_file` are met. -/
example : ∃ cfg v, rendezvous S W true v = .ok cfg ∧ Has S v "trusted_device_keys_path" ∧ ∀ l, Holds S W v "trusted_device_keys_path" l → l = [] := by
  refine ⟨_, .table [("trusted_device_keys_path", .leaf "/empty.pem")], rfl, ⟨_, rfl, by rintro s ⟨⟩; decide⟩, ?_⟩
  rintro l ⟨s, p, b, h1, h2, -, h3, h4⟩
  cases h1
  cases h2
  have h3 : some [] = some b := h3
  cases h3
  exact (Option.some.inj h4).symm

/-- The configuration files of a rendezvous server. -/
def sys : Sys where
  env _ := none
  file p := if p = "/etc/fdo/rendezvous-server.yml" then .holds full.fields else .missing
  glob _ := some []

theorem sys_wf : ∀ p l, sys.file p = .holds l → (Val.table l).Wf := by
  intro p l h
  dsimp only [sys] at h
  split at h
  · cases h
    simp [full, Val.fields, Val.Wf, WfAll]
  · cases h

/-- The hypotheses of `C90_files` are met. -/
example : fromFiles sys "rendezvous-server" (rendezvous S W true) = .ok To0.Toy.rcfg ∧
    lastWord ["trusted_manufacturer_keys_path"] (found sys (order "rendezvous-server" (sys.env (confDirEnv "rendezvous-server"))
      (sys.env (confEnv "rendezvous-server")) fun _ => [])) = .gives "/m.pem" := ⟨by rfl, by decide +kernel⟩

/-- `C90_misspelt_violated` in a concrete case: an administrator restricts the manufacturers, but wrote `key` for `keys`; the server
starts and trusts every manufacturer. -/
theorem C90_open_violated : ∃ cfg, rendezvous S W true
    (.table [("trusted_manufacturer_key_path", .leaf "/m.pem"), ("trusted_device_keys_path", .leaf "/d.pem")]) = .ok cfg ∧
    ∀ k, RvServer.mfgTrusted env.toRvEnv cfg k = .ok () := ⟨_, rfl, fun _ => rfl⟩

/-! ### The owner -/

def ownerSet (key pub : String) : Val := .table [("owner_private_key_path", .leaf key), ("owner_public_key_path", .leaf pub),
  ("trusted_device_keys_path", .leaf "/d.pem")]

def owner2 : env.E.Priv × env.E.Pub := ((13 : UInt8), (13 : UInt8))

def ocfg : OwnerServer.Config env.toOwnerEnv := { Device.Toy.cfg with deviceKeys := some [((100, 100) : Nat × Nat)] }

abbrev reporting (v : Voucher.Voucher Device.Toy.sized) : Proc To0.sig To0.To0Err Nat :=
  To0.report env.toOwnerEnv ocfg To0.Toy.msgs RvServer.Toy.aead v

def trace (v : Voucher.Voucher Device.Toy.sized) : Trace To0.sig := Prog.doings (Http.answer To0.Toy.W0) To0.Toy.begin0 (reporting v)

theorem trace_length : (match To0.Toy.voucher with | some v => decide ((trace v).length = 5) | none => false) = true := by decide +kernel

/-- The hypotheses of `C90_owner` and `C90_reports` are met: that owner reports a voucher. -/
example : ∃ cfg v t, owner S W true owner2 (ownerSet "/12" "/12") = .ok cfg ∧ Has S (ownerSet "/12" "/12") "trusted_device_keys_path" ∧
    Prog.Does (To0.report env.toOwnerEnv cfg To0.Toy.msgs RvServer.Toy.aead v) t ∧ t ≠ [] := by
  have h := trace_length
  cases hv : To0.Toy.voucher with
  | none => rw [hv] at h; cases h
  | some v =>
    rw [hv] at h
    have h := of_decide_eq_true h
    refine ⟨ocfg, v, trace v, rfl, ⟨_, rfl, by rintro s ⟨⟩; decide⟩, ⟨_, Prog.exec_ends _ _ _⟩, ?_⟩
    intro h'
    rw [h'] at h
    cases h

/-- Start-up does not compare the owner's keys: an owner server starts with a certificate that does not belong to its key. Nothing it
signs is then valid under the public key it gives as its own, so no device and no rendezvous server accepts it. -/
theorem C90_owner_keys_violated : ∃ cfg, owner S W true owner2 (ownerSet "/12" "/13") = .ok cfg ∧
    ∀ payload prot sig, env.E.sign cfg.ownerKey payload = some (prot, sig) → env.E.verify cfg.ownerPub prot payload sig = false := by
  refine ⟨_, rfl, ?_⟩
  intro payload prot sig h
  have h : some (([] : Bytes), [(12 : UInt8)]) = some (prot, sig) := h
  cases h
  show ([(12 : UInt8)] == [(13 : UInt8)]) = false
  decide

end Verif.Startup.Toy

import Verif.Model.AioRun
import Verif.Model.Settings
import Verif.Model.Credential
/-!
Specification for C84 and C85: what a running all-in-one set-up has done, and in which surroundings the programs it starts run.
-/
namespace Verif.AioRun
open Verif Verif.Aio

/-- The servers that are left running by this program: those that it has started and not killed. -/
def left (t : Trace sig) : List Daemon :=
  t.foldl (fun l d =>
    match d with
    | ⟨.spawn x _, b⟩ => if (show Bool from b) then l ++ [x] else l
    | ⟨.kill x, _⟩ => l.filter (· ≠ x)
    | _ => l) []

/-- How long this program has slept, in milliseconds. -/
def slept (t : Trace sig) : Nat := (t.map one).sum
where
  one : sig.Deed → Nat
    | ⟨.sleep n, _⟩ => n
    | _ => 0

/-- Sleeping takes its time. -/
def Clock (t : Trace sig) : Prop := ∀ u e v, t = u ++ (⟨.elapsed, e⟩ : sig.Deed) :: v → slept u ≤ (show Nat from e)

/-- All programs of the project. -/
def programs : List String :=
  ["fdo-manufacturing-server", "fdo-owner-onboarding-server", "fdo-rendezvous-server", "fdo-serviceinfo-api-server",
    "fdo-client-linuxapp", "fdo-manufacturing-client", "fdo-owner-tool"]

/-- Before `t` ended, all programs were found in the directory `bin`, which is as told or a usual one, and the configuration `a` was read
in the directory `dir`, which is as told or the usual one. -/
structure Prepared (args : AioArgs) (t : Trace sig) (bin dir : String) (a : Args) : Prop where
  programs : ∀ n ∈ programs, (⟨.setup (.exists? (bin ++ "/" ++ n)), true⟩ : sig.Deed) ∈ t
  place : ∃ p, (args.binaryPath = some p ∨ args.binaryPath = none ∧ p ∈ ["/usr/bin", "/usr/libexec/fdo"]) ∧
    (⟨.setup (.canonical p), some bin⟩ : sig.Deed) ∈ t
  directory : ∃ d d', (args.directory = some d ∨ args.directory = none ∧ d = "/etc/fdo/aio") ∧
    (d' = d ∨ (⟨.setup (.canonical d), some d'⟩ : sig.Deed) ∈ t) ∧ (⟨.setup (.canonical d'), some dir⟩ : sig.Deed) ∈ t ∧
    (⟨.config (d' ++ "/aio_configuration"), some a⟩ : sig.Deed) ∈ t

/-- The port on which a server is to listen. -/
def portOf (a : Args) : Daemon → Nat
  | .manufacturing => a.mfgPort
  | .owner => a.ownerPort
  | .rendezvous => a.rvPort
  | .api => a.apiPort

/-- After the server `x` was started, and while it was not killed, something on its port has answered. -/
def Answered (a : Args) (t : Trace sig) (x : Daemon) : Prop :=
  ∃ u v, t = u ++ (⟨.post ("http://localhost:" ++ toString (portOf a x) ++ "/ping"), true⟩ : sig.Deed) :: v ∧ x ∈ left u

/-- The surroundings `w` in which a program runs fit how it was started: variables are as given in the command. (Others are those of
this program.) -/
def Starts (c : Command) (w : Credential.Surroundings) : Prop :=
  ∀ v s, (v, s) ∈ c.env → w.var v.toList = some (some s.toList)

/-- The command runs the manufacturing client for the set-up in `dir`: its manufacturing server is asked, and must have a certificate
that is anchored in those of the set-up; the device describes itself by `info`, and its credential goes to `loc`. -/
structure Manufactures (dir bin : String) (a : Args) (loc info : String) (c : Command) : Prop where
  program : c.program = bin ++ "/fdo-manufacturing-client"
  args : c.args = []
  url : ("MANUFACTURING_SERVER_URL", "http://localhost:" ++ toString a.mfgPort) ∈ c.env
  roots : ("DIUN_PUB_KEY_ROOTCERTS", dir ++ "/keys/diun_cert.pem") ∈ c.env
  info : ("MANUFACTURING_INFO", info) ∈ c.env
  place : ("DEVICE_CREDENTIAL_FILENAME", loc) ∈ c.env

/-- The command prints the credential at `loc`. -/
structure Dumps (bin loc : String) (c : Command) : Prop where
  program : c.program = bin ++ "/fdo-owner-tool"
  args : c.args = ["dump-device-credential", loc]

/-- The command runs the client of a device with the credential at `loc` and a marker beside it. The other key derivation is allowed as
told. -/
structure Onboards (bin loc : String) (kdf : Bool) (c : Command) : Prop where
  program : c.program = bin ++ "/fdo-client-linuxapp"
  args : c.args = []
  credential : ("DEVICE_CREDENTIAL", loc) ∈ c.env
  marker : ("DEVICE_ONBOARDING_EXECUTED_MARKER_FILE_PATH", loc ++ ".marker") ∈ c.env
  kdf : (("ALLOW_NONINTEROPERABLE_KDF", "true") ∈ c.env ↔ kdf = true) ∧ ∀ v, ("ALLOW_NONINTEROPERABLE_KDF", v) ∈ c.env → v = "true"
  policy : ∀ v, ("DEVICE_CREDENTIAL_DELETE", v) ∉ c.env ∧ ("DEVICE_CREDENTIAL_DEACTIVATE", v) ∉ c.env

/-- The commands that have to succeed. -/
def Commands (dir bin : String) (a : Args) (loc : String) : DeviceCommand → List Command → Prop
  | .manufacture info, cs => ∃ c d, cs = [c, d] ∧ Manufactures dir bin a loc info c ∧ Dumps bin loc d
  | .analyze, cs => ∃ d, cs = [d] ∧ Dumps bin loc d
  | .run kdf, cs => ∃ c, cs = [c] ∧ Onboards bin loc kdf c

end Verif.AioRun

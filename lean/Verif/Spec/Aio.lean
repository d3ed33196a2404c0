import Verif.Model.Aio
import Verif.Spec.Config
/-!
Specification for C81: what it means that the servers of an all-in-one set-up fit together.
-/
namespace Verif.Aio
open Verif Verif.Rendezvous

/-- The files that were written, in order; a write that failed may leave anything. -/
def changes (t : Trace sig) : List (String × Option Content) :=
  t.filterMap fun
    | ⟨.write p c, b⟩ => some (p, if (show Bool from b) then some c else none)
    | _ => none

/-- What a file holds in the end. -/
def files (t : Trace sig) (p : String) : Option Content :=
  match (changes t).reverse.find? (·.1 = p) with
  | some x => x.2
  | none => none

/-- The URL of a server that is reached under this name. -/
def url (showIp : Bytes → String) (port : Nat) : Contact → String
  | .ip b => "http://" ++ showIp b ++ ":" ++ toString port
  | .host n => "http://" ++ n ++ ":" ++ toString port

/-- The settings found in the four files fit together, and with what else is in the directory. -/
structure Fit (files : String → Option Content) (rv : RvSettings) (api : ApiSettings) (mfg : MfgSettings) (own : OwnerSettings) (a : Args) : Prop where
  /-- the rendezvous server trusts the manufacturer that signs the vouchers -/
  manufacturer : ∃ k, files mfg.manufacturerKey = some (.key k) ∧ files mfg.manufacturerCert = some (.cert .manufacturer k) ∧
    files rv.trustedManufacturers = some (.cert .manufacturer k)
  /-- rendezvous server and owner trust the authority that certifies the devices -/
  devices : ∃ k, files mfg.deviceCaKey = some (.key k) ∧ files mfg.deviceCaChain = some (.cert .deviceCa k) ∧
    files rv.trustedDevices = some (.cert .deviceCa k) ∧ files own.trustedDevices = some (.cert .deviceCa k)
  /-- vouchers are passed to the key that the owner onboarding server has -/
  owner : ∃ k, files own.ownerKey = some (.key k) ∧ files own.ownerCert = some (.cert .owner k) ∧ files mfg.ownerCert = some (.cert .owner k)
  diun : ∃ k, files mfg.diunKey = some (.key k) ∧ files mfg.diunCert = some (.cert .diun k)
  /-- the owner onboarding server may use the service info API -/
  token : own.apiToken = api.authToken
  apiUrl : own.apiUrl = "http://localhost:" ++ toString a.apiPort ++ "/device_info"
  /-- each server listens on its port -/
  ports : rv.bind = "0.0.0.0:" ++ toString a.rvPort ∧ api.bind = "0.0.0.0:" ++ toString a.apiPort ∧
    mfg.bind = "0.0.0.0:" ++ toString a.mfgPort ∧ own.bind = "0.0.0.0:" ++ toString a.ownerPort
  /-- the owner finds the vouchers of the manufacturer, unless this was not wanted -/
  vouchers : mfg.vouchers = own.vouchers ↔ a.separate = false
  /-- no other store is used twice -/
  stores : [rv.storage, rv.sessions, api.perDevice, mfg.sessions, mfg.publicKeys, own.sessions, own.vouchers].Nodup ∧
    mfg.vouchers ∉ [rv.storage, rv.sessions, api.perDevice, mfg.sessions, mfg.publicKeys, own.sessions]
  /-- options -/
  keyStorage : ("tpm" ∈ mfg.keyStorage ↔ a.noTpm = false) ∧ ("filesystem" ∈ mfg.keyStorage ↔ a.noFilesystem = false)
  plainDi : mfg.plainDi = a.plainDi
  times : own.period = a.period ∧ own.window = a.window
  report : own.report = true

/-- How the addresses in the settings are read: devices and owners find the rendezvous server, and devices their owner, under the
addresses `cs`, in this order. `L` and `R` are the external functions. -/
structure Reached (L : Config.Lib) (R : Device.DevEnv) (mfg : MfgSettings) (own : OwnerSettings) (rvPort ownerPort : Nat) (cs : List Contact) : Prop where
  rendezvous : ∃ ds, Config.load L mfg.rendezvous = .ok ds ∧ ∀ side, ∃ rs, toInterpreted (Config.decoders L) side ds = .ok rs ∧
    rs.map (getUrls R.showIp) = cs.map fun c => [url R.showIp rvPort c]
  owner : ∃ es, allEntries L.parseIp own.addresses = some es ∧ Device.to2Urls (R := R) es = cs.map (url R.showIp ownerPort)

/-- Under which addresses the servers are to be reached: the given one, or those of all interfaces which are addresses of this
host in a network. -/
def Wanted (a : Args) (t : Trace sig) (cs : List Contact) : Prop :=
  match a.contactHostname with
  | some n => cs = [.host n]
  | none => ∃ (l : List (Option Bytes)) (p : Bytes → Bool), (⟨.interfaces, some l⟩ : sig.Deed) ∈ t ∧ (∀ b, p b = true ↔ ¬ Local b) ∧
      cs = ((l.filterMap id).filter p).map .ip
where
  /-- not the address of one host in a network -/
  Local (b : Bytes) : Prop :=
    b.length = 4 ∧ (b = [0, 0, 0, 0] ∨ b.head? = some 127 ∨ ∃ x, b.head? = some x ∧ 224 ≤ x.toNat ∧ x.toNat < 240) ∨
    b.length ≠ 4 ∧ (b = List.replicate 16 0 ∨ b = List.replicate 15 0 ++ [1] ∨ b.head? = some 255)

end Verif.Aio

import Verif.Model.Config
import Verif.Model.Device
/-!
The all-in-one set-up (`admin-tool/src/aio/configure.rs`, parts of `aio/execute.rs` and `main.rs`): four servers with settings, keys
and stores in one directory. Not modelled: contents of certificates, the YAML of the files (settings are given as structures with
the fields of `util/src/servers/configuration`), starting the programs.
-/
namespace Verif.Aio
open Verif Verif.Rendezvous

/-- `ContactAddress` (configure.rs:73-78). -/
inductive Contact where
  | ip (b : Bytes)
  | host (name : String)
  deriving DecidableEq, Repr

/-- `Configuration` (configure.rs:16-71), without the names in certificates and the key type. -/
structure Args where
  listenIp : String
  mfgPort : Nat
  ownerPort : Nat
  rvPort : Nat
  apiPort : Nat
  separate : Bool
  plainDi : Bool
  noFilesystem : Bool
  noTpm : Bool
  period : Option Nat
  window : Option Nat
  contactHostname : Option String
  contacts : List Contact
  authToken : String
  adminToken : String
  deriving DecidableEq, Repr

/-- `Configuration::default` (configure.rs:80-108). -/
def Args.default : Args :=
  ⟨"0.0.0.0", 8080, 8081, 8082, 8083, false, false, false, true, some 600, some 61, none, [], "", ""⟩

/-- The values `clap` gives if no options are used (configure.rs:17-60). -/
def Args.fromCli : Args :=
  ⟨"0.0.0.0", 8080, 8081, 8082, 8083, false, false, false, false, none, none, none, [], "", ""⟩

variable (showIp : Bytes → String)

/-- `generate_rendezvous_info` (configure.rs:111-149); a `BTreeMap` gives its entries in the order of names. -/
def rendezvousInfo (a : Args) : List Config.Configured :=
  a.contacts.map fun
    | .ip b => [("deviceport", .pos a.rvPort), ("ip_address", .str (showIp b)), ("ownerport", .pos a.rvPort), ("protocol", .str "http")]
    | .host n => [("deviceport", .pos a.rvPort), ("dns", .str n), ("ownerport", .pos a.rvPort), ("protocol", .str "http")]

/-- `RemoteAddress` (types.rs:2006-2011). -/
inductive Remote where
  | ip (text : String)
  | dns (name : String)
  deriving DecidableEq, Repr

/-- `RemoteConnection` (types.rs:2013-2029). -/
structure Connection where
  transport : Device.Transport
  addresses : List Remote
  port : Nat
  deriving DecidableEq, Repr

/-- An address as the owner's address (configure.rs:154-163). -/
def remote : Contact → Remote
  | .ip b => .ip (showIp b)
  | .host n => .dns n

/-- `generate_owner_addresses` (configure.rs:151-170). -/
def ownerAddresses (a : Args) : List Connection := [⟨.http, a.contacts.map (remote showIp), a.ownerPort⟩]

/-- `TryFrom<RemoteConnection>` (types.rs:2031-2071): the first address that cannot be parsed counts. -/
def entries (parseIp : String → Option Bytes) (c : Connection) : Option (List Device.Addr) :=
  c.addresses.mapM fun
    | .ip t => (parseIp t).map fun b => ⟨some b, none, c.port, c.transport⟩
    | .dns n => some ⟨none, some n, c.port, c.transport⟩

/-- All connections of the owner onboarding server's settings (owner-onboarding-server/src/main.rs:501-507). -/
def allEntries (parseIp : String → Option Bytes) (l : List Connection) : Option (List Device.Addr) :=
  (l.mapM (entries parseIp)).map List.flatten

/-- `RendezvousServerSettings`. -/
structure RvSettings where
  storage : String
  sessions : String
  trustedManufacturers : String
  trustedDevices : String
  bind : String
  deriving DecidableEq, Repr

/-- `ServiceInfoApiServerSettings`, without the service info itself (which is empty). -/
structure ApiSettings where
  bind : String
  authToken : String
  adminToken : String
  perDevice : String
  deriving DecidableEq, Repr

/-- `ManufacturingServerSettings`. -/
structure MfgSettings where
  sessions : String
  bind : String
  vouchers : String
  publicKeys : String
  plainDi : Bool
  keyStorage : List String
  diunKey : String
  diunCert : String
  rendezvous : List Config.Configured
  manufacturerCert : String
  manufacturerKey : String
  deviceCaKey : String
  deviceCaChain : String
  ownerCert : String

/-- `OwnerOnboardingServerSettings`. -/
structure OwnerSettings where
  sessions : String
  bind : String
  vouchers : String
  trustedDevices : String
  ownerKey : String
  ownerCert : String
  apiUrl : String
  apiToken : String
  addresses : List Connection
  report : Bool
  period : Option Nat
  window : Option Nat
  deriving DecidableEq, Repr

/-- `aio_dir.join(a).join(b)`; a canonical path does not end with a slash (unless it is the root). -/
def path (dir a b : String) : String := dir ++ "/" ++ a ++ "/" ++ b

/-- `get_bind` (configure.rs:197-203): the listening address is not used. -/
def bind (port : Nat) : String := "0.0.0.0:" ++ toString port

/-- configure.rs:205-229. -/
def rvSettings (dir : String) (a : Args) : RvSettings where
  storage := path dir "stores" "rendezvous_registered"
  sessions := path dir "stores" "rendezvous_sessions"
  trustedManufacturers := path dir "keys" "manufacturer_cert.pem"
  trustedDevices := path dir "keys" "device_ca_cert.pem"
  bind := bind a.rvPort

/-- configure.rs:233-248. -/
def apiSettings (dir : String) (a : Args) : ApiSettings where
  bind := bind a.apiPort
  authToken := a.authToken
  adminToken := a.adminToken
  perDevice := path dir "stores" "serviceinfo_api_devices"

/-- configure.rs:256-312. -/
def mfgSettings (dir : String) (a : Args) : MfgSettings where
  sessions := path dir "stores" "manufacturing_sessions"
  bind := bind a.mfgPort
  vouchers := path dir "stores" (if a.separate then "manufacturing_vouchers" else "owner_vouchers")
  publicKeys := path dir "stores" "manufacturer_keys"
  plainDi := a.plainDi
  keyStorage := (if a.noTpm then [] else ["tpm"]) ++ if a.noFilesystem then [] else ["filesystem"]
  diunKey := path dir "keys" "diun_key.der"
  diunCert := path dir "keys" "diun_cert.pem"
  rendezvous := rendezvousInfo showIp a
  manufacturerCert := path dir "keys" "manufacturer_cert.pem"
  manufacturerKey := path dir "keys" "manufacturer_key.der"
  deviceCaKey := path dir "keys" "device_ca_key.der"
  deviceCaChain := path dir "keys" "device_ca_cert.pem"
  ownerCert := path dir "keys" "owner_cert.pem"

/-- configure.rs:320-360. -/
def ownerSettings (dir : String) (a : Args) : OwnerSettings where
  sessions := path dir "stores" "owner_onboarding_sessions"
  bind := bind a.ownerPort
  vouchers := path dir "stores" "owner_vouchers"
  trustedDevices := path dir "keys" "device_ca_cert.pem"
  ownerKey := path dir "keys" "owner_key.der"
  ownerCert := path dir "keys" "owner_cert.pem"
  apiUrl := "http://localhost:" ++ toString a.apiPort ++ "/device_info"
  apiToken := a.authToken
  addresses := ownerAddresses showIp a
  report := true
  period := a.period
  window := a.window

/-! ### Generation -/

/-- `Subject` (admin-tool/src/main.rs:18-24). -/
inductive Subject where
  | diun | manufacturer | deviceCa | owner
  deriving DecidableEq, Repr

/-- `file_name` (admin-tool/src/main.rs:35-42). -/
def Subject.file : Subject → String
  | .diun => "diun"
  | .manufacturer => "manufacturer"
  | .deviceCa => "device_ca"
  | .owner => "owner"

/-- What is written. Key pairs are given by numbers. -/
inductive Content where
  | key (pair : Nat)
  | cert (subject : Subject) (pair : Nat)
  | rv (s : RvSettings)
  | api (s : ApiSettings)
  | mfg (s : MfgSettings)
  | owner (s : OwnerSettings)
  | record (a : Args)

/-- Effects. -/
inductive Op where
  | exists? (p : String)
  | empty? (p : String)
  | canonical (p : String)
  | mkdir (p : String)
  | mkdirs (p : String)
  | isDir (p : String)
  | keyPair
  | token
  | interfaces
  | write (p : String) (c : Content)

/-- Answers; `none` and `false` are failures. An interface may have no address, or one that is neither IPv4 nor IPv6. -/
def Op.Ans : Op → Type
  | .exists? _ => Bool
  | .empty? _ => Option Bool
  | .canonical _ => Option String
  | .mkdir _ | .mkdirs _ => Bool
  | .isDir _ => Bool
  | .keyPair => Option Nat
  | .token => Option String
  | .interfaces => Option (List (Option Bytes))
  | .write _ _ => Bool

abbrev sig : Sig := ⟨Op, Op.Ans⟩

inductive Fail where
  | io
  | configured
  | notEmpty
  | crypto
  deriving DecidableEq

/-- An effect that fails or not. -/
def try_ (o : Op) (ok : o.Ans → Bool) (e : Fail) : Proc sig Fail Unit := do
  let b ← Proc.ask (S := sig) o
  Proc.check e (ok b)

/-- `is_valid_address` (configure.rs:377-391), with `is_unspecified`, `is_loopback` and `is_multicast` of `std::net::IpAddr`. -/
def validAddress : Bytes → Bool
  | [a, b, c, d] => !(([a, b, c, d] : Bytes) == [0, 0, 0, 0]) && !(a == 127) && !(decide (224 ≤ a.toNat ∧ a.toNat ≤ 239))
  | l => !(l == List.replicate 16 0) && !(l == List.replicate 15 0 ++ [1]) && !(l.head? == some 0xff)

/-- `generate_key_and_cert` (admin-tool/src/main.rs:45-96), with an absolute directory; everything between the check of the directory and the
files is one effect. -/
def keyAndCert (keys : String) (s : Subject) : Proc sig Fail Unit := do
  try_ (.isDir keys) id .io
  let k ← Proc.ask (S := sig) .keyPair
  let k ← Proc.some? .crypto (k : Option Nat)
  try_ (.write (keys ++ "/" ++ s.file ++ "_key.der") (.key k)) id .io
  try_ (.write (keys ++ "/" ++ s.file ++ "_cert.pem") (.cert s k)) id .io

/-- One after the other. -/
def each {α : Type} (f : α → Proc sig Fail Unit) : List α → Proc sig Fail Unit
  | [] => pure ()
  | x :: r => do
    f x
    each f r

/-- `generate_configs` (configure.rs:196-369); creating, writing and syncing a file is one effect. -/
def configs (dir : String) (a : Args) : Proc sig Fail Unit := do
  try_ (.write (path dir "configs" "rendezvous_server.yml") (.rv (rvSettings dir a))) id .io
  try_ (.write (path dir "configs" "serviceinfo_api_server.yml") (.api (apiSettings dir a))) id .io
  try_ (.write (path dir "configs" "manufacturing_server.yml") (.mfg (mfgSettings showIp dir a))) id .io
  try_ (.write (path dir "configs" "owner_onboarding_server.yml") (.owner (ownerSettings showIp dir a))) id .io

/-- The addresses under which the servers are reached (configure.rs:465-494). -/
def contacts (a : Args) : Proc sig Fail (List Contact) :=
  match a.contactHostname with
  | some n => pure [.host n]
  | none => do
    let l ← Proc.ask (S := sig) .interfaces
    let l ← Proc.some? .io (l : Option (List (Option Bytes)))
    pure ((l.filterMap id).filter validAddress |>.map .ip)

/-- `generate_configs_and_keys` after the checks (configure.rs:418-503). -/
def build (d : String) (a : Args) : Proc sig Fail Unit := do
  each (fun s => try_ (.mkdirs (d ++ "/" ++ s)) id .io) ["work", "keys", "configs", "stores", "logs"]
  each (fun s => try_ (.mkdir (path d "stores" s)) id .io)
    ["mfg_sessions", "rendezvous_sessions", "owner_sessions", "manufacturing_sessions", "rendezvous_registered", "owner_vouchers",
      "serviceinfo_api_per_device", "manufacturer_keys"]
  each (fun s => try_ (.mkdir (path d "stores" s)) id .io) (if a.separate then ["manufacturing_vouchers"] else [])
  each (keyAndCert (d ++ "/keys")) [.diun, .manufacturer, .deviceCa, .owner]
  let t1 ← Proc.ask (S := sig) .token
  let t1 ← Proc.some? .crypto (t1 : Option String)
  let t2 ← Proc.ask (S := sig) .token
  let t2 ← Proc.some? .crypto (t2 : Option String)
  let cs ← contacts a
  let a := { a with authToken := t1, adminToken := t2, contacts := cs }
  configs showIp d a
  try_ (.write (d ++ "/aio_configuration") (.record a)) id .io

/-- `generate_configs_and_keys` (configure.rs:393-503). -/
def generate (dir : String) (a : Args) : Proc sig Fail Unit := do
  let there ← Proc.ask (S := sig) (.exists? dir)
  each (fun _ => try_ (.mkdir dir) id .io) (if (show Bool from there) then [] else [()])
  let done ← Proc.ask (S := sig) (.exists? (dir ++ "/aio_configuration"))
  Proc.check .configured (!(show Bool from done))
  let empty ← Proc.ask (S := sig) (.empty? dir)
  let empty ← Proc.some? .io (empty : Option Bool)
  Proc.check .notEmpty empty
  let d ← Proc.ask (S := sig) (.canonical dir)
  let d ← Proc.some? .io (d : Option String)
  build showIp d a

/-! ### Running the servers -/

/-- The daemons (execute.rs:12-17). -/
inductive Daemon where
  | manufacturing | owner | rendezvous | api
  deriving DecidableEq, Repr

/-- The component name in the server's own `settings_for` (manufacturing-server/src/main.rs:179,
owner-onboarding-server/src/main.rs:397, rendezvous-server/src/main.rs:68, serviceinfo-api-server/src/main.rs:429). -/
def Daemon.component : Daemon → String
  | .manufacturing => "manufacturing-server"
  | .owner => "owner-onboarding-server"
  | .rendezvous => "rendezvous-server"
  | .api => "serviceinfo-api-server"

/-- `configuration_env_name` (execute.rs:183-191). -/
def Daemon.variable_ : Daemon → String
  | .manufacturing => "MANUFACTURING_SERVER_CONF"
  | .owner => "OWNER_ONBOARDING_SERVER_CONF"
  | .rendezvous => "RENDEZVOUS_SERVER_CONF"
  | .api => "SERVICEINFO_API_SERVER_CONF"

/-- `configuration_file_name` (execute.rs:193-201). -/
def Daemon.file : Daemon → String
  | .manufacturing => "manufacturing_server.yml"
  | .owner => "owner_onboarding_server.yml"
  | .rendezvous => "rendezvous_server.yml"
  | .api => "serviceinfo_api_server.yml"

/-- What `start_binary` adds to the environment of the server (execute.rs:72-82). -/
def Daemon.environment (dir : String) (x : Daemon) : String × String := (x.variable_, path dir "configs" x.file)

end Verif.Aio

import Verif.Model.StartupSi
/-!
Settings for single devices: `settings_per_device` (util/src/servers/mod.rs:63-105), which the service info server calls for each
request (serviceinfo-api-server/src/main.rs:231-256).
-/
namespace Verif.Startup
open Verif Verif.Settings

variable (S : Reads)

/-- `StoreConfig` (store/src/lib.rs:255-262); what is said about databases does not matter here. -/
inductive StoreSetting where
  | directory (path : String)
  | database

/-- Reading `StoreConfig` as a map of one entry (`serde_yaml::with::singleton_map`). Whether what is said about a database can be read
is not modelled: it is taken to be in order. -/
def storeOf : Val → Res Fail StoreSetting
  | .table [(k, t)] =>
    match S.variant ["Directory", "Sqlite", "Postgres"] (.leaf k) with
    | none => .err .type
    | some n =>
      if n = "Directory" then do
        let p ← required (textOf S) t "path"
        pure (.directory (String.ofList p))
      else .ok .database
  | _ => .err .type

/-- Reading `ServiceInfoApiServerSettings` (configuration/serviceinfo_api_server.rs:9-19), of which the store is used here. `bind` is
whether a value can be read as an address. -/
def storeSetting (bind : Val → Bool) (v : Val) : Res Fail StoreSetting := do
  let _ ← required (structOf (onlyFields siNames (siSettingsOf S))) v "service_info"
  let _ ← required (fun x => if bind x then .ok () else .err .type) v "bind"
  let _ ← optional S.toScalars (textOf S) v "service_info_auth_token"
  let _ ← optional S.toScalars (textOf S) v "admin_auth_token"
  required (storeOf S) v "device_specific_store_driver"

/-- `PathBuf::push` of the name of the file (mod.rs:72-75), which is not absolute. -/
def devicePath (dir : String) (guid : Bytes) : String :=
  String.ofList (dir.toList ++ (if dir.toList = [] ∨ dir.toList.getLast? = some '/' then [] else ['/']) ++ Store.guidText guid ++
    ".yml".toList)

/-- `settings_per_device` (mod.rs:63-105): the settings of the server are read anew. -/
def settingsPerDevice (y : Sys) (bind : Val → Bool) (guid : Bytes) : Res Fail SiApi.Settings :=
  match settingsFor y "serviceinfo-api-server" with
  | .err e => .err (.settings e)
  | .panic => .panic
  | .ok v => do
    match ← storeSetting S bind v with
    | .database => .err .rest
    | .directory dir =>
      match collectAll y true (.table []) [devicePath dir guid] with
      | .err e => .err (.settings e)
      | .panic => .panic
      | .ok w => onlyFields siNames (siSettingsOf S) w

/-- What the handler makes of it (serviceinfo-api-server/src/main.rs:231-256): all failures are like no settings. (If the settings of
the server are in a directory with entries that cannot be read, then `settings_for` panics, and the request is not answered; here this
is like no settings, too.) -/
def perDevice (y : Sys) (bind : Val → Bool) (guid : Bytes) : Option (Option ServiceInfo.InitialUser) :=
  match settingsPerDevice S y bind guid with
  | .ok x => some x.user
  | _ => none

end Verif.Startup

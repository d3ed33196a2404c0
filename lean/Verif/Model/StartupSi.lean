import Verif.Model.StartupMfg
import Verif.Model.SiApi
/-!
Start-up of the service info API server (serviceinfo-api-server/src/main.rs:425-449): from the merged settings (`Model/Settings`) to
the server with its configuration and tokens. Everything else that can fail (the address, the store for single devices) is one
condition, `rest`.
-/
namespace Verif.Startup
open Verif Verif.Settings

variable (S : Reads)

/-- A value that is read as `String`. -/
def textOf : Val → Res Fail (List Char)
  | .leaf s =>
    match S.text s with
    | some t => .ok t.toList
    | none => .err .type
  | .table _ => .err .type

/-- A field with `serde(default)` (configuration/serviceinfo_api_server.rs:67-72): null is not its default, but passed on. -/
def flagOf (v : Val) (name : String) : Res Fail Bool :=
  match field v.fields name with
  | none => .ok false
  | some x => boolOf S x

/-- `serde(deny_unknown_fields)` (serviceinfo_api_server.rs:22). Which failure comes first is not modelled. -/
def onlyFields {α : Type} (names : List String) (f : Val → Res Fail α) (v : Val) : Res Fail α :=
  if v.fields.all (fun p => names.contains p.1) then f v else .err .type

/-- `ServiceInfoInitialUser` (serviceinfo_api_server.rs:75-80). -/
def siUserOf (v : Val) : Res Fail ServiceInfo.InitialUser := do
  let name ← required (textOf S) v "username"
  let password ← optional S.toScalars (textOf S) v "password"
  let keys ← optional S.toScalars (listOf S (textOf S)) v "sshkeys"
  pure ⟨name, password, keys⟩

/-- `ServiceInfoFile` (serviceinfo_api_server.rs:49-62); the fields with `serde(skip)` are computed later. -/
def siFileOf (v : Val) : Res Fail SiApi.FileSetting := do
  let path ← required (textOf S) v "path"
  let permissions ← optional S.toScalars (textOf S) v "permissions"
  let source ← required (textOf S) v "source_path"
  pure ⟨path, permissions, source⟩

/-- `ServiceInfoCommand` (serviceinfo_api_server.rs:64-73). -/
def siCommandOf (v : Val) : Res Fail SiApi.Command := do
  let command ← required (textOf S) v "command"
  let args ← required (listOf S (textOf S)) v "args"
  let mayFail ← flagOf S v "may_fail"
  let out ← flagOf S v "return_stdout"
  let err ← flagOf S v "return_stderr"
  pure ⟨command, args, mayFail, out, err⟩

/-- `ServiceInfoDiskEncryptionClevisBinding` (serviceinfo_api_server.rs:36-40). -/
def bindingOf (v : Val) : Res Fail (List Char × List Char) := do
  let pin ← required (textOf S) v "pin"
  let config ← required (textOf S) v "config"
  pure (pin, config)

/-- `ServiceInfoDiskEncryptionClevis` (serviceinfo_api_server.rs:42-47). -/
def siDiskOf (v : Val) : Res Fail SiApi.Disk := do
  let label ← required (textOf S) v "disk_label"
  let b ← required (structOf (bindingOf S)) v "binding"
  let reencrypt ← required (boolOf S) v "reencrypt"
  pure ⟨label, b.1, b.2, reencrypt⟩

/-- A value that is read as `(String, String)`: an array of two elements. -/
def pairOf (x : Val) : Res Fail (List Char × List Char) :=
  match x with
  | .leaf s =>
    match S.items s with
    | some [a, b] => do
      let a ← textOf S a
      let b ← textOf S b
      pure (a, b)
    | _ => .err .type
  | .table _ => .err .type

/-- The entries of a map whose keys are modules (data-formats/src/constants/serviceinfo_names.rs:3-25: every text is a module). -/
def entriesOf : List (String × Val) → Res Fail (List (Types.SiModule × List (List Char × List Char)))
  | [] => .ok []
  | (k, x) :: l => do
    let a ← listOf S (pairOf S) x
    let r ← entriesOf l
    pure ((Types.SiModule.fromStr k.toList, a) :: r)

/-- A value that is read as `HashMap<ServiceInfoModule, Vec<(String, String)>>`. -/
def additionalOf : Val → Res Fail (List (Types.SiModule × List (List Char × List Char)))
  | .leaf _ => .err .type
  | .table l => entriesOf S l

/-- The fields of `ServiceInfoSettings` (serviceinfo_api_server.rs:21-34). -/
def siNames : List String :=
  ["initial_user", "files", "commands", "diskencryption_clevis", "additional_serviceinfo", "after_onboarding_reboot"]

/-- Reading `ServiceInfoSettings` (serviceinfo_api_server.rs:21-34). -/
def siSettingsOf (v : Val) : Res Fail SiApi.Settings := do
  let user ← optional S.toScalars (structOf (siUserOf S)) v "initial_user"
  let files ← optional S.toScalars (listOf S (structOf (siFileOf S))) v "files"
  let commands ← optional S.toScalars (listOf S (structOf (siCommandOf S))) v "commands"
  let disks ← optional S.toScalars (listOf S (structOf (siDiskOf S))) v "diskencryption_clevis"
  let additional ← optional S.toScalars (additionalOf S) v "additional_serviceinfo"
  let reboot ← optional S.toScalars (boolOf S) v "after_onboarding_reboot"
  pure ⟨user, files, commands, disks, additional, reboot⟩

/-- The files of the host, and OpenSSL's digest. -/
structure SiWorld where
  file : List Char → Option Bytes
  sha384 : Bytes → Bytes

/-- Start-up of the service info server (main.rs:429-449) with the settings of serviceinfo_api_server.rs:9-19, which may have unknown
fields. `stored` is what is in the store for single devices. The tokens are kept as they are in the settings (see `SiApi.Server`). -/
def serviceInfo (W : SiWorld) (rest : Bool) (stored : List SiApi.AdminRequest) (v : Val) : Res Fail SiApi.Server := do
  let x ← required (structOf (onlyFields siNames (siSettingsOf S))) v "service_info"
  let token ← optional S.toScalars (textOf S) v "service_info_auth_token"
  let admin ← optional S.toScalars (textOf S) v "admin_auth_token"
  match SiApi.fromSettings W.file W.sha384 x with
  | none => .err .parse
  | some c => if rest then pure ⟨c, token, admin, stored⟩ else .err .rest

end Verif.Startup

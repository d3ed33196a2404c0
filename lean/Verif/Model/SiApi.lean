import Verif.Model.ServiceInfo
import Verif.Model.Text
import Verif.Model.RvServer
/-!
Model of the service info API server: `serviceinfo-api-server/src/main.rs`, its settings
(`util/src/servers/configuration/serviceinfo_api_server.rs`, `settings_per_device` in `util/src/servers/mod.rs`), and
the request the owner onboarding server makes (`JsonClient`, `http-wrapper/src/client.rs`). Reading settings from YAML, JSON
and the transport are not modelled: a reply arrives as it was sent. Logging is left out.
-/
namespace Verif.SiApi
open Verif Verif.Types Verif.ServiceInfo

/-! ### Settings (serviceinfo_api_server.rs:21-82) -/

/-- `ServiceInfoFile`, the settings in it. -/
structure FileSetting where
  path : List Char
  permissions : Option (List Char)
  source : List Char

/-- `ServiceInfoCommand`. -/
structure Command where
  command : List Char
  args : List (List Char)
  mayFail : Bool
  returnStdout : Bool
  returnStderr : Bool

/-- `ServiceInfoDiskEncryptionClevis`. -/
structure Disk where
  label : List Char
  pin : List Char
  config : List Char
  reencrypt : Bool

/-- `ServiceInfoSettings`. The hash map of additional service info is a list in the order in which it happens to be
visited. `InitialUser` is the model of the reply's type, which has the same fields. -/
structure Settings where
  user : Option InitialUser
  files : Option (List FileSetting)
  commands : Option (List Command)
  disks : Option (List Disk)
  additional : Option (List (SiModule × List (List Char × List Char)))
  reboot : Option Bool

/-- A file after preparation: `ServiceInfoFile` with its computed fields. -/
structure File where
  path : List Char
  permissions : Option Nat
  len : Nat
  contentsHex : List Char
  hashHex : List Char

/-- `ServiceInfoConfiguration` (main.rs:22-25). -/
structure Config where
  user : Option InitialUser
  files : Option (List File)
  commands : Option (List Command)
  disks : Option (List Disk)
  additional : Option (List (SiModule × List (List Char × List Char)))
  reboot : Option Bool

/-- `u32::from_str_radix(_, 8)`: an optional plus sign, then at least one octal digit, below 2^32. -/
def parseOctal (s : List Char) : Option Nat :=
  let digits := match s with
    | '+' :: r => r
    | _ => s
  if digits.isEmpty || !digits.all (fun ch => 48 ≤ ch.toNat && ch.toNat ≤ 55) then none
  else
    let n := digits.foldl (fun n ch => 8 * n + (ch.toNat - 48)) 0
    if n < 2 ^ 32 then some n else none

/-- Preparing one file (main.rs:35-60): `read` reads a file, `sha384` is OpenSSL's digest. -/
def prepareFile (read : List Char → Option Bytes) (sha384 : Bytes → Bytes) (f : FileSetting) : Option File :=
  match f.permissions with
  | none =>
    (read f.source).map fun c => ⟨f.path, none, c.length, hexEncode c, hexEncode (sha384 c)⟩
  | some p =>
    match parseOctal p with
    | none => none
    | some n => (read f.source).map fun c => ⟨f.path, some n, c.length, hexEncode c, hexEncode (sha384 c)⟩

/-- The loop over the files (main.rs:33-61). -/
def prepareFiles (read : List Char → Option Bytes) (sha384 : Bytes → Bytes) : List FileSetting → Option (List File)
  | [] => some []
  | f :: r =>
    match prepareFile read sha384 f, prepareFiles read sha384 r with
    | some x, some l => some (x :: l)
    | _, _ => none

/-- `from_settings` (main.rs:28-66). -/
def fromSettings (read : List Char → Option Bytes) (sha384 : Bytes → Bytes) (s : Settings) : Option Config :=
  match s.files with
  | none => some ⟨s.user, none, s.commands, s.disks, s.additional, s.reboot⟩
  | some fs => (prepareFiles read sha384 fs).map fun l => ⟨s.user, some l, s.commands, s.disks, s.additional, s.reboot⟩

/-! ### Building a reply -/

/-- `ServiceInfoApiReplyBuilder` (main.rs:98-102), the part for extra commands. -/
structure Builder where
  enabled : List SiModule := []
  extra : Option (List Item) := none

/-- `add_extra` (main.rs:105-129). -/
def addExtra (b : Builder) (m : SiModule) (k : List Char) (v : Val) : Builder :=
  let l := b.extra.getD []
  if m ∈ b.enabled then ⟨b.enabled, some (l ++ [(m, k, v)])⟩
  else ⟨m :: b.enabled, some (l ++ [(m, "active".toList, .bool true), (m, k, v)])⟩

/-- Several calls for one module. -/
def addAll (b : Builder) (m : SiModule) (l : List (List Char × Val)) : Builder :=
  l.foldl (fun b x => addExtra b m x.1 x.2) b

/-- What is added for a file (main.rs:266-287). -/
def fileExtras (f : File) : List (List Char × Val) :=
  [("name".toList, .text f.path), ("length".toList, .int f.len)] ++
    (match f.permissions with
      | some n => [("mode".toList, .int n)]
      | none => []) ++
    [("data001|hex".toList, .text f.contentsHex), ("sha-384|hex".toList, .text f.hashHex)]

/-- What is added for a command (main.rs:297-319). -/
def commandExtras (c : Command) : List (List Char × Val) :=
  [("command".toList, .text c.command), ("args".toList, .array (c.args.map .text)), ("may_fail".toList, .bool c.mayFail),
   ("return_stdout".toList, .bool c.returnStdout), ("return_stderr".toList, .bool c.returnStderr),
   ("execute".toList, .bool true)]

/-- What is added for a disk (main.rs:333-357). -/
def diskExtras (d : Disk) : List (List Char × Val) :=
  [("disk-label".toList, .text d.label), ("pin".toList, .text d.pin), ("config".toList, .text d.config),
   ("reencrypt".toList, .bool d.reencrypt), ("execute".toList, .null)]

/-- `QueryInfo` (main.rs:415-423); the set of modules is a list. -/
structure Query where
  version : Nat
  guid : Bytes
  modules : List SiModule

/-- One part of a reply, given only if the device has the module (main.rs:258-261 and the like). -/
def part (q : Query) (m : SiModule) (l : Option (List (List (List Char × Val)))) (b : Builder) : Builder :=
  if m ∈ q.modules then (l.getD []).foldl (fun b x => addAll b m x) b else b

/-- The additional service info (main.rs:377-390). -/
def additional (q : Query) (l : List (SiModule × List (List Char × List Char))) (b : Builder) : Builder :=
  l.foldl (fun b x => if x.1 ∈ q.modules then addAll b x.1 (x.2.map fun y => (y.1, .text y.2)) else b) b

/-- The initial user (main.rs:227-256): `perDevice` is the result of `settings_per_device`, i.e. `none` if there are no
settings for this device (then the general settings count), otherwise the initial user in them, if any. -/
def userFor (c : Config) (perDevice : Option (Option InitialUser)) (q : Query) : Option InitialUser :=
  if .sshKey ∈ q.modules then
    match perDevice with
    | some u => u
    | none => c.user
  else none

/-- `serviceinfo_handler` (main.rs:207-392): `none` is a rejection. -/
def handler (c : Config) (perDevice : Option (Option InitialUser)) (q : Query) : Option ApiReply :=
  if q.version ≠ 1 then none
  else
    let b := part q .binaryFile (c.files.map (·.map fileExtras)) {}
    let b := part q .command (c.commands.map (·.map commandExtras)) b
    let b := part q .diskEncryptionClevis (c.disks.map (·.map diskExtras)) b
    let b := additional q (c.additional.getD []) b
    some ⟨userFor c perDevice q, b.extra, if .reboot ∈ q.modules then c.reboot else none⟩

/-! ### Requests -/

/-- Splitting at the first `=`, if there is one. -/
def splitEq : List Char → List Char × List Char
  | [] => ([], [])
  | c :: r => if c = '=' then ([], r) else (c :: (splitEq r).1, (splitEq r).2)

/-- The pairs of a query string (`serde_urlencoded`): `unescape` undoes the escaping of one name or value. -/
def pairs (unescape : List Char → List Char) (q : List Char) : List (List Char × List Char) :=
  ((Text.splitAll '&' q).filter fun s => !s.isEmpty).map fun s => (unescape (splitEq s).1, unescape (splitEq s).2)

/-- The value of a field: there must be exactly one. -/
def fieldOf (l : List (List Char × List Char)) (name : List Char) : Option (List Char) :=
  match l.filter fun x => x.1 = name with
  | [x] => some x.2
  | _ => none

/-- Reading a query (main.rs:394-423). -/
def parseQuery (unescape : List Char → List Char) (q : List Char) : Option Query :=
  let l := pairs unescape q
  match fieldOf l "serviceinfo_api_version".toList, fieldOf l "device_guid".toList, fieldOf l "modules".toList with
  | some v, some g, some m =>
    match Text.parseU32 v, RvServer.parseGuid g with
    | some n, some guid => some ⟨n, guid, (Text.splitAll ',' m).map SiModule.fromStr⟩
    | _, _ => none
  | _, _, _ => none

/-- HTTP methods. -/
inductive Method where
  | get
  | post
  | other
  deriving DecidableEq

/-- `AdminV0Request` (main.rs:152-157). -/
structure AdminRequest where
  guid : Bytes
  info : List Item

/-- A request: the segments of its path, the `Authorization` header if there is one, the query string, and the body if it
is an admin request in JSON. -/
structure Request where
  method : Method
  path : List (List Char)
  auth : Option (List Char)
  query : List Char
  body : Option AdminRequest

/-- What is answered. -/
inductive Response where
  | rejected
  | info (r : ApiReply)
  | admin (success : Bool)
  | pong

/-- `ServiceInfoApiServerUD` (main.rs:80-92) with the tokens as in the settings; `stored` are the entries of the
device-specific store, newest first. -/
structure Server where
  config : Config
  siToken : Option (List Char)
  adminToken : Option (List Char)
  stored : List AdminRequest

/-- What the server expects in the header for a token (main.rs:446-449). -/
def bearer (token : List Char) : List Char := "Bearer ".toList ++ token

/-- `serviceinfo_auth_handler` (main.rs:187-205). -/
def siAuth (s : Server) (header : List Char) : Bool :=
  match s.siToken with
  | none => true
  | some t => bearer t = header

/-- `admin_auth_handler` (main.rs:132-150). -/
def adminAuth (s : Server) (header : List Char) : Bool :=
  match s.adminToken with
  | none => false
  | some t => bearer t = header

/-- What the surroundings contribute to a request: the settings for single devices, the unescaping of queries, and
whether storing works. -/
structure Oracle where
  perDevice : Bytes → Option (Option InitialUser)
  unescape : List Char → List Char
  storeOk : Bool

/-- The route for devices (main.rs:454-459). -/
def deviceInfo (o : Oracle) (s : Server) (r : Request) : Response :=
  match r.auth with
  | none => .rejected
  | some a =>
    if siAuth s a then
      match parseQuery o.unescape r.query with
      | none => .rejected
      | some q =>
        match handler s.config (o.perDevice q.guid) q with
        | none => .rejected
        | some x => .info x
    else .rejected

/-- The admin route (main.rs:461-468) with `admin_v0_handler` (main.rs:167-185). -/
def adminV0 (o : Oracle) (s : Server) (r : Request) : Server × Response :=
  match r.auth with
  | none => (s, .rejected)
  | some a =>
    if adminAuth s a then
      match r.body with
      | none => (s, .rejected)
      | some b => if o.storeOk then ({ s with stored := b :: s.stored }, .admin true) else (s, .admin false)
    else (s, .rejected)

/-- All routes (main.rs:470-476; http-wrapper/src/server.rs:365-370): only the first segments of the path are looked at. -/
def step (o : Oracle) (s : Server) (r : Request) : Server × Response :=
  match r.method, r.path with
  | .get, p :: _ => if p = "device_info".toList then (s, deviceInfo o s r) else (s, .rejected)
  | .post, p :: rest =>
    if p = "ping".toList then (s, .pong)
    else if p = "admin".toList then
      match rest with
      | v :: _ => if v = "v0".toList then adminV0 o s r else (s, .rejected)
      | [] => (s, .rejected)
    else (s, .rejected)
  | _, _ => (s, .rejected)

/-- The request of an owner server (`JsonClient::send_get`, client.rs:96-138): the header is sent only if a token is
configured. -/
def ownerRequest (token : Option (List Char)) (query : List Char) : Request :=
  ⟨.get, ["device_info".toList], token.map bearer, query, none⟩

/-- The answer an owner server gets: anything but a reply is a failure. -/
def answer (o : Oracle) (s : Server) (token : Option (List Char)) (query : List Char) : Option ApiReply :=
  match (step o s (ownerRequest token query)).2 with
  | .info r => some r
  | _ => none

end Verif.SiApi

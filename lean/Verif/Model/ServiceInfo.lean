import Verif.Model.Types
/-!
Model of how service info is put together by the owner onboarding server: values, the reply of the service
info API (`util/src/servers/mod.rs`), and `perform_service_info` (`owner-onboarding-server/src/handlers.rs`).
-/
namespace Verif.ServiceInfo
open Verif Verif.Types

/-- CBOR and JSON values (`serde_cbor::Value`, `serde_json::Value`). JSON has no byte strings. Floats are
their bits. Tags are dropped by `serde_cbor`. -/
inductive Val where
  | null
  | bool (b : Bool)
  | int (n : Int)
  | float (bits : Nat)
  | text (s : List Char)
  | bytes (b : Bytes)
  | array (l : List Val)
  | map (l : List (Val × Val))

/-- `from_value::<String>`: text, or bytes that are UTF-8 (serde's string visitor takes both). -/
def Val.asString : Val → Option (List Char)
  | .text s => some s
  | .bytes b => (String.fromUTF8? ⟨b.toArray⟩).map String.toList
  | _ => none

/-- `from_value::<Vec<Value>>`. -/
def Val.asArray : Val → Option (List Val)
  | .array l => some l
  | _ => none

/-- `ServiceInfoApiReplyInitialUser` (util/src/servers/mod.rs:153-158). -/
structure InitialUser where
  username : List Char
  password : Option (List Char)
  sshKeys : Option (List (List Char))

/-- `ServiceInfoApiReply` (util/src/servers/mod.rs:160-173). -/
structure ApiReply where
  user : Option InitialUser
  extra : Option (List (SiModule × List Char × Val))
  reboot : Option Bool

/-- One instruction: module, key and value. -/
abbrev Item := SiModule × List Char × Val

/-- All of a list of strings, or none if one is not a string (handlers.rs:504-506). -/
def allStrings : List Val → Option (List (List Char))
  | [] => some []
  | v :: r =>
    match v.asString, allStrings r with
    | some s, some t => some (s :: t)
    | _, _ => none

/-- The module names of one `devmod:modules` value (handlers.rs:498-509): the first two elements are
skipped. The code collects them in a hash set; here they keep their order and lose repetitions. -/
def modulesOf (v : Val) : Option (List (List Char)) :=
  match v.asArray with
  | none => none
  | some l => (allStrings (l.drop 2)).map List.eraseDups

/-- The loop over the received service info (handlers.rs:495-513): the last module list counts, a malformed
one is an error. -/
def moduleLoop : Option (List (List Char)) → List Item → Option (Option (List (List Char)))
  | acc, [] => some acc
  | acc, (m, k, v) :: r =>
    if m = .devMod ∧ k = "modules".toList then
      match modulesOf v with
      | none => none
      | some l => moduleLoop (some l) r
    else moduleLoop acc r

/-- The modules a device announces (handlers.rs:493-521). -/
def moduleList (dec : Bytes → Option Val) (si : ServiceInfo) : Option (List (List Char)) :=
  (moduleLoop none (siItems dec si)).bind id

/-- `[_]::join` of strings. -/
def joinWith (sep : List Char) : List (List Char) → List Char
  | [] => []
  | [s] => s
  | s :: r => s ++ sep ++ joinWith sep r

/-- The query string of the request to the service info API (handlers.rs:523-530; client.rs:101-114):
nothing is escaped. -/
def apiQuery (guid : List Char) (modules : List (List Char)) : List Char :=
  "serviceinfo_api_version=1&device_guid=".toList ++ guid ++ "&modules=".toList ++ joinWith [','] modules

/-- `key.replace("|hex", "")` (handlers.rs:566). -/
def removeHex : List Char → List Char
  | '|' :: 'h' :: 'e' :: 'x' :: r => removeHex r
  | c :: r => c :: removeHex r
  | [] => []

/-- One extra command of the API reply (handlers.rs:557-571): keys ending in `|hex` carry bytes in hex. -/
def extraItem : Item → Option Item
  | (m, k, v) =>
    if "|hex".toList.isSuffixOf k then
      match v with
      | .text s => (hexDecode s).map fun b => (m, removeHex k, .bytes b)
      | _ => none
    else some (m, k, v)

/-- All extra commands (handlers.rs:556-572). -/
def extraItems : List Item → Option (List Item)
  | [] => some []
  | x :: r =>
    match extraItem x, extraItems r with
    | some y, some t => some (y :: t)
    | _, _ => none

/-- The part of the reply for the initial user (handlers.rs:536-554). -/
def userItems (u : InitialUser) : List Item :=
  [(.sshKey, "active".toList, .bool true), (.sshKey, "username".toList, .text u.username)]
  ++ (match u.password with
    | some p => [(.sshKey, "password".toList, .text p)]
    | none => [])
  ++ (match u.sshKeys with
    | some ks => [(.sshKey, "sshkeys".toList, .text (joinWith [';'] ks))]
    | none => [])

/-- The part for rebooting (handlers.rs:574-577). -/
def rebootItems (r : Bool) : List Item :=
  [(.reboot, "active".toList, .bool true), (.reboot, "reboot".toList, .bool r)]

/-- The instructions made of an API reply (handlers.rs:534-577). -/
def replyItems (r : ApiReply) : Option (List Item) :=
  match extraItems (r.extra.getD []) with
  | none => none
  | some l =>
    some ((match r.user with
      | some u => userItems u
      | none => [])
    ++ l
    ++ (match r.reboot with
      | some b => rebootItems b
      | none => []))

/-- Writing instructions into a `ServiceInfo` (types.rs:744-756); `enc` writes a value as CBOR. -/
def toSi (enc : Val → Bytes) (l : List Item) : ServiceInfo :=
  l.foldl (fun si x => siAdd si x.1 x.2.1 (enc x.2.2)) []

/-- `OwnerServiceInfo` (messages/v11/to2.rs). -/
structure OwnerSi where
  isMore : Bool
  isDone : Bool
  si : ServiceInfo
  deriving DecidableEq

/-- `perform_service_info` (handlers.rs:476-584). `api` is what the service info API answers to a query
string (`none`: any failure). -/
def perform (enc : Val → Bytes) (dec : Bytes → Option Val) (api : List Char → Option ApiReply)
    (guid : List Char) (si : ServiceInfo) (loop : Nat) : Option OwnerSi :=
  if loop ≠ 0 then some ⟨false, true, []⟩
  else
    match moduleList dec si with
    | none => none
    | some ms =>
      match api (apiQuery guid ms) with
      | none => none
      | some r => (replyItems r).map fun l => ⟨false, false, toSi enc l⟩

end Verif.ServiceInfo

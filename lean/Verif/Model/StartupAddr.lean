import Verif.Model.StartupSi
import Verif.Model.Aio
/-!
The owner server's addresses, from its settings: `owner_addresses` (util/src/servers/configuration/owner_onboarding_server.rs:32), the
readers of `RemoteConnection` (data-formats/src/types.rs:1966-2020), and owner-onboarding-server/src/main.rs:501-507. The conversion is
in `Model/Aio`.
-/
namespace Verif.Startup
open Verif Verif.Settings

/-- How further values are read: numbers as `u16` (by the `config` crate), and texts as they are (serde's buffered values, which do not
make texts of numbers). -/
structure AddrReads extends Reads where
  u16 : String → Option Nat
  str : String → Option String

variable (S : AddrReads)

/-- The name of a transport (types.rs:1983-1998). `to_lowercase` maps no character outside of ASCII to a letter of these names. -/
def transportNamed (t : List Char) : Option Device.Transport :=
  let n := t.map Char.toLower
  if n = "http".toList then some .http
  else if n = "https".toList then some .https
  else if n ∈ ["tcp".toList, "tls".toList, "coap".toList, "coaps".toList] then some .other
  else none

/-- `RemoteTransport::deserialize` (types.rs:1968-2004). -/
def transportOf (x : Val) : Res Fail Device.Transport := do
  let t ← textOf S.toReads x
  match transportNamed t with
  | some r => pure r
  | none => .err .type

/-- A field that is there and is a text. -/
def strOf (x : Val) (name : String) : Option String :=
  match field x.fields name with
  | some (.leaf s) => S.str s
  | _ => none

/-- Reading `RemoteAddress` (types.rs:2006-2011): `serde(untagged)`, so the first variant whose fields are there counts, and other fields
are ignored. Arrays, which serde would read as the fields in their order, are not modelled. -/
def remoteOf : Val → Res Fail Aio.Remote
  | .leaf _ => .err .type
  | .table l =>
    match strOf S (.table l) "ip_address" with
    | some t => .ok (.ip t)
    | none =>
      match strOf S (.table l) "dns_name" with
      | some n => .ok (.dns n)
      | none => .err .type

/-- A value that is read as `u16`. -/
def portOf : Val → Res Fail Nat
  | .leaf s =>
    match S.u16 s with
    | some n => .ok n
    | none => .err .type
  | .table _ => .err .type

/-- Reading `RemoteConnection` (types.rs:2013-2020). -/
def connectionOf (v : Val) : Res Fail Aio.Connection := do
  let t ← required (transportOf S) v "transport"
  let l ← required (listOf S.toReads (remoteOf S)) v "addresses"
  let p ← required (portOf S) v "port"
  pure ⟨t, l, p⟩

/-- The owner server's addresses (main.rs:501-507); `parseIp` is `IpAddr::from_str`. -/
def ownerAddressesOf (parseIp : String → Option Bytes) (v : Val) : Res Fail (List Device.Addr) := do
  let l ← required (listOf S.toReads (structOf (connectionOf S))) v "owner_addresses"
  match Aio.allEntries parseIp l with
  | some es => pure es
  | none => .err .parse

end Verif.Startup

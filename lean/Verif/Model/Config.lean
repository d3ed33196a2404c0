import Verif.Model.Rendezvous
/-!
Rendezvous information as configured (`manufacturing-server/src/main.rs:124-146`, `owner-tool/src/main.rs:171-239`,
`util/src/servers/mod.rs:123-152`, `data-formats/src/constants/mod.rs:230-338`).
-/
namespace Verif.Config
open Verif Verif.Rendezvous

/-- `serde_yaml::Value`. Numbers are told apart as `as_u64`, `as_i64` and `as_f64` do (each number is one of these, so the
branch for other numbers is never taken): `neg n` is `-(n + 1)`; a float is given by its bits. -/
inductive Yaml where
  | null
  | bool (b : Bool)
  | pos (n : Nat)
  | neg (n : Nat)
  | float (bits : UInt64)
  | str (s : String)
  | seq (l : List Yaml)
  | map (l : List (Yaml × Yaml))
  | tagged (tag : String) (v : Yaml)

/-- `serde_cbor::Value` (`CborSimpleType`). A map is given by its pairs as inserted. -/
inductive Value where
  | null
  | bool (b : Bool)
  | int (i : Int)
  | float (bits : UInt64)
  | bytes (b : Bytes)
  | text (s : String)
  | array (l : List Value)
  | map (l : List (Value × Value))

/-- Failures. -/
inductive Fail where
  | tag
  | key
  | value
  | notImplemented
  | shape
  | encode
  deriving DecidableEq

mutual
/-- `yaml_to_cbor` (util/src/servers/mod.rs:123-152; the same in owner-tool/src/main.rs:171-199). -/
def yamlToCbor : Yaml → Res Fail Value
  | .null => .ok .null
  | .bool b => .ok (.bool b)
  | .pos n => .ok (.int n)
  | .neg n => .ok (.int (-(n : Int) - 1))
  | .float f => .ok (.float f)
  | .str s => .ok (.text s)
  | .seq l =>
    match yamlList l with
    | .ok l => .ok (.array l)
    | .err e => .err e
    | .panic => .panic
  | .map l =>
    match yamlPairs l with
    | .ok l => .ok (.map l)
    | .err e => .err e
    | .panic => .panic
  | .tagged _ _ => .err .tag

/-- The elements of a sequence: the first failure counts (mod.rs:139-143). -/
def yamlList : List Yaml → Res Fail (List Value)
  | [] => .ok []
  | y :: l =>
    match yamlToCbor y with
    | .ok v =>
      match yamlList l with
      | .ok l => .ok (v :: l)
      | .err e => .err e
      | .panic => .panic
    | .err e => .err e
    | .panic => .panic

/-- The pairs of a mapping: a failure is unwrapped (mod.rs:144-148). -/
def yamlPairs : List (Yaml × Yaml) → Res Fail (List (Value × Value))
  | [] => .ok []
  | (k, y) :: l =>
    match yamlToCbor k with
    | .ok k =>
      match yamlToCbor y with
      | .ok v =>
        match yamlPairs l with
        | .ok l => .ok ((k, v) :: l)
        | .err e => .err e
        | .panic => .panic
      | _ => .panic
    | _ => .panic
end

/-- `str::to_lowercase`, for what matters here: besides `A` to `Z` only the Kelvin sign becomes an ASCII letter (`k`, which is
in none of the names compared with). -/
def lower (s : String) : List Char := s.toList.map Char.toLower

/-- `RendezvousVariable::from_str` after `to_lowercase` (constants/mod.rs:288-306). -/
def varOfLower (l : List Char) : Res Fail Var :=
  if l = "deviceonly".toList ∨ l = "device_only".toList then .ok .deviceOnly
  else if l = "owneronly".toList ∨ l = "owner_only".toList then .ok .ownerOnly
  else if l = "ipaddress".toList ∨ l = "ip_address".toList ∨ l = "ip".toList then .ok .ipAddress
  else if l = "deviceport".toList ∨ l = "device_port".toList then .ok .devicePort
  else if l = "ownerport".toList ∨ l = "owner_port".toList then .ok .ownerPort
  else if l = "dns".toList then .ok .dns
  else if l = "servercerthash".toList ∨ l = "server_cert_hash".toList then .ok .serverCertHash
  else if l = "cacerthash".toList ∨ l = "ca_cert_hash".toList then .ok .caCertHash
  else if l = "userinput".toList ∨ l = "user_input".toList then .ok .userInput
  else if l = "wifissid".toList ∨ l = "wifi_ssid".toList then .ok .wifiSsid
  else if l = "wifipw".toList ∨ l = "wifi_pw".toList then .ok .wifiPw
  else if l = "medium".toList then .ok .medium
  else if l = "protocol".toList then .ok .protocol
  else if l = "delaysec".toList ∨ l = "delay_sec".toList ∨ l = "delay".toList then .ok .delaysec
  else if l = "bypass".toList then .ok .bypass
  else .err .key

/-- `RendezvousVariable::from_str` (constants/mod.rs:284-308). -/
def varFromStr (s : String) : Res Fail Var := varOfLower (lower s)

/-- `RendezvousProtocolValue::from_str` after `to_lowercase` (constants/mod.rs:327-336). -/
def protoOfLower (l : List Char) : Res Fail Proto :=
  if l = "rest".toList then .ok .rest
  else if l = "http".toList then .ok .http
  else if l = "https".toList then .ok .https
  else if l = "tcp".toList then .ok .tcp
  else if l = "tls".toList then .ok .tls
  else if l = "coaptcp".toList then .ok .coapTcp
  else if l = "coapudp".toList then .ok .coapUdp
  else .err .value

/-- `RendezvousProtocolValue::from_str` (constants/mod.rs:323-338). -/
def protoFromStr (s : String) : Res Fail Proto := protoOfLower (lower s)

/-- The numbers of `RendezvousProtocolValue` (constants/mod.rs:310-321). -/
def protoNumber : Proto → Nat
  | .rest => 0
  | .http => 1
  | .https => 2
  | .tcp => 3
  | .tls => 4
  | .coapTcp => 5
  | .coapUdp => 6

/-- External functions: `IpAddr::from_str` followed by `octets`, encoding and decoding of CBOR values, and reading a hash
from a value. -/
structure Lib where
  parseIp : String → Option Bytes
  enc : Value → Option Bytes
  dec : Bytes → Option Value
  hash : Value → Option Hash

variable (L : Lib)

/-- `value_from_human_to_machine` (constants/mod.rs:230-281). -/
def humanToMachine (var : Var) (v : Value) : Res Fail Value :=
  match var with
  | .deviceOnly | .ownerOnly | .userInput | .bypass => .ok .null
  | .devicePort | .ownerPort | .delaysec =>
    match v with
    | .int i => .ok (.int i)
    | _ => .err .value
  | .dns | .wifiSsid | .wifiPw =>
    match v with
    | .text t => .ok (.text t)
    | _ => .err .value
  | .protocol =>
    match v with
    | .text t =>
      match protoFromStr t with
      | .ok p => .ok (.int (protoNumber p))
      | .err e => .err e
      | .panic => .panic
    | _ => .err .value
  | .ipAddress =>
    match v with
    | .text t =>
      match L.parseIp t with
      | some b => .ok (.bytes b)
      | none => .err .value
    | _ => .err .value
  | .serverCertHash | .caCertHash | .medium => .err .notImplemented

/-- One configured directive: names and values in the order of iteration (of a `BTreeMap` in the server, of a YAML mapping in
the tool). -/
abbrev Configured := List (String × Yaml)

/-- The inner loop of `load_rendezvous_info` (manufacturing-server/src/main.rs:129-141, owner-tool/src/main.rs:220-233). -/
def loadDirective : Configured → Res Fail (List (Var × Value))
  | [] => .ok []
  | (k, y) :: r => do
    let var ← varFromStr k
    let c ← yamlToCbor y
    let v ← humanToMachine L var c
    let t ← loadDirective r
    pure ((var, v) :: t)

/-- The outer loop (manufacturing-server/src/main.rs:126-143). -/
def loadEach : List Configured → Res Fail (List (List (Var × Value)))
  | [] => .ok []
  | d :: r => do
    let e ← loadDirective L d
    let t ← loadEach r
    pure (e :: t)

/-- A directive of `RendezvousInfo::new` (types.rs:431-444). -/
def encodeDirective : List (Var × Value) → Res Fail Directive
  | [] => .ok []
  | (var, v) :: r =>
    match L.enc v with
    | none => .err .encode
    | some b => do
      let t ← encodeDirective r
      pure ((var, b) :: t)

/-- `RendezvousInfo::new` (types.rs:428-448). -/
def newInfo : List (List (Var × Value)) → Res Fail (List Directive)
  | [] => .ok []
  | e :: r => do
    let d ← encodeDirective L e
    let t ← newInfo r
    pure (d :: t)

/-- `load_rendezvous_info` of the manufacturing server (main.rs:124-146). -/
def load (cfg : List Configured) : Res Fail (List Directive) := do
  let e ← loadEach L cfg
  newInfo L e

/-- The names of a mapping must be strings (owner-tool/src/main.rs:220-224). -/
def named : List (Yaml × Yaml) → Option Configured
  | [] => some []
  | (.str k, y) :: r => (named r).map ((k, y) :: ·)
  | _ :: _ => none

/-- `load_rendezvous_info` of the owner tool (main.rs:201-239), on the parsed file. As in the code names are looked at while
values are converted: the first failure counts. (Here the names of one mapping are looked at before its values are
converted: which of two failures is reported may differ, and a mapping with both a bad name and a value that aborts is refused.) -/
def loadYaml (y : Yaml) : Res Fail (List Directive) :=
  match y with
  | .seq l => do
    let cfg ← entries l
    load L cfg
  | _ => .err .shape
where
  entries : List Yaml → Res Fail (List Configured)
    | [] => .ok []
    | .map m :: r =>
      match named m with
      | some d => do
        let t ← entries r
        pure (d :: t)
      | none => .err .shape
    | _ :: _ => .err .shape

/-- How the device and the owner read the values (`from_value`, enhanced_types.rs:82-156): `u32` and `u8` are range-checked,
an address has 4 or 16 octets (types.rs:389-422), a protocol is one of the numbers. -/
def decoders : Dec where
  V := Value
  value := L.dec
  ip v := match v with
    | .bytes b => if b.length = 4 ∨ b.length = 16 then some b else none
    | _ => none
  u32 v := match v with
    | .int i => if 0 ≤ i ∧ i < 2 ^ 32 then some i.toNat else none
    | _ => none
  text v := match v with
    | .text s => some s
    | _ => none
  hash := L.hash
  u8 v := match v with
    | .int i => if 0 ≤ i ∧ i < 2 ^ 8 then some i.toNat else none
    | _ => none
  proto v := match v with
    | .int i => [Proto.rest, .http, .https, .tcp, .tls, .coapTcp, .coapUdp].find? (fun p => (protoNumber p : Int) = i)
    | _ => none

end Verif.Config

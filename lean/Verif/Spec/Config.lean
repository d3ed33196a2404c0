import Verif.Props.Rendezvous
import Verif.Model.Config
/-!
Specification for C77: what a configured rendezvous directive means.
-/
namespace Verif.Config
open Verif Verif.Rendezvous

/-- A YAML value and a CBOR value are the same data. -/
inductive Same : Yaml → Value → Prop
  | null : Same .null .null
  | bool (b : Bool) : Same (.bool b) (.bool b)
  | pos (n : Nat) : Same (.pos n) (.int n)
  | neg (n : Nat) : Same (.neg n) (.int (Int.negSucc n))
  | float (f : UInt64) : Same (.float f) (.float f)
  | str (s : String) : Same (.str s) (.text s)
  | seqNil : Same (.seq []) (.array [])
  | seqCons {y : Yaml} {v : Value} {l : List Yaml} {m : List Value} :
      Same y v → Same (.seq l) (.array m) → Same (.seq (y :: l)) (.array (v :: m))
  | mapNil : Same (.map []) (.map [])
  | mapCons {k y : Yaml} {c v : Value} {l : List (Yaml × Yaml)} {m : List (Value × Value)} :
      Same k c → Same y v → Same (.map l) (.map m) → Same (.map ((k, y) :: l)) (.map ((c, v) :: m))

/-- There is no tag anywhere in the value. -/
inductive Plain : Yaml → Prop
  | null : Plain .null
  | bool (b : Bool) : Plain (.bool b)
  | pos (n : Nat) : Plain (.pos n)
  | neg (n : Nat) : Plain (.neg n)
  | float (f : UInt64) : Plain (.float f)
  | str (s : String) : Plain (.str s)
  | seq (l : List Yaml) : (∀ y ∈ l, Plain y) → Plain (.seq l)
  | map (l : List (Yaml × Yaml)) : (∀ e ∈ l, Plain e.1) → (∀ e ∈ l, Plain e.2) → Plain (.map l)

/-- The names of the variables, in lower case. -/
def names : Var → List (List Char)
  | .deviceOnly => ["deviceonly".toList, "device_only".toList]
  | .ownerOnly => ["owneronly".toList, "owner_only".toList]
  | .ipAddress => ["ipaddress".toList, "ip_address".toList, "ip".toList]
  | .devicePort => ["deviceport".toList, "device_port".toList]
  | .ownerPort => ["ownerport".toList, "owner_port".toList]
  | .dns => ["dns".toList]
  | .serverCertHash => ["servercerthash".toList, "server_cert_hash".toList]
  | .caCertHash => ["cacerthash".toList, "ca_cert_hash".toList]
  | .userInput => ["userinput".toList, "user_input".toList]
  | .wifiSsid => ["wifissid".toList, "wifi_ssid".toList]
  | .wifiPw => ["wifipw".toList, "wifi_pw".toList]
  | .medium => ["medium".toList]
  | .protocol => ["protocol".toList]
  | .delaysec => ["delaysec".toList, "delay_sec".toList, "delay".toList]
  | .bypass => ["bypass".toList]

/-- The names of the protocols, in lower case. -/
def protoName : Proto → List Char
  | .rest => "rest".toList
  | .http => "http".toList
  | .https => "https".toList
  | .tcp => "tcp".toList
  | .tls => "tls".toList
  | .coapTcp => "coaptcp".toList
  | .coapUdp => "coapudp".toList

/-- What is configured for a variable, in order. -/
def valuesOf (var : Var) (cfg : Configured) : List Yaml :=
  cfg.filterMap fun e => if lower e.1 ∈ names var then some e.2 else none

/-- The one that counts if there are several. -/
def valueOf (var : Var) (cfg : Configured) : Option Yaml := (valuesOf var cfg).getLast?

/-- What an operator means by a directive, read from their file: the interpretation for one side. -/
structure Says (parseIp : String → Option Bytes) (side : Side) (cfg : Configured) (r : Interp) : Prop where
  /-- it is not marked for the other side only -/
  relevant : valueOf side.otherOnly cfg = none
  ownerBypass : side = .owner → valueOf .bypass cfg = none
  /-- each configured address, in order -/
  ips : List.Forall₂ (fun y b => ∃ s, y = .str s ∧ parseIp s = some b) (valuesOf .ipAddress cfg) r.ipAddresses
  dns : valueOf .dns cfg = r.dnsName.map .str
  /-- the configured port of this side, or else the default of the protocol -/
  port : ∃ p, r.port = some p ∧
    (valueOf side.portVar cfg = some (.pos p) ∨ valueOf side.portVar cfg = none ∧ r.protocol.defaultPort = some p)
  protocol : (∃ s, valueOf .protocol cfg = some (.str s) ∧ lower s = protoName r.protocol) ∨
    valueOf .protocol cfg = none ∧ r.protocol = .tls
  delay : valueOf .delaysec cfg = some (.pos r.delay) ∨ valueOf .delaysec cfg = none ∧ r.delay = 0
  /-- network settings are for devices -/
  ssid : (if side = .device then valueOf .wifiSsid cfg else none) = r.wifiSsid.map .str
  wifiPw : (if side = .device then valueOf .wifiPw cfg else none) = r.wifiPassword.map .str
  /-- certificates and media cannot be configured -/
  rest : r.serverCertHash = none ∧ r.caCertHash = none ∧ r.medium = none
  userInput : r.userInput = true ↔ side = .device ∧ (valueOf .userInput cfg).isSome
  bypass : r.bypass = true ↔ side = .device ∧ (valueOf .bypass cfg).isSome

/-- The directive is not for this side. -/
def Skipped (side : Side) (cfg : Configured) : Prop :=
  (valueOf side.otherOnly cfg).isSome ∨ side = .owner ∧ (valueOf .bypass cfg).isSome

/-- A number that can be read back: not negative and of at most 32 bits. -/
def Small : Yaml → Prop
  | .pos n => n < 2 ^ 32
  | _ => False

/-- What a directive needs beyond what is checked when it is loaded: ports and delays that can be read back, and a port for
this side unless the protocol has one. -/
structure Complete (side : Side) (cfg : Configured) : Prop where
  port : ∀ y ∈ valuesOf side.portVar cfg, Small y
  delay : ∀ y ∈ valuesOf .delaysec cfg, Small y
  reachable : valuesOf side.portVar cfg ≠ [] ∨
    ∃ s, valueOf .protocol cfg = some (.str s) ∧ (lower s = protoName .http ∨ lower s = protoName .https)

/-- What may be configured for a variable: anything untagged for a marker, a whole number for a port or a delay, a text for
a name, the name of a protocol, an address; nothing for the others. -/
def Fits (parseIp : String → Option Bytes) : Var → Yaml → Prop
  | .deviceOnly, y | .ownerOnly, y | .userInput, y | .bypass, y => Plain y
  | .devicePort, y | .ownerPort, y | .delaysec, y => (∃ n, y = .pos n) ∨ ∃ n, y = .neg n
  | .dns, y | .wifiSsid, y | .wifiPw, y => ∃ s, y = .str s
  | .protocol, y => ∃ s p, y = .str s ∧ lower s = protoName p
  | .ipAddress, y => ∃ s b, y = .str s ∧ parseIp s = some b
  | .serverCertHash, _ | .caCertHash, _ | .medium, _ => False

/-- A configured entry is acceptable: a known name with a fitting value. -/
def Valid (parseIp : String → Option Bytes) (e : String × Yaml) : Prop :=
  ∃ var, lower e.1 ∈ names var ∧ Fits parseIp var e.2

/-- Laws of the external functions: an encoded value is read back (for the values that are encoded), addresses have 4 or 16
octets. -/
structure Lib.Good (L : Lib) : Prop where
  null : ∀ b, L.enc .null = some b → L.dec b = some .null
  int : ∀ i b, L.enc (.int i) = some b → L.dec b = some (.int i)
  text : ∀ s b, L.enc (.text s) = some b → L.dec b = some (.text s)
  bytes : ∀ x b, L.enc (.bytes x) = some b → L.dec b = some (.bytes x)
  ip : ∀ s b, L.parseIp s = some b → b.length = 4 ∨ b.length = 16

end Verif.Config

import Verif.Model.Types
/-!
Model of rendezvous directives and their interpretation (`data-formats/src/enhanced_types.rs`,
`constants/mod.rs`), and of certificate chain verification (`publickey.rs`).
-/
namespace Verif.Rendezvous
open Verif

/-- `RendezvousVariable` (constants/mod.rs:186-206). -/
inductive Var where
  | deviceOnly | ownerOnly | ipAddress | devicePort | ownerPort | dns | serverCertHash | caCertHash
  | userInput | wifiSsid | wifiPw | medium | protocol | delaysec | bypass
  deriving DecidableEq, Repr

/-- `RendezvousProtocolValue` (constants/mod.rs:310-321). -/
inductive Proto where
  | rest | http | https | tcp | tls | coapTcp | coapUdp
  deriving DecidableEq, Repr

/-- `RendezvousProtocolValue::default_port` (constants/mod.rs:340-346). -/
def Proto.defaultPort : Proto → Option Nat
  | .http => some 80
  | .https => some 443
  | _ => none

/-- `RendezvousInterpreterSide` (enhanced_types.rs:13-17). -/
inductive Side where
  | device | owner
  deriving DecidableEq, Repr

/-- Decoders of directive values (`CborSimpleType::deserialize_data` and `from_value`, serde_cbor).
`V` is the decoded CBOR value, `ip` yields the address octets. -/
structure Dec where
  V : Type
  value : Bytes → Option V
  ip : V → Option Bytes
  u32 : V → Option Nat
  text : V → Option String
  hash : V → Option Hash
  u8 : V → Option Nat
  proto : V → Option Proto

/-- `RendezvousDirective`: the variables with their raw values, in order (types.rs:424). -/
abbrev Directive := List (Var × Bytes)

/-- `RendezvousInterpretedDirective` (enhanced_types.rs:19-39); also the accumulator of the loop,
where `port` is still optional. -/
structure Interp where
  ipAddresses : List Bytes
  dnsName : Option String
  port : Option Nat
  serverCertHash : Option Hash
  caCertHash : Option Hash
  userInput : Bool
  wifiSsid : Option String
  wifiPassword : Option String
  medium : Option Nat
  protocol : Proto
  delay : Nat
  bypass : Bool
  deriving DecidableEq, Repr

/-- Initial values (enhanced_types.rs:69-80). -/
def Interp.init : Interp :=
  ⟨[], none, none, none, none, false, none, none, none, .tls, 0, false⟩

variable (D : Dec)

/-- Body of the loop over a directive (enhanced_types.rs:82-156) for one decoded value: `none` is
the early `return Ok(None)`. -/
def step (side : Side) (acc : Interp) (var : Var) (v : D.V) : Res Err (Option Interp) :=
  match var with
  | .deviceOnly => if side ≠ .device then .ok none else .ok (some acc)
  | .ownerOnly => if side ≠ .owner then .ok none else .ok (some acc)
  | .ipAddress => do
    let a ← ofOpt .serde (D.ip v)
    pure (some { acc with ipAddresses := acc.ipAddresses ++ [a] })
  | .devicePort =>
    if side = .device then do
      let p ← ofOpt .serde (D.u32 v)
      pure (some { acc with port := some p })
    else .ok (some acc)
  | .ownerPort =>
    if side = .owner then do
      let p ← ofOpt .serde (D.u32 v)
      pure (some { acc with port := some p })
    else .ok (some acc)
  | .dns => do
    let s ← ofOpt .serde (D.text v)
    pure (some { acc with dnsName := some s })
  | .serverCertHash =>
    if side = .device then do
      let h ← ofOpt .serde (D.hash v)
      pure (some { acc with serverCertHash := some h })
    else .ok (some acc)
  | .caCertHash =>
    if side = .device then do
      let h ← ofOpt .serde (D.hash v)
      pure (some { acc with caCertHash := some h })
    else .ok (some acc)
  | .userInput => if side = .device then .ok (some { acc with userInput := true }) else .ok (some acc)
  | .wifiSsid =>
    if side = .device then do
      let s ← ofOpt .serde (D.text v)
      pure (some { acc with wifiSsid := some s })
    else .ok (some acc)
  | .wifiPw =>
    if side = .device then do
      let s ← ofOpt .serde (D.text v)
      pure (some { acc with wifiPassword := some s })
    else .ok (some acc)
  | .medium =>
    if side = .device then do
      let m ← ofOpt .serde (D.u8 v)
      pure (some { acc with medium := some m })
    else .ok (some acc)
  | .protocol => do
    let p ← ofOpt .serde (D.proto v)
    pure (some { acc with protocol := p })
  | .delaysec => do
    let d ← ofOpt .serde (D.u32 v)
    pure (some { acc with delay := d })
  | .bypass => if side = .device then .ok (some { acc with bypass := true }) else .ok none

/-- The loop (enhanced_types.rs:82-156). -/
def loop (side : Side) : Interp → Directive → Res Err (Option Interp)
  | acc, [] => .ok (some acc)
  | acc, (var, raw) :: r => do
    let v ← ofOpt .serde (D.value raw)
    match ← step D side acc var v with
    | none => .ok none
    | some acc' => loop side acc' r

/-- `from_rv_directive` (enhanced_types.rs:65-187). A directive without IP address has
`ip_addresses: None`, here the empty list. -/
def fromDirective (side : Side) (d : Directive) : Res Err (Option Interp) := do
  match ← loop D side .init d with
  | none => .ok none
  | some acc =>
    match acc.port with
    | some _ => .ok (some acc)
    | none =>
      match acc.protocol.defaultPort with
      | some p => .ok (some { acc with port := some p })
      | none => .err .serde

/-- `RendezvousInfo::to_interpreted` (enhanced_types.rs:190-204): the first error wins. -/
def toInterpreted (side : Side) : List Directive → Res Err (List Interp)
  | [] => .ok []
  | d :: r => do
    match ← fromDirective D side d with
    | none => toInterpreted side r
    | some x => do
      let t ← toInterpreted side r
      pure (x :: t)

/-- `get_urls` (enhanced_types.rs:42-62). `showIp` is `Display for IPAddress` (types.rs:366-370).
Interpreted directives always have a port. -/
def getUrls (showIp : Bytes → String) (i : Interp) : List String :=
  match i.protocol with
  | .http => urls "http" i
  | .https => urls "https" i
  | _ => []
where
  urls (p : String) (i : Interp) : List String :=
    (match i.dnsName with
      | some n => [p ++ "://" ++ n ++ ":" ++ toString (i.port.getD 0)]
      | none => []) ++
    i.ipAddresses.map (fun a => p ++ "://" ++ showIp a ++ ":" ++ toString (i.port.getD 0))

/-! ### Certificate chains -/

/-- `ChainError` and other failures of chain verification (errors.rs, publickey.rs:307-343). -/
inductive ChainErr where
  | empty
  | noTrustedRoot
  | nonIssuer (pos : Nat)
  | invalidSignedCert (pos : Nat)
  | crypto
  deriving DecidableEq, Repr

/-- X.509 operations of OpenSSL. -/
structure Certs where
  Cert : Type
  Key : Type
  /-- `issuer.issued(cert) == OK` -/
  issued : Cert → Cert → Bool
  /-- `cert.public_key()` -/
  publicKey : Cert → Option Key
  /-- `cert.verify(key)`: `none` is an OpenSSL error -/
  verify : Cert → Key → Option Bool

variable {C : Certs}

/-- The loop over positions `0..n-1` (publickey.rs:321-341): position, certificate and the rest. A
trusted-root predicate may itself abort (`verify_from_digest` compares digests). -/
def chainLoop (trusted : C.Cert → Res ChainErr Bool) (leaf : C.Cert) :
    Nat → C.Cert → List C.Cert → Res ChainErr C.Cert
  | _, _, [] => .err .noTrustedRoot
  | pos, cert, issuer :: r =>
    if !C.issued issuer cert then .err (.nonIssuer pos)
    else match C.publicKey issuer with
      | none => .panic
      | some k =>
        match C.verify cert k with
        | none => .err .crypto
        | some false => .err (.invalidSignedCert pos)
        | some true =>
          match trusted issuer with
          | .ok true => .ok leaf
          | .ok false => chainLoop trusted leaf (pos + 1) issuer r
          | .err e => .err e
          | .panic => .panic

/-- `X5Chain::verify` (publickey.rs:307-343). -/
def chainVerify (trusted : C.Cert → Res ChainErr Bool) : List C.Cert → Res ChainErr C.Cert
  | [] => .err .empty
  | [c] =>
    match trusted c with
    | .ok true => .ok c
    | .ok false => .err .noTrustedRoot
    | .err e => .err e
    | .panic => .panic
  | leaf :: r => chainLoop trusted leaf 0 leaf r

/-- `X5Bag::contains` (enhanced_types.rs:247-256) for a bag given by the digests of its certificates;
`verify_from_x5bag` (publickey.rs:275-283). -/
def verifyFromBag (digest : C.Cert → Bytes) (bag : List C.Cert) (chain : List C.Cert) : Res ChainErr C.Cert :=
  chainVerify (fun c => .ok (decide (digest c ∈ bag.map digest))) chain

/-- `verify_from_digest` (publickey.rs:285-295) for a plain hash type: `memcmp::eq` panics on a
digest of a different length. -/
def verifyFromDigest (digest : HashType → C.Cert → Bytes) (h : Hash) (chain : List C.Cert) :
    Res ChainErr C.Cert :=
  if !h.type.isPlain then .err .crypto
  else chainVerify (fun c =>
    if h.value.length ≠ (digest h.type c).length then .panic else .ok (h.value == digest h.type c)) chain

/-- `insecure_verify_without_root_verification` (publickey.rs:297-305). -/
def insecureVerify (chain : List C.Cert) : Res ChainErr C.Cert := chainVerify (fun _ => .ok true) chain

end Verif.Rendezvous

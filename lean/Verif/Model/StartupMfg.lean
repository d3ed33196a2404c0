import Verif.Model.Startup
import Verif.Model.MfgServer
/-!
Start-up of the manufacturing server (manufacturing-server/src/main.rs:92-120, 173-273): from the merged settings (`Model/Settings`)
to the server's configuration. Everything else that can fail (addresses, the stores) is one condition, `rest`.
-/
namespace Verif.Startup
open Verif Verif.Settings

/-- How the `config` crate reads further values: truth values, arrays (`none` if it is no array), and names of the variants of an
enumeration (it compares them without regard to case). -/
structure Reads extends Scalars where
  bool : String → Option Bool
  items : String → Option (List Val)
  variant : List String → Val → Option String

variable (S : Reads)

/-- A value that is read as `bool`. -/
def boolOf : Val → Res Fail Bool
  | .leaf s =>
    match S.bool s with
    | some b => .ok b
    | none => .err .type
  | .table _ => .err .type

/-- A value that is read as a structure (serde). Arrays, which serde would read as the fields in their order, are not modelled. -/
def structOf {α : Type} (f : Val → Res Fail α) : Val → Res Fail α
  | .leaf _ => .err .type
  | .table l => f (.table l)

/-- A value that is read as one of several names. -/
def oneOf {α : Type} (names : List (String × α)) (x : Val) : Res Fail α :=
  match S.variant (names.map (·.1)) x with
  | none => .err .type
  | some n =>
    match names.lookup n with
    | none => .err .type
    | some a => .ok a

/-- The elements of an array: the first failure counts. -/
def each {α : Type} (f : Val → Res Fail α) : List Val → Res Fail (List α)
  | [] => .ok []
  | x :: l => do
    let a ← f x
    let r ← each f l
    pure (a :: r)

/-- A value that is read as `Vec<_>`. -/
def listOf {α : Type} (f : Val → Res Fail α) : Val → Res Fail (List α)
  | .leaf s =>
    match S.items s with
    | some l => each f l
    | none => .err .type
  | .table _ => .err .type

/-- `MfgStringTypeString` and what it stands for (configuration/manufacturing_server.rs:60-73). -/
def stringTypes : List (String × MfgServer.MfgString) := [("SerialNumber", .serialNumber), ("MACAddress", .macAddress)]

/-- `PublicKeyTypeString` (manufacturing_server.rs:75-88). -/
def keyTypes : List (String × MfgServer.KeyType) := [("SECP256R1", .ecdsa256), ("SECP384R1", .ecdsa384)]

/-- `KeyStorageTypeString` (manufacturing_server.rs:90-103). -/
def storageTypes : List (String × MfgServer.KeyStorage) := [("FileSystem", .fileSystem), ("Tpm", .tpm)]

/-- `DiunSettings` (manufacturing_server.rs:49-58). -/
structure DiunSettings where
  stringType : MfgServer.MfgString
  keyType : MfgServer.KeyType
  storage : List MfgServer.KeyStorage
  keyPath : String
  certPath : String

/-- Reading `DiunSettings`. -/
def diunOf (v : Val) : Res Fail DiunSettings := do
  let st ← required (oneOf S stringTypes) v "mfg_string_type"
  let kt ← required (oneOf S keyTypes) v "key_type"
  let ks ← required (listOf S (oneOf S storageTypes)) v "allowed_key_storage_types"
  let kp ← required (pathOf S.toScalars) v "key_path"
  let cp ← required (pathOf S.toScalars) v "cert_path"
  pure ⟨st, kt, ks, kp, cp⟩

/-- Reading `ProtocolSetting` (manufacturing_server.rs:43-47). -/
def protocolsOf (v : Val) : Res Fail (Option Bool × Option DiunSettings) := do
  let di ← optional S.toScalars (boolOf S) v "plain_di"
  let diun ← optional S.toScalars (structOf (diunOf S)) v "diun"
  pure (di, diun)

/-- `ManufacturingSettings` (manufacturing_server.rs:33-41). -/
structure Paths where
  cert : String
  caKey : String
  caChain : String
  owner : Option String
  key : Option String

/-- Reading `ManufacturingSettings`. -/
def pathsOf (v : Val) : Res Fail Paths := do
  let cert ← required (pathOf S.toScalars) v "manufacturer_cert_path"
  let caKey ← required (pathOf S.toScalars) v "device_cert_ca_private_key"
  let caChain ← required (pathOf S.toScalars) v "device_cert_ca_chain"
  let owner ← optional S.toScalars (pathOf S.toScalars) v "owner_cert_path"
  let key ← optional S.toScalars (pathOf S.toScalars) v "manufacturer_private_key"
  pure ⟨cert, caKey, caChain, owner, key⟩

/-- Whether there is a store of public keys (manufacturing_server.rs:18-20). A field that is read by a function of its own
(`serde(with = …)`) has to be there, optional or not; null is `None`. -/
def keyStoreOf (v : Val) : Res Fail Bool :=
  match field v.fields "public_key_store_driver" with
  | none => .err .missing
  | some (.leaf s) => if S.isNull s then .ok false else .err .type
  | some (.table _) => .ok true

/-- The files, OpenSSL's readers, `PublicKey::try_from` for a chain of certificates which is not empty, and the rendezvous
information (`Model/Config`). -/
structure MfgWorld (R : MfgServer.MfgEnv) extends World R.toOwnerEnv where
  chainPub : List R.C.Cert → Option R.E.Pub
  rvInfo : Val → Option R.E.Rv

section
variable {R : MfgServer.MfgEnv} (W : MfgWorld R)

/-- A file is read and parsed; here the failures are not told apart. -/
def got {α : Type} (parse : Bytes → Option α) (p : String) : Option α := (W.file p).bind parse

/-- `DiunConfiguration::try_from` (main.rs:92-120); `X5Chain::new` refuses the empty list (publickey.rs:266-272). -/
def diunFrom (d : DiunSettings) : Option (MfgServer.Diun R) := do
  let key ← got W W.keyFromDer d.keyPath
  let l ← got W W.stackFromPem d.certPath
  if l.isEmpty then none
  else
    let pub ← W.chainPub l
    pure ⟨d.stringType, d.keyType, d.storage, key, pub⟩

/-- The settings as read, with the files they name (main.rs:178-255). -/
def mfgSettings (v : Val) : Res Fail (MfgServer.Settings R) := do
  let store ← keyStoreOf S v
  let (di, diun) ← required (structOf (protocolsOf S)) v "protocols"
  let rv ← required .ok v "rendezvous_info"
  let p ← required (structOf (pathsOf S)) v "manufacturing"
  pure {
    caKey := got W W.keyFromDer p.caKey
    caChain := got W W.stackFromPem p.caChain
    mfgCert := got W W.certFromPem p.cert
    mfgKey := p.key.map (got W W.keyFromDer)
    owner := p.owner.map fun q => (got W W.certFromPem q).bind R.certPub
    diun := diun.map (diunFrom W)
    rv := W.rvInfo rv
    plainDi := di
    keyStore := store }

/-- Start-up of the manufacturing server (main.rs:173-273). -/
def manufacturing (rest : Bool) (v : Val) : Res Fail (MfgServer.Config R) := do
  let s ← mfgSettings S W v
  if !rest then .err .rest
  else
    match MfgServer.startup R s with
    | none => .err .parse
    | some cfg => pure cfg

end

end Verif.Startup

import Verif.Model.NetClient
import Verif.Model.MfgServer
import Verif.Model.Credential
/-!
Model of the manufacturing client (`manufacturing-client/src/main.rs`): choice of a key, key exchange (DIUN), device
initialization (DI) and writing of the device credential. It is a program whose surroundings (network, files, TPM, randomness)
may answer anything. Environment variables and the existence of paths do not change while it runs.
-/
namespace Verif.MfgClient
open Verif Verif.Voucher Verif.Types Verif.MfgServer Verif.Fs

/-- External functions used by the client, besides those of the manufacturing server's model (`E`, certificates, codecs). -/
structure ClientEnv extends MfgEnv where
  /-- private keys on the file system -/
  SignKey : Type
  /-- `PKey::public_key_to_der`, `private_key_to_der`, `private_key_from_der` -/
  signPub : SignKey → Option Bytes
  signPriv : SignKey → Option Bytes
  signFromDer : Bytes → Option SignKey
  /-- the public key of a TPM key in DER form (main.rs:788-829) -/
  tpmPub : Bytes → Option Bytes
  H : Credential.Keys
  codec : Credential.Codec
  /-- `PublicKey::chain` (publickey.rs): there is one if the key was sent as certificate chain -/
  pubChain : E.Pub → Option E.Chain
  /-- `X509::digest` -/
  hashCert : HashType → C.Cert → Bytes
  /-- `X509::stack_from_pem` -/
  pemCerts : Bytes → Option (List C.Cert)
  /-- `CUPHNonce` in a protected header: `none` for a value of the wrong type, `some none` for an absent one -/
  protNonce : Bytes → Option (Option Bytes)
  /-- serde for messages (messages/v11/diun.rs, di.rs) -/
  encConnect : Connect → Bytes
  decAccept : Bytes → Option Bytes
  encRequestKey : Bytes
  decKeyParams : Bytes → Option (KeyType × Option (List KeyStorage))
  encProvideKey : Bytes → KeyStorage → Bytes
  decDiunDone : Bytes → Option MfgString
  encAppStart : String → Bytes
  encSetHmac : Hash → Bytes
  decDiDone : Bytes → Option Unit

variable (R : ClientEnv)

/-- Effects besides the network: `Nonce::new`, `KeyExchange::new` (types.rs:1004-1023, key and random), 32 random bytes, key
generation by OpenSSL, creation of a signing and an HMAC key in a TPM, HMAC by a TPM, `fs::read_to_string`, the default network
interface according to `/proc/net/route` (main.rs:1006-1032), and file operations. -/
inductive Op where
  | nonce
  | kex
  | random
  | ecKey (t : KeyType)
  | tpmKeys (t : KeyType)
  | tpmHmac (pub priv data : Bytes)
  | readText (p : Path)
  | route
  | fs (o : Fs.Op)

/-- Answers; `none` is a failure. The interface: `some none` if there is none. A TPM's HMAC comes with its algorithm as in
`Credential.Keys`. -/
def Op.Ans : Op → Type
  | .nonce => Option Bytes
  | .kex => Option (R.K.Key × Bytes)
  | .random => Option Bytes
  | .ecKey _ => Option R.SignKey
  | .tpmKeys _ => Option (Bytes × Bytes × Bytes × Bytes)
  | .tpmHmac _ _ _ => Option (Bool × Bytes)
  | .readText _ => Option (List Char)
  | .route => Option (Option (List Char))
  | .fs o => o.Ans

/-- Signature of the client's own effects, and of all its effects. -/
abbrev ops : Sig := ⟨Op, Op.Ans R⟩
abbrev sig : Sig := Http.netSig (ops R)

/-- Why the client stops. -/
inductive CliErr where
  | http (e : Http.CErr)
  | data (e : Err)
  | chain (e : Rendezvous.ChainErr)
  | missing
  | signature
  | nonce
  | random
  | keyStorage
  | keyType
  | io
  | arguments
  | identifier
  deriving DecidableEq, Repr

/-- Errors of data formats. -/
def liftD {α : Type} : Res Err α → Res CliErr α
  | .ok a => .ok a
  | .err e => .err (.data e)
  | .panic => .panic

/-- Errors of chain verification. -/
def liftC {α : Type} : Res Rendezvous.ChainErr α → Res CliErr α
  | .ok a => .ok a
  | .err e => .err (.chain e)
  | .panic => .panic

/-- An optional value. -/
def orErr {α : Type} (e : CliErr) : Option α → Res CliErr α
  | some a => .ok a
  | none => .err e

/-! ### Keys -/

/-- `KeyReference` (main.rs:519-535), without the TPM context and its primary key. -/
inductive KeyRef where
  | fs (sign : R.SignKey) (hmac : Bytes)
  | tpm (signPublic signPrivate hmacPublic hmacPrivate : Bytes)

variable {R}

/-- `get_public_key_storage_type` (main.rs:834-839). -/
def KeyRef.storage : KeyRef R → KeyStorage
  | .fs _ _ => .fileSystem
  | .tpm _ _ _ _ => .tpm

/-- `get_public_key_as_der` (main.rs:782-832). -/
def KeyRef.publicDer : KeyRef R → Option Bytes
  | .fs k _ => R.signPub k
  | .tpm p _ _ _ => R.tpmPub p

/-- Key types for which keys can be made (main.rs:537-542, 578-611, 620-638). -/
def ecType : KeyType → Bool
  | .ecdsa256 => true
  | .ecdsa384 => true
  | _ => false

/-- `get_new_key_filesystem` (main.rs:615-640). -/
def newKeyFs (t : KeyType) : Proc (sig R) CliErr (KeyRef R) := do
  let r ← Http.app (X := ops R) .random
  let hmac ← Proc.some? .random (r : Option Bytes)
  Proc.check .keyType (ecType t)
  let k ← Http.app (X := ops R) (.ecKey t)
  let k ← Proc.some? .keyStorage (k : Option R.SignKey)
  pure (.fs k hmac)

/-- `get_new_key_tpm` (main.rs:642-706): one effect for all that is done with the TPM. For other key types it fails (here
without contacting the TPM). -/
def newKeyTpm (t : KeyType) : Proc (sig R) CliErr (KeyRef R) := do
  Proc.check .keyType (ecType t)
  let r ← Http.app (X := ops R) (.tpmKeys t)
  let x ← Proc.some? .keyStorage (r : Option (Bytes × Bytes × Bytes × Bytes))
  pure (.tpm x.1 x.2.1 x.2.2.1 x.2.2.2)

/-- One kind of storage (main.rs:724-737). -/
def newKeyIn (t : KeyType) : KeyStorage → Proc (sig R) CliErr (KeyRef R)
  | .tpm => newKeyTpm t
  | .fileSystem => newKeyFs t

/-- The loop over storage types (main.rs:721-743): an error goes on with the next one. -/
def newKeyLoop (t : KeyType) : List KeyStorage → Proc (sig R) CliErr (KeyRef R)
  | [] => Proc.fail .keyStorage
  | s :: r => do
    let k ← Proc.attempt (newKeyIn t s)
    match k with
    | some k => pure k
    | none => newKeyLoop t r

/-- `get_new_key` (main.rs:708-744). -/
def getNewKey (t : KeyType) (allowed : Option (List KeyStorage)) : Proc (sig R) CliErr (KeyRef R) :=
  match allowed with
  | some [] => Proc.fail .keyStorage
  | some l => newKeyLoop t l
  | none => newKeyLoop t [.fileSystem]

/-- `fs::read(..)?`. -/
def readP (p : Path) : Proc (sig R) CliErr Bytes := do
  let b ← Http.app (X := ops R) (.fs (.read p))
  Proc.some? .io (b : Option Bytes)

/-- `env::var(..).ok()`. -/
def envVar (w : Credential.Surroundings) (name : String) : Option (List Char) := (w.var name.toList).join

/-- `env_key_filesystem` (main.rs:746-758). -/
def envKeyFs (w : Credential.Surroundings) : Proc (sig R) CliErr (KeyRef R) := do
  let sp ← Proc.some? .arguments (envVar w "DI_SIGN_KEY_PATH")
  let hp ← Proc.some? .arguments (envVar w "DI_HMAC_KEY_PATH")
  let s ← readP sp
  let h ← readP hp
  let k ← Proc.some? .keyStorage (R.signFromDer s)
  pure (.fs k h)

/-- `str::to_lowercase`, for ASCII. None of the names it is compared with has a letter which is the lower case of a
character outside ASCII (that is, `k` and `å`). -/
def lower (s : List Char) : List Char := s.map Char.toLower

/-- `str_key`, `env_key` (main.rs:760-780) with `KeyStorageType::from_str` (constants/mod.rs:452-462): keys of the file
system only. -/
def storedKey (w : Credential.Surroundings) (storage : List Char) : Proc (sig R) CliErr (KeyRef R) :=
  if lower storage = "filesystem".toList then envKeyFs w else Proc.fail .keyStorage

/-- `perform_hmac` (main.rs:916-998). -/
def hmacOf (k : KeyRef R) (data : Bytes) : Proc (sig R) CliErr Hash :=
  match k with
  | .fs _ key => Proc.lift (liftD (Hash.fromDigest .hmacSha384 (R.H.hmac .hmacSha384 key data)))
  | .tpm _ _ pub priv => do
    let r ← Http.app (X := ops R) (.tpmHmac pub priv data)
    let x ← Proc.some? .keyStorage (r : Option (Bool × Bytes))
    Proc.lift (liftD (Hash.fromDigest (if x.1 then .sha384 else .sha256) x.2))

/-! ### Credential -/

/-- `fs::write(..)?`. -/
def writeP (p : Path) (b : Bytes) : Proc (sig R) CliErr Unit := do
  let ok ← Http.app (X := ops R) (.fs (.create p))
  Proc.check .io (ok : Bool)
  let ok ← Http.app (X := ops R) (.fs (.append p b))
  Proc.check .io (ok : Bool)

/-- The keys as part of a credential (main.rs:849-866, 885-905). -/
def KeyRef.toStorage : KeyRef R → Option Credential.KeyStorage
  | .fs k h => (R.signPriv k).map fun d => .plain h d
  | .tpm a b c d => some (.tpm a b c d)

/-- The file name (main.rs:872-875, 907-910). -/
def credPath (w : Credential.Surroundings) : Res CliErr Path :=
  match w.var "DEVICE_CREDENTIAL_FILENAME".toList with
  | none => .ok Credential.etcPath
  | some none => .panic
  | some (some p) => .ok p

/-- `save_to_credential` (main.rs:841-914). -/
def save (w : Credential.Surroundings) (k : KeyRef R) (info : String) (guid : Bytes) (rv : R.E.Rv) (keyHash : Hash) :
    Proc (sig R) CliErr Unit := do
  let ks ← Proc.some? .keyStorage k.toStorage
  let p ← Proc.lift (credPath w)
  writeP p (R.codec.enc { active := true, version := 101, info := info.toList, guid := guid, rvinfo := R.E.encRv rv,
                          keyHash := keyHash, keys := ks })

/-! ### Device identification -/

/-- A MAC address according to the expression in main.rs:504: two hexadecimal digits, and five times a separator with two more. -/
def isMac : List Char → Bool
  | a :: b :: r => (hexVal a).isSome && (hexVal b).isSome && rest 5 r
  | _ => false
where
  rest : Nat → List Char → Bool
    | 0, r => r.isEmpty
    | n + 1, s :: a :: b :: r => (s == ':' || s == '-') && (hexVal a).isSome && (hexVal b).isSome && rest n r
    | _ + 1, _ => false

/-- The MAC address of an interface (main.rs:496-511). -/
def macInfo (w : Credential.Surroundings) (iface : Option (List Char)) : Proc (sig R) CliErr String := do
  let i ← Proc.some? .arguments iface
  Proc.check .identifier (w.exists? ("/sys/class/net/".toList ++ i))
  let t ← Http.app (X := ops R) (.readText ("/sys/class/net/".toList ++ i ++ "/address".toList))
  let t ← Proc.some? .io (t : Option (List Char))
  let m := R.trim (String.ofList t)
  Proc.check .identifier (isMac m.toList && m != "00:00:00:00:00:00")
  pure m

/-- The serial number (main.rs:491-495): not trimmed. -/
def serialInfo : Proc (sig R) CliErr String := do
  let t ← Http.app (X := ops R) (.readText "/sys/devices/virtual/dmi/id/product_serial".toList)
  match (t : Option (List Char)) with
  | some t => pure (String.ofList t)
  | none => do
    let t ← Http.app (X := ops R) (.readText "/sys/devices/virtual/dmi/id/chassis_serial".toList)
    let t ← Proc.some? .io (t : Option (List Char))
    pure (String.ofList t)

/-- The string before it is checked (main.rs:490-513). -/
def rawInfo (w : Credential.Surroundings) (t : MfgString) (iface : Option (List Char)) : Proc (sig R) CliErr String :=
  match t with
  | .serialNumber => serialInfo
  | .macAddress => macInfo w iface

/-- `get_mfg_info` (main.rs:482-517) with `check_device_identifier` (device_identification.rs:7-12): a string from the
environment is taken as it is (`unwrap` panics if it is not UTF-8). -/
def mfgInfo (w : Credential.Surroundings) (t : MfgString) (iface : Option (List Char)) : Proc (sig R) CliErr String :=
  match w.var "MANUFACTURING_INFO".toList with
  | some none => Prog.ret .panic
  | some (some s) => pure (String.ofList s)
  | none => do
    let s ← rawInfo w t iface
    Proc.check .identifier (decide (s.utf8ByteSize ≤ 64))
    pure s

/-! ### DIUN -/

variable (R) in
/-- `DiunPublicKeyVerificationMode` (main.rs:256-261). -/
inductive Verification where
  | hash (h : Hash)
  | certs (bag : List R.C.Cert)
  | insecure

/-- The leaf certificate of a chain which verifies (main.rs:149-156). -/
def leafOf (how : Verification R) (chain : List R.C.Cert) : Res Rendezvous.ChainErr R.C.Cert :=
  match how with
  | .hash h => Rendezvous.verifyFromDigest R.hashCert h chain
  | .certs bag => Rendezvous.verifyFromBag R.certDigest bag chain
  | .insecure => Rendezvous.insecureVerify chain

/-- The checks of the Accept token (main.rs:135-176): the server's key exchange value. (The variant of the key derivation is
looked up between these, which can only change which error is reported.) -/
def acceptValue (how : Verification R) (nonce : Bytes) (s : Sign1) : Res CliErr Bytes := do
  let pub ← orErr .missing (R.cuphOwner s.unprot).join
  let ch ← orErr .missing (R.pubChain pub)
  let leaf ← liftC (leafOf how (R.certs ch))
  let key ← orErr .missing (R.leafKey leaf)
  if !R.E.verify key s.prot s.payload s.sig then .err .signature
  else
    let n ← orErr .missing (R.protNonce s.prot).join
    if n ≠ nonce then .err .nonce
    else orErr (.data .serde) (R.decAccept s.payload)

/-- `Accept` is read as COSE_Sign1 (messages/v11/diun.rs); errors and panics of reading are both failures. -/
def decToken (c : Bool) (b : Bytes) : Option Sign1 :=
  match parseSign1 R.E c b with
  | .ok s => some s
  | _ => none

variable (c : Bool) (A : Http.Aead)

/-- The exchange up to the new keys (main.rs:113-187): Connect and Accept. The client is built without the feature
`use_noninteroperable_kdf`, so it sends no header about the key derivation itself (client.rs:232-236), and uses the other
derivation just if the reply has this header. -/
def diunKeys (how : Verification R) (cl : Http.Client) : Proc (sig R) CliErr (Http.Client × Http.Keys) := do
  let n ← Http.app (X := ops R) .nonce
  let n ← Proc.some? .random (n : Option Bytes)
  let k ← Http.app (X := ops R) .kex
  let k ← Proc.some? .random (k : Option (R.K.Key × Bytes))
  let kx := OwnerServer.newKex .ecdh384 k.1 k.2
  let (cl, s) ← Http.sendP .http A (decToken (R := R) c) cl .diunConnect .diunAccept
    (R.encConnect ⟨n, .ecdh384, .a256gcm, kx.getPublic⟩) none
  let other ← Proc.lift (acceptValue how n s)
  let flag ← Proc.some? .missing cl.nonInterop
  let key ← Proc.lift (liftD (kx.deriveKey .device .a256gcm flag other))
  pure (cl, ⟨.a256gcm, key⟩)

/-- `perform_diun` (main.rs:109-213). -/
def diun (how : Verification R) (cl : Http.Client) : Proc (sig R) CliErr (Http.Client × KeyRef R × MfgString) := do
  let (cl, ks) ← diunKeys c A how cl
  let (cl, p) ← Http.sendP .http A R.decKeyParams cl .diunRequestKeyParameters .diunProvideKeyParameters R.encRequestKey
    (some (some ks))
  let k ← getNewKey p.1 p.2
  let der ← Proc.some? .keyStorage k.publicDer
  let (cl, ty) ← Http.sendP .http A R.decDiunDone cl .diunProvideKey .diunDone (R.encProvideKey der k.storage) none
  pure (cl, k, ty)

/-! ### DI -/

/-- `SetCredentials` is read as a voucher header (messages/v11/di.rs); errors and panics of reading are both failures. -/
def decHeader (b : Bytes) : Option (Header R.E) :=
  match Header.deserialize R.E c b with
  | .ok h => some h
  | _ => none

/-- `manufacturer_public_key_hash` (ownershipvoucher.rs:518-523): digest of the encoded key in the header. -/
def mfgKeyHash (h : Header R.E) (t : HashType) : Res Err Hash := do
  let raw ← getRaw h.contents 4
  R.E.hashData t raw

/-- `perform_di` (main.rs:215-254): the credential is saved before the HMAC is sent. -/
def di (w : Credential.Surroundings) (cl : Http.Client) (k : KeyRef R) (ty : MfgString) (iface : Option (List Char)) :
    Proc (sig R) CliErr Unit := do
  let info ← mfgInfo w ty iface
  let (cl, h) ← Http.sendP .http A (decHeader (R := R) c) cl .diAppStart .diSetCredentials (R.encAppStart info) none
  let hb ← Proc.lift (liftD (h.serialize R.E))
  let hmac ← hmacOf k hb
  let kh ← Proc.lift (liftD (mfgKeyHash h .sha384))
  save w k h.deviceInfo h.guid h.rv kh
  let _ ← Http.sendP .http A R.decDiDone cl .diSetHmac .diDone (R.encSetHmac hmac) none
  pure ()

/-! ### Main -/

/-- Command line (main.rs:37-107): plain DI with the type of the string, an interface and the kind of key; DIUN with a file
of root certificates, a digest, or neither of them checked, and an interface; or none, with everything in the environment. -/
inductive Args where
  | plain (ty : MfgString) (iface : Option (List Char)) (storage : List Char)
  | noPlain (roots : Option Path) (hash : Option (List Char)) (insecure : Bool) (iface : Option (List Char))
  | fromEnv

/-- `get_X5Bag_from_rootcerts_path` (main.rs:281-286). -/
def rootsFrom (p : Path) : Proc (sig R) CliErr (Verification R) := do
  let b ← readP p
  let l ← Proc.some? .arguments (R.pemCerts b)
  pure (.certs l)

/-- How the server's key is verified, for a file of certificates, a digest and a switch, in this order (main.rs:263-278,
352-364). -/
def verification (roots : Option Path) (hash : Option (List Char)) (insecure : Bool) :
    Proc (sig R) CliErr (Verification R) :=
  match roots with
  | some p => rootsFrom p
  | none =>
    match hash with
    | some s => do
      let h ← Proc.lift (liftD (hashFromStr s))
      pure (.hash h)
    | none => if insecure then pure .insecure else Proc.fail .arguments

/-- `get_default_network_iface` as used (main.rs:325-339). -/
def defaultIface : Proc (sig R) CliErr (List Char) := do
  let r ← Http.app (X := ops R) .route
  Proc.some? .arguments (r : Option (Option (List Char))).join

/-- The interface: as given, or the default one, if the string is a MAC address (main.rs:321-341, 371-391, 424-439,
458-470). -/
def ifaceFor (ty : MfgString) (given : Option (List Char)) : Proc (sig R) CliErr (Option (List Char)) :=
  match ty, given with
  | .macAddress, none => do
    let i ← defaultIface
    pure (some i)
  | _, g => pure g

/-- `MfgStringType::from_str` (constants/mod.rs:432-442). -/
def parseMfgString (s : List Char) : Option MfgString :=
  if lower s = "serialnumber".toList ∨ lower s = "serial_number".toList then some .serialNumber
  else if lower s = "macaddress".toList ∨ lower s = "mac_address".toList then some .macAddress
  else none

/-- DI with a key that is there already (main.rs:316-345, 421-447). -/
def plainDi (w : Credential.Surroundings) (ty : MfgString) (iface : Option (List Char)) (storage : Option (List Char)) :
    Proc (sig R) CliErr Unit := do
  let i ← ifaceFor ty iface
  let s ← Proc.some? .arguments storage
  let k ← storedKey w s
  di c A w .new k ty i

/-- DIUN and DI (main.rs:366-392, 448-480). -/
def diunDi (w : Credential.Surroundings) (how : Verification R) (iface : Option (List Char)) : Proc (sig R) CliErr Unit := do
  let (cl, k, ty) ← diun c A how .new
  let i ← ifaceFor ty iface
  di c A w cl k ty i

/-- All settings from the environment (main.rs:395-472). -/
def envDi (w : Credential.Surroundings) : Proc (sig R) CliErr Unit := do
  let _ ← Proc.some? .arguments (envVar w "MANUFACTURING_SERVER_URL")
  if envVar w "USE_PLAIN_DI" = some "true".toList then do
    let ty ← Proc.some? .arguments (parseMfgString ((envVar w "DI_MFG_STRING_TYPE").getD "serialnumber".toList))
    plainDi c A w ty (envVar w "DI_MFG_STRING_TYPE_MAC_IFACE") (envVar w "DI_KEY_STORAGE_TYPE")
  else do
    let how ← verification (envVar w "DIUN_PUB_KEY_ROOTCERTS") (envVar w "DIUN_PUB_KEY_HASH")
      (envVar w "DIUN_PUB_KEY_INSECURE").isSome
    diunDi c A w how (envVar w "DI_MFG_STRING_TYPE_MAC_IFACE")

/-- `main` after the check for a credential (main.rs:307-480). -/
def start (w : Credential.Surroundings) : Args → Proc (sig R) CliErr Unit
  | .plain ty iface storage => plainDi c A w ty iface (some storage)
  | .noPlain roots hash insecure iface => do
    let how ← verification roots hash insecure
    diunDi c A w how iface
  | .fromEnv => envDi c A w

/-- `main` (main.rs:288-480): with an active credential nothing is done. -/
def main (w : Credential.Surroundings) (args : Args) : Proc (sig R) CliErr Unit :=
  match Credential.find w with
  | none => start c A w args
  | some (.err e) => Proc.fail (.data e)
  | some .panic => Prog.ret .panic
  | some (.ok l) => do
    let b ← readP l.path
    let cr ← Proc.some? (.data .serde) (R.codec.dec b)
    if cr.active then pure () else start c A w args

end Verif.MfgClient

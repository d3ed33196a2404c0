import Verif.Model.Fs
import Verif.Model.Crypto
/-!
The device credential: where it is found and how it is deactivated (`util/src/device_credential_locations.rs`), its
key storage and TPM signatures (`data-formats/src/devicecredential/file.rs`).
-/
namespace Verif.Credential
open Verif Verif.Fs

/-- `KeyStorage` (devicecredential/file.rs:24-36). A TPM key is identified by its public and private blobs. -/
inductive KeyStorage where
  | plain (hmacSecret privateKey : Bytes)
  | tpm (signPublic signPrivate hmacPublic hmacPrivate : Bytes)
  deriving DecidableEq

/-- `FileDeviceCredential` (devicecredential/file.rs:160-170); the rendezvous information is left in encoded form. -/
structure Cred where
  active : Bool
  version : Nat
  info : List Char
  guid : Bytes
  rvinfo : Bytes
  keyHash : Hash
  keys : KeyStorage
  deriving DecidableEq

/-- Its serde codec (external). -/
structure Codec where
  enc : Cred → Bytes
  dec : Bytes → Option Cred

/-! ### HMAC -/

/-- HMAC by OpenSSL and by a TPM (external). A TPM key has a fixed algorithm, `true` for SHA-384, `false` for
SHA-256; loading or using it may fail. -/
structure Keys where
  hmac : HashType → Bytes → Bytes → Bytes
  tpm : Bytes → Bytes → Bytes → Option (Bool × Bytes)

/-- `KeyStorage::perform_hmac` (devicecredential/file.rs:61-130). A TPM key ignores the requested type, and the result is
labelled with a plain digest type. -/
def KeyStorage.performHmac (K : Keys) (s : KeyStorage) (data : Bytes) (t : HashType) : Res Err Hash :=
  match s with
  | .plain secret _ => Hash.fromDigest t (K.hmac t secret data)
  | .tpm _ _ pub priv =>
    match K.tpm pub priv data with
    | none => .err .crypto
    | some (long, v) => Hash.fromDigest (if long then .sha384 else .sha256) v

/-- `verify_hmac` (devicecredential/file.rs:181-187) with `PartialEq for Hash` (types.rs:116-129). -/
def Cred.verifyHmac (K : Keys) (c : Cred) (data : Bytes) (h : Hash) : Res Err Unit := do
  let own ← c.keys.performHmac K data h.type
  h.compare own

/-! ### Signatures of a TPM -/

/-- `merge_ec_signature` (devicecredential/file.rs:328-345): the halves are copied into a zeroed buffer. -/
def mergeEc (r s : Bytes) (keyLen : Nat) : Res Err Bytes :=
  if keyLen < r.length ∨ keyLen < s.length then .panic
  else .ok (List.replicate (keyLen - r.length) 0 ++ r ++ (List.replicate (keyLen - s.length) 0 ++ s))

/-- Elliptic curves of a TPM key that are recognised, and digests. -/
inductive Curve where
  | p256 | p384 | p521 | other
  deriving DecidableEq

inductive Alg where
  | sha256 | sha384 | sha512 | other
  deriving DecidableEq

/-- Public area of a TPM key, as far as it matters: RSA and other kinds, or a curve and the digest of the ECDSA scheme
(`none`: other scheme). -/
inductive TpmKey where
  | notEcc
  | ecc (c : Curve) (scheme : Option Alg)
  deriving DecidableEq

/-- `public_to_parameters` (devicecredential/file.rs:247-312): digest and key length. `unimplemented!` for other keys. -/
def tpmParameters : TpmKey → Res Err (Alg × Nat)
  | .notEcc => .panic
  | .ecc _ none => .err .unsupportedAlgorithm
  | .ecc c (some a) =>
    if a = .other then .err .unsupportedAlgorithm
    else match c with
      | .other => .err .unsupportedAlgorithm
      | .p256 => if a = .sha256 then .ok (a, 32) else .err .unsupportedAlgorithm
      | .p384 => if a = .sha384 then .ok (a, 48) else .err .unsupportedAlgorithm
      | .p521 => if a = .sha512 then .ok (a, 66) else .err .unsupportedAlgorithm

/-- `TpmCoseSigner::sign` (devicecredential/file.rs:347-385); `sig` is the TPM's answer, two numbers as bytes. -/
def tpmSign (k : TpmKey) (sig : Option (Bytes × Bytes)) : Res Err Bytes := do
  let (_, n) ← tpmParameters k
  match sig with
  | none => .err .crypto
  | some (r, s) => mergeEc r s n

/-! ### Locations -/

/-- `DeactivationMethod` (device_credential_locations.rs:37-42). -/
inductive Policy where
  | keep
  | delete
  | deactivate
  deriving DecidableEq, Repr

/-- `FileSystemPath` (device_credential_locations.rs:53-57). -/
structure Location where
  path : Path
  policy : Policy
  deriving DecidableEq

/-- What finding a credential depends on: which paths exist, and environment variables (`some none`: set to something
that is not UTF-8). -/
structure Surroundings where
  exists? : Path → Bool
  var : List Char → Option (Option (List Char))

/-- Where the firmware presents a credential (device_credential_locations.rs:11-13). -/
def firmwarePath : Path :=
  "/sys/firmware/qemu_fw_cfg/by_name/opt/device_onboarding/devicecredential/raw".toList

/-- The usual place (device_credential_locations.rs:19). -/
def etcPath : Path := "/etc/device-credentials".toList

/-- Kinds of locations (`DeviceCredentialLocation`). -/
inductive Place where
  | file (l : Location)
  | env (var : List Char)

/-- `FileSystemPath::resolve` (device_credential_locations.rs:60-68). -/
def resolveFile (w : Surroundings) (l : Location) : Option (Res Err Location) :=
  if w.exists? l.path then some (.ok l) else none

/-- `resolve` (device_credential_locations.rs:60-68, 115-143). -/
def Place.resolve (w : Surroundings) : Place → Option (Res Err Location)
  | .file l => resolveFile w l
  | .env v =>
    match w.var v with
    | none => none
    | some none => some (.err .inconsistentValue)
    | some (some p) =>
      let policy := match w.var (v ++ "_DELETE".toList) with
        | none => match w.var (v ++ "_DEACTIVATE".toList) with
          | none => Policy.keep
          | some _ => .deactivate
        | some _ => .delete
      resolveFile w ⟨p, policy⟩

/-- The loop of `find` (device_credential_locations.rs:25-33). -/
def firstOf (w : Surroundings) : List Place → Option (Res Err Location)
  | [] => none
  | p :: r =>
    match p.resolve w with
    | some v => some v
    | none => firstOf w r

/-- `find` (device_credential_locations.rs:9-34). -/
def find (w : Surroundings) : Option (Res Err Location) :=
  firstOf w [.file ⟨firmwarePath, .keep⟩, .env "DEVICE_CREDENTIAL".toList, .file ⟨etcPath, .deactivate⟩]

/-- Failures. -/
inductive CredErr where
  | io
  | parse
  deriving DecidableEq, Repr

/-- `read` (device_credential_locations.rs:71-77). -/
def readCred (C : Codec) (l : Location) : Proc sig CredErr Cred := do
  let b ← readFile .io l.path
  Proc.some? .parse (C.dec b)

/-- `deactivate` (device_credential_locations.rs:79-106). -/
def deactivate (C : Codec) (l : Location) : Proc sig CredErr Unit :=
  match l.policy with
  | .keep => pure ()
  | .delete => removeFile .io l.path
  | .deactivate => do
    let b ← readFile .io l.path
    let c ← Proc.some? .parse (C.dec b)
    writeFile .io l.path (C.enc { c with active := false })

end Verif.Credential

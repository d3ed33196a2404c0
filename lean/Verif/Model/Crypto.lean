import Verif.Model.Cbor
/-!
Digests, and the interface to everything that is external to the modelled code: cryptography
(OpenSSL, COSE library) and the serde CBOR codecs of leaf types. External functions are fields of
`Env`; what a theorem needs to know about them is a hypothesis of that theorem.
-/
namespace Verif

/-- `HashType` (data-formats/src/constants/mod.rs:31-39). -/
inductive HashType where
  | sha256 | sha384 | hmacSha256 | hmacSha384
  deriving DecidableEq, Repr

/-- `HashType::digest_size` (constants/mod.rs:76-83). -/
def HashType.digestSize : HashType → Nat
  | .sha256 => 32
  | .sha384 => 48
  | .hmacSha256 => 32
  | .hmacSha384 => 48

/-- `HashType::inner_hash` (constants/mod.rs:85-92). -/
def HashType.innerHash : HashType → HashType
  | .sha256 => .sha256
  | .sha384 => .sha384
  | .hmacSha256 => .sha256
  | .hmacSha384 => .sha384

/-- Is there a plain digest for this type? `TryFrom<HashType> for MessageDigest`
(constants/mod.rs:53-64) fails for the HMAC types. -/
def HashType.isPlain : HashType → Bool
  | .sha256 | .sha384 => true
  | _ => false

/-- `Error` of data-formats (data-formats/src/errors.rs), merged where the code never distinguishes. -/
inductive Err where
  /-- `Error::ArrayParseError` -/
  | parse (e : Cbor.ParseErr)
  /-- serde / ciborium failure of a leaf type -/
  | serde
  /-- OpenSSL or COSE library failure, including a signature that does not verify -/
  | crypto
  | incorrectHash
  | inconsistentValue
  | unsupportedAlgorithm
  | nonOwnerKey
  | invalidProtocolVersion
  | unsupportedVersion
  | emptyData
  | invalidPemTag
  | invalidSuite
  deriving DecidableEq, Repr

/-- `Hash` (types.rs:41-47); `HMac` is the same type. Its derived `Deserialize` checks neither the
type nor the length of `value`. -/
structure Hash where
  type : HashType
  value : Bytes
  deriving DecidableEq, Repr

/-- `openssl::memcmp::eq`: asserts equal lengths (panics otherwise), then compares. -/
def memcmpEq (a b : Bytes) : Res Err Bool :=
  if a.length ≠ b.length then .panic else .ok (a == b)

/-- `Hash::compare` with `PartialEq for Hash` (types.rs:116-129): only the values are compared. -/
def Hash.compare (a b : Hash) : Res Err Unit :=
  match memcmpEq a.value b.value with
  | .ok true => .ok ()
  | .ok false => .err .incorrectHash
  | .err e => .err e
  | .panic => .panic

/-- `Hash::from_digest` (types.rs:86-91). -/
def Hash.fromDigest (t : HashType) (value : Bytes) : Res Err Hash :=
  if value.length ≠ t.digestSize then .err .inconsistentValue else .ok ⟨t, value⟩

/-- Lift a CBOR array error. -/
def liftP {α : Type} : Res Cbor.ParseErr α → Res Err α
  | .ok a => .ok a
  | .err e => .err (.parse e)
  | .panic => .panic

@[simp] theorem liftP_ok {α : Type} (a : α) : liftP (.ok a) = .ok a := rfl

theorem liftP_eq_ok {α : Type} {r : Res Cbor.ParseErr α} {a : α} : liftP r = .ok a ↔ r = .ok a := by
  cases r <;> simp [liftP]

/-- Lift an optional result (serde leaf decoding). -/
def ofOpt {α : Type} (e : Err) : Option α → Res Err α
  | some a => .ok a
  | none => .err e

@[simp] theorem ofOpt_some {α : Type} (e : Err) (a : α) : ofOpt e (some a) = .ok a := rfl

theorem ofOpt_eq_ok {α : Type} {e : Err} {o : Option α} {a : α} : ofOpt e o = .ok a ↔ o = some a := by
  cases o <;> simp [ofOpt]

theorem ofOpt_ne_panic {α : Type} {e : Err} {o : Option α} : ofOpt e o ≠ .panic := by
  cases o <;> simp [ofOpt]

/-- Payload of a voucher entry (ownershipvoucher.rs:647-653). -/
structure EntryPayload (Pub Extra : Type) where
  hashPrev : Hash
  hashHdrInfo : Hash
  extra : Option Extra
  publicKey : Pub

/-- External functions and the leaf types handled by them.
`Pub` is `PublicKey` (wire form with its parsed key), `Priv` an OpenSSL private key, `Rv` is
`RendezvousInfo`, `Chain` is `X5Chain`, `Extra` the extra map of an entry. -/
structure Env where
  Pub : Type
  Priv : Type
  Rv : Type
  Chain : Type
  Extra : Type
  /-- `openssl::hash::hash`, used with the plain types only. -/
  digest : HashType → Bytes → Bytes
  /-- `PublicKey::matches_pkey` (publickey.rs:155): OpenSSL `public_eq`. -/
  keyMatches : Pub → Priv → Bool
  /-- COSE_Sign1 signing of a payload: protected header bytes and signature
  (aws-nitro-enclaves-cose `CoseSign1::new`); `none` if it fails. -/
  sign : Priv → Bytes → Option (Bytes × Bytes)
  /-- COSE_Sign1 verification of (protected, payload, signature) under a key; library errors count as `false`. -/
  verify : Pub → Bytes → Bytes → Bytes → Bool
  /-- Do protected bytes and the raw unprotected element decode as header maps (`CoseSign1::from_bytes`)? -/
  coseOk : Bytes → Bytes → Bool
  encBytes : Bytes → Bytes
  decBytes : Bytes → Option Bytes
  encVersion : Nat → Bytes
  decVersion : Bytes → Option Nat
  encGuid : Bytes → Bytes
  decGuid : Bytes → Option Bytes
  encText : String → Bytes
  decText : Bytes → Option String
  encPub : Pub → Bytes
  decPub : Bytes → Option Pub
  encHash : Hash → Bytes
  decHash : Bytes → Option Hash
  encHashOpt : Option Hash → Bytes
  decHashOpt : Bytes → Option (Option Hash)
  encRv : Rv → Bytes
  decRv : Bytes → Option Rv
  encChainOpt : Option Chain → Bytes
  decChainOpt : Bytes → Option (Option Chain)
  encPayload : EntryPayload Pub Extra → Bytes
  decPayload : Bytes → Option (EntryPayload Pub Extra)

/-- `Hash::from_data` (types.rs:79-84). -/
def Env.hashData (E : Env) (t : HashType) (data : Bytes) : Res Err Hash :=
  if t.isPlain then .ok ⟨t, E.digest t data⟩ else .err .unsupportedAlgorithm

/-- `Hash::compare_data` (types.rs:105-114). -/
def Env.compareData (E : Env) (h : Hash) (data : Bytes) : Res Err Unit :=
  if h.type.isPlain then
    match memcmpEq h.value (E.digest h.type data) with
    | .ok true => .ok ()
    | .ok false => .err .incorrectHash
    | .err e => .err e
    | .panic => .panic
  else .err .unsupportedAlgorithm

end Verif

import Verif.Model.Crypto
/-!
Model of value types in `data-formats/src/types.rs`, `constants/mod.rs`,
`constants/serviceinfo_names.rs`: digests from text, GUID/UEID, key exchange, service info.
-/
namespace Verif.Types
open Verif Verif.Cbor

/-! ### Hex and digests in text form -/

/-- One hex digit (hex crate: `0-9a-fA-F`). -/
def hexVal (c : Char) : Option Nat :=
  let n := c.toNat
  if 48 ≤ n ∧ n ≤ 57 then some (n - 48)
  else if 97 ≤ n ∧ n ≤ 102 then some (n - 87)
  else if 65 ≤ n ∧ n ≤ 70 then some (n - 55)
  else none

/-- `hex::decode` (hex crate): even number of hex digits. Error kinds are merged. -/
def hexDecode : List Char → Option Bytes
  | [] => some []
  | a :: b :: r =>
    match hexVal a, hexVal b, hexDecode r with
    | some x, some y, some t => some (UInt8.ofNat (16 * x + y) :: t)
    | _, _, _ => none
  | [_] => none

/-- Lower-case hex digit. -/
def hexDigit (n : Nat) : Char := if n < 10 then Char.ofNat (48 + n) else Char.ofNat (87 + n)

/-- `hex::encode`. -/
def hexEncode : Bytes → List Char
  | [] => []
  | b :: r => hexDigit (b.toNat / 16) :: hexDigit (b.toNat % 16) :: hexEncode r

/-- `FromStr for HashType` (constants/mod.rs:41-51). -/
def hashTypeFromStr (s : List Char) : Res Err HashType :=
  if s = "sha256".toList then .ok .sha256
  else if s = "sha384".toList then .ok .sha384
  else .err .inconsistentValue

/-- `s.find(c)` then `split_at` and dropping the separator: text before and after the first `c`. -/
def splitFirst (c : Char) : List Char → Option (List Char × List Char)
  | [] => none
  | x :: r =>
    if x = c then some ([], r)
    else match splitFirst c r with
      | some (a, b) => some (x :: a, b)
      | none => none

/-- `FromStr for Hash` (types.rs:58-76). -/
def hashFromStr (s : List Char) : Res Err Hash :=
  match splitFirst ':' s with
  | none => .err .inconsistentValue
  | some (alg, val) => do
    let t ← hashTypeFromStr alg
    let v ← ofOpt .serde (hexDecode val)
    Hash.fromDigest t v

/-- `DeviceCredential::verify_hmac` of a file credential with plain key storage
(devicecredential/file.rs:62-75, 183-189). `hmac t data` is OpenSSL's HMAC with the device secret.
`!=` on `Hash` is `memcmp::eq`, which panics on different lengths. -/
def verifyHmac (hmac : HashType → Bytes → Bytes) (data : Bytes) (h : Hash) : Res Err Unit := do
  let mine ← Hash.fromDigest h.type (hmac h.type data)
  h.compare mine

/-! ### GUID and UEID -/

/-- `Guid::as_ueid` (types.rs:318-324). -/
def asUeid (g : Bytes) : Bytes := 0x01 :: g

/-- `Guid::from_ueid` (types.rs:326-332): `data[0]` panics on an empty string; the length is not checked. -/
def fromUeid : Bytes → Res Err Bytes
  | [] => .panic
  | b :: r => if b ≠ 0x01 then .err .inconsistentValue else .ok r

/-- `Bstr16` / `TryFrom<Bstr16> for Guid` (types.rs:214-243): deserializing a GUID checks its length. -/
def guidFromBytes (b : Bytes) : Res Err Bytes :=
  if b.length ≠ 16 then .err .inconsistentValue else .ok b

/-! ### Key exchange -/

/-- `u16::to_be_bytes` of a length cast with `as u16`. -/
def be16 (n : Nat) : Bytes := toBe 2 (n % 65536)

/-- `KeyExchange::encode_ecdh_bstr` (types.rs:1056-1069). -/
def encodeEcdh (x y r : Bytes) : Bytes :=
  be16 x.length ++ x ++ (be16 y.length ++ y) ++ (be16 r.length ++ r)

/-- One `split_at(2)`, `u16::from_be_bytes`, `split_at(len)`; `split_at` panics beyond the end. -/
def takeEcdh (b : Bytes) : Res Err (Bytes × Bytes) :=
  if b.length < 2 then .panic
  else
    let n := beNat (b.take 2)
    let t := b.drop 2
    if t.length < n then .panic else .ok (t.take n, t.drop n)

/-- `KeyExchange::decode_ecdh_bstr` (types.rs:1072-1093). -/
def decodeEcdh (b : Bytes) : Res Err (Bytes × Bytes × Bytes) := do
  let (x, b) ← takeEcdh b
  let (y, b) ← takeEcdh b
  let (r, b) ← takeEcdh b
  if b ≠ [] then .err .inconsistentValue else pure (x, y, r)

/-- `KexSuite` (types.rs:1256-1264). -/
inductive KexSuite where
  | ecdh256 | ecdh384 | dhkex14 | dhkex15
  deriving DecidableEq, Repr

/-- `CipherSuite` (types.rs:1402-1408). -/
inductive CipherSuite where
  | a128gcm | a256gcm
  deriving DecidableEq, Repr

/-- `KexSuite::get_ecdh_random_size` (types.rs:1332-1339); unreachable for DH suites. -/
def KexSuite.randomSize : KexSuite → Nat
  | .ecdh256 => 16
  | .ecdh384 => 48
  | _ => 0

/-- Is it an ECDH suite (types.rs:1010-1026)? -/
def KexSuite.isEcdh : KexSuite → Bool
  | .ecdh256 | .ecdh384 => true
  | _ => false

/-- `CipherSuite::required_keylen` (types.rs:1426-1431). -/
def CipherSuite.keyLen : CipherSuite → Nat
  | .a128gcm => 16
  | .a256gcm => 32

/-- External key exchange primitives: OpenSSL elliptic curves, finite field DH, and the KDF. -/
structure KexEnv where
  /-- private keys (either kind) -/
  Key : Type
  /-- affine coordinates of the public point (types.rs:1043-1052) -/
  ecPublic : KexSuite → Key → Bytes × Bytes
  /-- x coordinate of the product of a received point and our key, if the point is valid and the
  product is usable (types.rs:1122-1151) -/
  ecShared : KexSuite → Key → Bytes × Bytes → Option Bytes
  /-- finite field public value (types.rs:1032-1037) and shared secret (types.rs:1095-1108) -/
  dhPublic : KexSuite → Key → Bytes
  dhShared : KexSuite → Key → Bytes → Option Bytes
  /-- `perform_kdf` (types.rs:1193-1222): non-interoperable flag, salt, key info, key, output length -/
  kdf : Bool → Bytes → Bytes → Bytes → Nat → Option Bytes

variable (K : KexEnv)

/-- `KeyExchange` (types.rs:995-999): the ECDH variant also holds our random. -/
inductive KeyExchange where
  | ecdh (suite : KexSuite) (key : K.Key) (random : Bytes)
  | dh (suite : KexSuite) (key : K.Key)

/-- `KeyDeriveSide` (types.rs:989-993). -/
inductive Side where
  | owner | device
  deriving DecidableEq, Repr

variable {K}

/-- `KeyExchange::get_public` (types.rs:1025-1054). -/
def KeyExchange.getPublic : KeyExchange K → Bytes
  | .ecdh s k r => encodeEcdh (K.ecPublic s k).1 (K.ecPublic s k).2 r
  | .dh s k => K.dhPublic s k

/-- `KeyExchange::derive_key_ecdh` (types.rs:1110-1172). -/
def deriveEcdh (s : KexSuite) (key : K.Key) (ourRandom : Bytes) (side : Side) (other : Bytes) :
    Res Err Bytes := do
  let (x, y, otherRandom) ← decodeEcdh other
  if otherRandom.length ≠ s.randomSize then .err .crypto
  else
    let dx ← ofOpt .crypto (K.ecShared s key (x, y))
    pure (match side with
      | .device => dx ++ (ourRandom ++ otherRandom)
      | .owner => dx ++ (otherRandom ++ ourRandom))

/-- The shared secret fed to the KDF (types.rs:1181-1184). -/
def KeyExchange.secret (kx : KeyExchange K) (side : Side) (other : Bytes) : Res Err Bytes :=
  match kx with
  | .dh s k => ofOpt .crypto (K.dhShared s k other)
  | .ecdh s k r => deriveEcdh s k r side other

/-- `KEY_DERIVE_LABEL` (types.rs:1001). -/
def kdfLabel : Bytes := "FIDO-KDF".toUTF8.toList

/-- The KDF info: prefix, (empty) context random and key length in bits (types.rs:1002, 1186-1189). -/
def kdfInfo (c : CipherSuite) : Bytes := "AutomaticOnboardTunnel".toUTF8.toList ++ be16 (c.keyLen * 8)

/-- `KeyExchange::derive_key` (types.rs:1174-1233); both ciphers use a combined key. `nonInterop` is
the flag after the availability check of lines 1191-1194. -/
def KeyExchange.deriveKey (kx : KeyExchange K) (side : Side) (c : CipherSuite) (nonInterop : Bool)
    (other : Bytes) : Res Err Bytes := do
  let secret ← kx.secret side other
  ofOpt .crypto (K.kdf nonInterop kdfLabel (kdfInfo c) secret c.keyLen)

/-! ### Service info -/

/-- `ServiceInfoModule` (serviceinfo_names.rs:37-43, 104-164). -/
inductive SiModule where
  | devMod
  | command | sshKey | binaryFile | diskEncryptionClevis | reboot
  | subscriptionManager
  | unsupported (name : List Char)
  deriving DecidableEq, Repr

/-- `FromStr for ServiceInfoModule` (serviceinfo_names.rs:45-67). -/
def SiModule.fromStr (s : List Char) : SiModule :=
  if s = "org.fedoraiot.binaryfile".toList then .binaryFile
  else if s = "org.fedoraiot.command".toList then .command
  else if s = "org.fedoraiot.sshkey".toList then .sshKey
  else if s = "org.fedoraiot.diskencryption-clevis".toList then .diskEncryptionClevis
  else if s = "org.fedoraiot.reboot".toList then .reboot
  else if s = "com.redhat.subscriptionmanager".toList then .subscriptionManager
  else if s = "devmod".toList then .devMod
  else .unsupported s

/-- `Display for ServiceInfoModule` (serviceinfo_names.rs:87-102, 110-164). -/
def SiModule.display : SiModule → List Char
  | .devMod => "devmod".toList
  | .command => "org.fedoraiot.".toList ++ "command".toList
  | .sshKey => "org.fedoraiot.".toList ++ "sshkey".toList
  | .binaryFile => "org.fedoraiot.".toList ++ "binaryfile".toList
  | .diskEncryptionClevis => "org.fedoraiot.".toList ++ "diskencryption-clevis".toList
  | .reboot => "org.fedoraiot.".toList ++ "reboot".toList
  | .subscriptionManager => "com.redhat.".toList ++ "subscriptionmanager".toList
  | .unsupported s => s

/-- `ServiceInfo` (types.rs:735-737): "module:key" with the raw CBOR of the value. -/
abbrev ServiceInfo := List (List Char × Bytes)

/-- `ServiceInfo::add` (types.rs:744-756) with the value already written as CBOR bytes. -/
def siAdd (si : ServiceInfo) (m : SiModule) (key : List Char) (value : Bytes) : ServiceInfo :=
  si ++ [(m.display ++ ':' :: key, value)]

/-- One call of `ServiceInfoIter::next` at position `pos` (types.rs:805-834): new position and item.
`dec` is `serde_cbor::from_slice`. -/
def siNext {V : Type} (dec : Bytes → Option V) (si : ServiceInfo) (pos : Nat) :
    Nat × Option (SiModule × List Char × V) :=
  match si[pos]? with
  | none => (pos, none)
  | some (mk, raw) =>
    match splitFirst ':' mk with
    | none => (pos + 1, none)
    | some (m, key) =>
      match dec raw with
      | none => (pos + 1, none)
      | some v => (pos + 1, some (SiModule.fromStr m, key, v))

/-- A `for` loop over the iterator: it ends at the first `None`. `fuel` bounds the number of calls;
`si.length` calls suffice. -/
def siIter {V : Type} (dec : Bytes → Option V) (si : ServiceInfo) : Nat → Nat → List (SiModule × List Char × V)
  | 0, _ => []
  | fuel + 1, pos =>
    match siNext dec si pos with
    | (_, none) => []
    | (pos', some x) => x :: siIter dec si fuel pos'

/-- All entries a `for` loop over `ServiceInfo::iter` visits. -/
def siItems {V : Type} (dec : Bytes → Option V) (si : ServiceInfo) : List (SiModule × List Char × V) :=
  siIter dec si (si.length + 1) 0

/-- `ServiceInfo::values` (types.rs:782-796): `split_at` keeps the ':' in front of the key. -/
def siValues {V : Type} (dec : Bytes → Option V) : ServiceInfo → Option (List (List Char × List Char × V))
  | [] => some []
  | (mk, raw) :: r =>
    match splitFirst ':' mk with
    | none => none
    | some (m, key) =>
      match dec raw, siValues dec r with
      | some v, some t => some ((m, ':' :: key, v) :: t)
      | _, _ => none

end Verif.Types

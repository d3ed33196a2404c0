import Verif.Model.To0
import Verif.Model.MfgClient
/-!
How values are written as CBOR and read again: messages and parts of messages are written by `ciborium` and read by `serde_cbor`
(data-formats/src/serializable.rs:66-88), by way of serde implementations which are mostly derived. Both libraries are dependencies
whose source is not part of the repository; what is modelled is their documented behaviour for the types used here.

Simplifications: readers accept only what writers write for a type (the real ones also read structs from maps, byte strings from arrays
or texts, and items of indefinite length); maps keep the order in which they are written.
-/
namespace Verif.Wire
open Verif Verif.Types

/-! ### CBOR items -/

/-- A CBOR data item. `nint n` is the number `-1 - n`. -/
inductive Item where
  | uint (n : Nat)
  | nint (n : Nat)
  | bytes (b : Bytes)
  | text (s : String)
  | arr (l : List Item)
  | map (l : List (Item × Item))
  | tag (t : Nat) (i : Item)
  | bool (b : Bool)
  | null
  | float (bits : Nat)

/-- Head of an item as `ciborium` writes it: the shortest form. Arguments are `u64`; a larger one does not exist in the code, and is
given a byte which no reader takes. -/
def head (m n : Nat) : Bytes :=
  if n ≤ 23 then [UInt8.ofNat (m * 32 + n)]
  else if n ≤ 255 then UInt8.ofNat (m * 32 + 24) :: Cbor.toBe 1 n
  else if n ≤ 65535 then UInt8.ofNat (m * 32 + 25) :: Cbor.toBe 2 n
  else if n < 2 ^ 32 then UInt8.ofNat (m * 32 + 26) :: Cbor.toBe 4 n
  else if n < 2 ^ 64 then UInt8.ofNat (m * 32 + 27) :: Cbor.toBe 8 n
  else [0xff]

/-- UTF-8. -/
def utf8 (s : String) : Bytes := s.toUTF8.data.toList

mutual
/-- `ciborium::ser::into_writer`. A float is written with 8 bytes; `ciborium` prefers a shorter form where that is exact. -/
def enc : Item → Bytes
  | .uint n => head 0 n
  | .nint n => head 1 n
  | .bytes b => head 2 b.length ++ b
  | .text s => head 3 (utf8 s).length ++ utf8 s
  | .arr l => head 4 l.length ++ encList l
  | .map l => head 5 l.length ++ encPairs l
  | .tag t i => head 6 t ++ enc i
  | .bool b => [if b then 0xf5 else 0xf4]
  | .null => [0xf6]
  | .float n => if n < 2 ^ 64 then 0xfb :: Cbor.toBe 8 n else [0xff]

/-- See `enc`. -/
def encList : List Item → Bytes
  | [] => []
  | i :: r => enc i ++ encList r

/-- See `enc`. -/
def encPairs : List (Item × Item) → Bytes
  | [] => []
  | (k, v) :: r => enc k ++ (enc v ++ encPairs r)
end

/-- Reading `n` bytes as a number. -/
def readArg (n : Nat) (r : Bytes) : Option (Nat × Bytes) :=
  if r.length < n then none else some (beNat (r.take n), r.drop n)

/-- Reading a head: major type, additional information, argument and rest. -/
def readHead : Bytes → Option (Nat × Nat × Nat × Bytes)
  | [] => none
  | b :: r =>
    let m := b.toNat / 32
    let a := b.toNat % 32
    if a ≤ 23 then some (m, a, a, r)
    else if a = 24 then (readArg 1 r).map fun x => (m, a, x)
    else if a = 25 then (readArg 2 r).map fun x => (m, a, x)
    else if a = 26 then (readArg 4 r).map fun x => (m, a, x)
    else if a = 27 then (readArg 8 r).map fun x => (m, a, x)
    else none

/-- `n` items. -/
def decList (f : Bytes → Option (Item × Bytes)) : Nat → Bytes → Option (List Item × Bytes)
  | 0, r => some ([], r)
  | n + 1, r =>
    match f r with
    | none => none
    | some (i, r) => (decList f n r).map fun x => (i :: x.1, x.2)

/-- `n` pairs of items. -/
def decPairs (f : Bytes → Option (Item × Bytes)) : Nat → Bytes → Option (List (Item × Item) × Bytes)
  | 0, r => some ([], r)
  | n + 1, r =>
    match f r with
    | none => none
    | some (k, r) =>
      match f r with
      | none => none
      | some (v, r) => (decPairs f n r).map fun x => ((k, v) :: x.1, x.2)

/-- A string of `n` bytes. -/
def readStr (n : Nat) (r : Bytes) : Option (Bytes × Bytes) :=
  if r.length < n then none else some (r.take n, r.drop n)

/-- Bytes as text, if they are UTF-8. -/
def ofUtf8 (b : Bytes) : Option String := String.fromUTF8? ⟨b.toArray⟩

/-- `serde_cbor`'s `Deserializer` at one item; `f` reads inner items, there is none when the recursion limit is reached. -/
def step (f : Option (Bytes → Option (Item × Bytes))) (b : Bytes) : Option (Item × Bytes) :=
  match readHead b with
  | none => none
  | some (m, a, n, r) =>
    match m with
    | 0 => some (.uint n, r)
    | 1 => some (.nint n, r)
    | 2 => (readStr n r).map fun x => (.bytes x.1, x.2)
    | 3 =>
      match readStr n r with
      | none => none
      | some (s, r) => (ofUtf8 s).map fun s => (.text s, r)
    | 4 =>
      match f with
      | none => none
      | some f => (decList f n r).map fun x => (.arr x.1, x.2)
    | 5 =>
      match f with
      | none => none
      | some f => (decPairs f n r).map fun x => (.map x.1, x.2)
    | 6 =>
      match f with
      | none => none
      | some f => (f r).map fun x => (.tag n x.1, x.2)
    | _ =>
      if a = 20 then some (.bool false, r)
      else if a = 21 then some (.bool true, r)
      else if a = 22 then some (.null, r)
      else if a = 27 then some (.float n, r)
      else none

/-- Items nested up to `d` deep. -/
def dec : Nat → Bytes → Option (Item × Bytes)
  | 0 => step none
  | d + 1 => step (some (dec d))

/-- `serde_cbor::from_slice` up to the conversion of the item to a type: one item, nested less than 128 deep, and nothing after it. -/
def fromSlice (b : Bytes) : Option Item :=
  match dec 127 b with
  | some (i, []) => some i
  | _ => none

/-! ### serde: how types are items -/

/-- `Serialize` and `Deserialize` of a type. -/
structure Codec (α : Type) where
  ser : α → Item
  de : Item → Option α

namespace Codec
variable {α β : Type}

/-- `serialize_data` (serializable.rs:14-18, 82-87). -/
def write (c : Codec α) (a : α) : Bytes := enc (c.ser a)

/-- `deserialize_data` (serializable.rs:71-73). -/
def read (c : Codec α) (b : Bytes) : Option α := (fromSlice b).bind c.de

/-- Unsigned integers below `bound` (`u8`, `u16`, `u32`, `u64`). -/
def uint (bound : Nat) : Codec Nat where
  ser n := .uint n
  de
    | .uint n => if n < bound then some n else none
    | _ => none

/-- `bool`. -/
def bool : Codec Bool where
  ser b := .bool b
  de
    | .bool b => some b
    | _ => none

/-- `String`. -/
def text : Codec String where
  ser s := .text s
  de
    | .text s => some s
    | _ => none

/-- `ByteBuf`, and `Vec<u8>` with `serde_bytes`. -/
def bytes : Codec Bytes where
  ser b := .bytes b
  de
    | .bytes b => some b
    | _ => none

/-- `Nonce` and `Guid` (types.rs:212-256, 304-306): 16 bytes, checked when reading. -/
def bytes16 : Codec Bytes where
  ser b := .bytes b
  de
    | .bytes b => if b.length = 16 then some b else none
    | _ => none

/-- `Option`. -/
def opt (c : Codec α) : Codec (Option α) where
  ser
    | none => .null
    | some a => c.ser a
  de
    | .null => some none
    | i => (c.de i).map some

/-- All elements of a list. -/
def deAll (f : Item → Option α) : List Item → Option (List α)
  | [] => some []
  | i :: r =>
    match f i with
    | none => none
    | some a => (deAll f r).map (a :: ·)

/-- `Vec`. -/
def list (c : Codec α) : Codec (List α) where
  ser l := .arr (l.map c.ser)
  de
    | .arr l => deAll c.de l
    | _ => none

/-- Pairs, and structs with two fields (`Serialize_tuple`). -/
def pair (c : Codec α) (d : Codec β) : Codec (α × β) where
  ser x := .arr [c.ser x.1, d.ser x.2]
  de
    | .arr [i, j] =>
      match c.de i, d.de j with
      | some a, some b => some (a, b)
      | _, _ => none
    | _ => none

/-- Structs with one field (`Serialize_tuple`). -/
def one (c : Codec α) : Codec α where
  ser a := .arr [c.ser a]
  de
    | .arr [i] => c.de i
    | _ => none

/-- Structs without fields, written as empty sequence (messages/v11/to0.rs:41-50, di.rs:170-180). -/
def unit : Codec Unit where
  ser _ := .arr []
  de
    | .arr [] => some ()
    | _ => none

/-- `Vec<u8>` without `serde_bytes`: an array of numbers. -/
def numbers : Codec Bytes where
  ser b := .arr (b.map fun x => .uint x.toNat)
  de
    | .arr l => deAll (fun
        | .uint n => if n < 256 then some (UInt8.ofNat n) else none
        | _ => none) l
    | _ => none

/-- The item of an integer. -/
def int (n : Int) : Item :=
  match n with
  | .ofNat n => .uint n
  | .negSucc n => .nint n

/-- The integer of an item. -/
def asInt : Item → Option Int
  | .uint n => some (.ofNat n)
  | .nint n => some (.negSucc n)
  | _ => none

/-- Enumerations written by their number (`Serialize_repr`, `Deserialize_repr`); `all` are the values there are. -/
def repr [DecidableEq α] (num : α → Int) (all : List α) : Codec α where
  ser a := int (num a)
  de i := (asInt i).bind fun n => all.find? fun a => num a == n

/-- `u128` (error.rs:15, ownershipvoucher.rs:24): `ciborium` writes a bignum (tag 2, without leading zeros) for more than 64 bits.
`serde_cbor` reads 64 bits only. -/
def u128 : Codec Nat where
  ser n := if n < 2 ^ 64 then .uint n else .tag 2 (.bytes ((Cbor.toBe 16 n).dropWhile (· == 0)))
  de
    | .uint n => some n
    | _ => none

end Codec

/-! ### Types of data-formats -/

/-- `ProtocolVersion` (constants/mod.rs:18-24). -/
def version : Codec Nat where
  ser n := .uint n
  de
    | .uint n => if n = 100 ∨ n = 101 then some n else none
    | _ => none

/-- `HashType` (constants/mod.rs:32-40). -/
def hashType : Codec HashType :=
  .repr (fun
    | .sha256 => -16
    | .sha384 => -43
    | .hmacSha256 => 5
    | .hmacSha384 => 6) [.sha256, .sha384, .hmacSha256, .hmacSha384]

/-- `Hash` (types.rs:41-47). -/
def hash : Codec Hash where
  ser h := (Codec.pair hashType .bytes).ser (h.type, h.value)
  de i := ((Codec.pair hashType .bytes).de i).map fun x => ⟨x.1, x.2⟩

/-- Numbers of `DeviceSigType` (constants/mod.rs:107-121); the COSE algorithms ES256 and ES384 are -7 and -35. -/
def sigTypes : List Int := [-7, -35, -257, -258, 90, 91, 92]

/-- `SigInfo` (types.rs:190-195); the type as number. -/
def sigInfo : Codec (Int × Bytes) := .pair (.repr id sigTypes) .bytes

/-- Signature types as far as they matter; one of the others stands for all of them when writing. -/
def sigNum : OwnerServer.SigType → Int
  | .es256 => -7
  | .es384 => -35
  | .other => -257

/-- See `sigNum`. -/
def sigOf (n : Int) : OwnerServer.SigType :=
  if n = -7 then .es256 else if n = -35 then .es384 else .other

/-- `KexSuite` (types.rs:1258-1330). -/
def kexName : KexSuite → String
  | .ecdh256 => "ECDH256"
  | .ecdh384 => "ECDH384"
  | .dhkex14 => "DHKEXid14"
  | .dhkex15 => "DHKEXid15"

/-- See `kexName`. -/
def kex : Codec KexSuite where
  ser s := .text (kexName s)
  de
    | .text s =>
      if s = "ECDH256" then some .ecdh256
      else if s = "ECDH384" then some .ecdh384
      else if s = "DHKEXid14" then some .dhkex14
      else if s = "DHKEXid15" then some .dhkex15
      else none
    | _ => none

/-- `CipherSuite` (types.rs:1402-1408). -/
def cipher : Codec CipherSuite :=
  .repr (fun
    | .a128gcm => 1
    | .a256gcm => 3) [.a128gcm, .a256gcm]

/-- `IPAddress` (types.rs:352-406). -/
def ip : Codec Bytes where
  ser b := .bytes b
  de
    | .bytes b => if b.length = 4 ∨ b.length = 16 then some b else none
    | _ => none

/-- `TO2AddressEntry` (types.rs:544-550); the protocol as number (`TransportProtocol`, constants/mod.rs:184-194). -/
def addr : Codec (Option Bytes × Option String × Nat × Nat) where
  ser x := .arr [(Codec.opt ip).ser x.1, (Codec.opt .text).ser x.2.1, .uint x.2.2.1, .uint x.2.2.2]
  de
    | .arr [a, b, c, .uint d] =>
      match (Codec.opt ip).de a, (Codec.opt .text).de b, (Codec.uint 65536).de c with
      | some a, some b, some c => if 1 ≤ d ∧ d ≤ 6 then some (a, b, c, d) else none
      | _, _, _ => none
    | _ => none

/-- `TransportProtocol` as far as it matters. -/
def transport (n : Nat) : Device.Transport := if n = 3 then .http else if n = 5 then .https else .other

/-- `TO1DataPayload` (types.rs:656-660). -/
def to1Data : Codec (List (Option Bytes × Option String × Nat × Nat) × Hash) := .pair (.list addr) hash

/-- `RendezvousInfo` (types.rs:412-446): directives, lists of variables (0 to 14, constants/mod.rs:196-217) with their values. -/
def rvInfo : Codec (List (List (Nat × Bytes))) := .list (.list (.pair (.uint 15) .bytes))

/-- `PublicKey` (publickey.rs:25-73): type, encoding and data. The data are parsed by OpenSSL, see `Forms`. -/
def publicKey : Codec (Int × Int × Bytes) where
  ser x := .arr [Codec.int x.1, Codec.int x.2.1, .bytes x.2.2]
  de
    | .arr [a, b, .bytes d] =>
      match (Codec.repr id [1, 5, 6, 10, 11]).de a, (Codec.repr id [0, 1, 2, 3]).de b with
      | some a, some b => some (a, b, d)
      | _, _ => none
    | _ => none

/-- `X5Chain` (publickey.rs:213-264): the certificates in DER form. -/
def chain : Codec (List Bytes) := .list .bytes

/-- All pairs of a map. -/
def dePairs {α β : Type} (f : Item → Option α) (g : Item → Option β) : List (Item × Item) → Option (List (α × β))
  | [] => some []
  | (k, v) :: r =>
    match f k, g v with
    | some a, some b => (dePairs f g r).map ((a, b) :: ·)
    | _, _ => none

/-- The extra data of an entry, `HashMap<u128, ByteBuf>` (ownershipvoucher.rs:24), as list of pairs. -/
def extra : Codec (List (Nat × Bytes)) where
  ser l := .map (l.map fun x => (Codec.u128.ser x.1, .bytes x.2))
  de
    | .map l => dePairs Codec.u128.de Codec.bytes.de l
    | _ => none

/-- `OwnershipVoucherEntryPayload` (ownershipvoucher.rs:647-653). -/
def payload : Codec (EntryPayload (Int × Int × Bytes) (List (Nat × Bytes))) where
  ser p := .arr [hash.ser p.hashPrev, hash.ser p.hashHdrInfo, (Codec.opt extra).ser p.extra, publicKey.ser p.publicKey]
  de
    | .arr [a, b, c, d] =>
      match hash.de a, hash.de b, (Codec.opt extra).de c, publicKey.de d with
      | some a, some b, some c, some d => some ⟨a, b, c, d⟩
      | _, _, _, _ => none
    | _ => none

/-- `ServiceInfo` (types.rs:736-738). -/
def serviceInfo : Codec ServiceInfo where
  ser l := .arr (l.map fun x => .arr [.text (String.ofList x.1), .bytes x.2])
  de i := ((Codec.list (.pair .text .bytes)).de i).map fun l => l.map fun x => (x.1.toList, x.2)

/-- A map with integers as keys: `COSEHeaderMap` (types.rs:1671-1729) and the claims of a token (types.rs:1556-1575). The values are
kept as items. -/
def header : Codec (List (Int × Item)) where
  ser l := .map (l.map fun x => (Codec.int x.1, x.2))
  de
    | .map l => dePairs Codec.asInt some l
    | _ => none

/-- Lookup in such a map; a later entry replaces an earlier one (`HashMap`). -/
def lookup (l : List (Int × Item)) (k : Int) : Option Item :=
  (l.reverse.find? fun x => x.1 == k).map (·.2)

/-- `HeaderKeys` (constants/mod.rs:144-158). -/
def eatNonce : Int := 10
def eatUeid : Int := 11
def cuphNonce : Int := 256
def cuphOwner : Int := 257
def euphNonce : Int := -259
def eatFdo : Int := -257

/-- `COSESign::get_unprotected_value` (types.rs:1935-1946), `COSEHeaderMap::get`: `none` for a value of the wrong type. -/
def headerValue {α : Type} (c : Codec α) (k : Int) (b : Bytes) : Option (Option α) :=
  match header.read b with
  | none => none
  | some l =>
    match lookup l k with
    | none => some none
    | some i => (c.de i).map some

/-- Reading the claims of a token (types.rs:1620-1655): nonce, UEID and FDO claim. The latter is kept as CBOR. -/
def readClaims (b : Bytes) : Option (Option Bytes × Option Bytes × Option Bytes) :=
  match header.read b with
  | none => none
  | some l =>
    match (lookup l eatNonce).map Codec.bytes16.de, (lookup l eatUeid).map Codec.bytes.de with
    | some none, _ => none
    | _, some none => none
    | n, u => some (n.join, u.join, (lookup l eatFdo).map enc)

mutual
/-- `serde_cbor::Value` as written by `ciborium`: integers of more than 64 bits as bignum. -/
def serVal : ServiceInfo.Val → Item
  | .null => .null
  | .bool b => .bool b
  | .int n =>
    match n with
    | .ofNat n => if n < 2 ^ 64 then .uint n else .tag 2 (.bytes ((Cbor.toBe 16 n).dropWhile (· == 0)))
    | .negSucc n => if n < 2 ^ 64 then .nint n else .tag 3 (.bytes ((Cbor.toBe 16 n).dropWhile (· == 0)))
  | .float n => .float n
  | .text s => .text (String.ofList s)
  | .bytes b => .bytes b
  | .array l => .arr (serVals l)
  | .map l => .map (serPairs l)

/-- See `serVal`. -/
def serVals : List ServiceInfo.Val → List Item
  | [] => []
  | v :: r => serVal v :: serVals r

/-- See `serVal`. -/
def serPairs : List (ServiceInfo.Val × ServiceInfo.Val) → List (Item × Item)
  | [] => []
  | (k, v) :: r => (serVal k, serVal v) :: serPairs r
end

mutual
/-- `serde_cbor::Value` as read: tags are dropped. -/
def deVal : Item → ServiceInfo.Val
  | .uint n => .int (.ofNat n)
  | .nint n => .int (.negSucc n)
  | .bytes b => .bytes b
  | .text s => .text s.toList
  | .arr l => .array (deVals l)
  | .map l => .map (deValPairs l)
  | .tag _ i => deVal i
  | .bool b => .bool b
  | .null => .null
  | .float n => .float n

/-- See `deVal`. -/
def deVals : List Item → List ServiceInfo.Val
  | [] => []
  | i :: r => deVal i :: deVals r

/-- See `deVal`. -/
def deValPairs : List (Item × Item) → List (ServiceInfo.Val × ServiceInfo.Val)
  | [] => []
  | (k, v) :: r => (deVal k, deVal v) :: deValPairs r
end

/-- `serde_cbor::Value`. -/
def value : Codec ServiceInfo.Val := ⟨serVal, fun i => some (deVal i)⟩

/-! ### Messages -/

/-- `to1::HelloRV` (messages/v11/to1.rs:11-15). -/
def helloRv : Codec (Bytes × Int × Bytes) := .pair .bytes16 sigInfo

/-- `to1::HelloRVAck` (messages/v11/to1.rs:57-61). -/
def helloRvAck : Codec (Bytes × Int × Bytes) := .pair .bytes16 sigInfo

/-- `to2::HelloDevice` (messages/v11/to2.rs:18-26), with the message size limit. -/
def helloDevice : Codec (Nat × OwnerServer.Hello) where
  ser x := .arr [.uint x.1, .bytes x.2.guid, .bytes x.2.nonce5, kex.ser x.2.kex, cipher.ser x.2.cipher,
    sigInfo.ser (sigNum x.2.sigType, x.2.sigInfo)]
  de
    | .arr [a, b, c, d, e, f] =>
      match (Codec.uint 65536).de a, Codec.bytes16.de b, Codec.bytes16.de c, kex.de d, cipher.de e, sigInfo.de f with
      | some a, some b, some c, some d, some e, some f => some (a, ⟨b, c, d, e, sigOf f.1, f.2⟩)
      | _, _, _, _, _, _ => none
    | _ => none

/-- `to2::GetOVNextEntry` (messages/v11/to2.rs:128-131). -/
def getEntry : Codec Nat := .one (.uint 256)

/-- `to2::DeviceServiceInfoReady` (messages/v11/to2.rs:300-304): replacement HMAC and maximal size. -/
def deviceReady : Codec (Option Hash × Option Nat) := .pair (.opt hash) (.opt (.uint (2 ^ 64)))

/-- `to2::OwnerServiceInfoReady` (messages/v11/to2.rs:346-349): maximal size. -/
def ownerReady : Codec (Option Nat) := .one (.opt (.uint (2 ^ 64)))

/-- `to2::DeviceServiceInfo` (messages/v11/to2.rs:385-389): is there more, and the service info. -/
def deviceSi : Codec (Bool × ServiceInfo) := .pair .bool serviceInfo

/-- `to2::OwnerServiceInfo` (messages/v11/to2.rs:428-433). -/
def ownerSi : Codec ServiceInfo.OwnerSi where
  ser m := .arr [.bool m.isMore, .bool m.isDone, serviceInfo.ser m.si]
  de
    | .arr [.bool a, .bool b, c] => (serviceInfo.de c).map fun si => ⟨a, b, si⟩
    | _ => none

/-- `to2::Done` and `to2::Done2` (messages/v11/to2.rs:478-481, 518-521), and `to0::HelloAck` (messages/v11/to0.rs:54-57): a nonce. -/
def nonceMsg : Codec Bytes := .one .bytes16

/-- `to0::AcceptOwner` (messages/v11/to0.rs:178-181). -/
def acceptOwner : Codec Nat := .one (.uint (2 ^ 32))

/-- `TO2ProveDevicePayload` (types.rs:719-723). -/
def proveDevice : Codec Bytes := .one .bytes

/-- `di::AppStart` (messages/v11/di.rs:15-33): the manufacturing info, written as CBOR of its own. -/
def appStart : Codec Bytes := .one .bytes

/-- `di::SetHMAC` (messages/v11/di.rs:106-109). -/
def setHmac : Codec Hash := .one hash

/-- `diun::Connect` (messages/v11/diun.rs:11-17). -/
def connect : Codec MfgServer.Connect where
  ser m := .arr [.bytes m.nonce, kex.ser m.kex, cipher.ser m.cipher, Codec.numbers.ser m.keyExchange]
  de
    | .arr [a, b, c, d] =>
      match Codec.bytes16.de a, kex.de b, cipher.de c, Codec.numbers.de d with
      | some a, some b, some c, some d => some ⟨a, b, c, d⟩
      | _, _, _, _ => none
    | _ => none

/-- `diun::AcceptPayload` (messages/v11/diun.rs:97-100). -/
def acceptPayload : Codec Bytes := .one .numbers

/-- `diun::RequestKeyParameters` (messages/v11/diun.rs:112-115). -/
def requestKey : Codec (Option String) := .one (.opt .text)

/-- `KeyStorageType` (constants/mod.rs:443-449). -/
def storage : Codec MfgServer.KeyStorage :=
  .repr (fun
    | .fileSystem => 0
    | .tpm => 1) [.fileSystem, .tpm]

/-- `PublicKeyType` (constants/mod.rs:123-132). -/
def keyType : Codec MfgServer.KeyType :=
  .repr (fun
    | .rsa2048 => 1
    | .rsaPkcs => 5
    | .rsaPss => 6
    | .ecdsa256 => 10
    | .ecdsa384 => 11) [.rsa2048, .rsaPkcs, .rsaPss, .ecdsa256, .ecdsa384]

/-- `diun::ProvideKeyParameters` (messages/v11/diun.rs:147-151). -/
def keyParameters : Codec (MfgServer.KeyType × Option (List MfgServer.KeyStorage)) := .pair keyType (.opt (.list storage))

/-- `diun::ProvideKey` (messages/v11/diun.rs:189-193). -/
def provideKey : Codec (Bytes × MfgServer.KeyStorage) := .pair .numbers storage

/-- `diun::Done` (messages/v11/diun.rs:229-232) with `MfgStringType` (constants/mod.rs:423-429). -/
def diunDone : Codec MfgServer.MfgString :=
  .one (.repr (fun
    | .serialNumber => 0
    | .macAddress => 1) [.serialNumber, .macAddress])

/-- `ErrorMessage` (messages/v11/error.rs:8-16). -/
structure ErrorMsg where
  code : Nat
  previous : MsgType
  text : String
  stamp : Option ServiceInfo.Val
  uuid : Nat

/-- `ErrorCode` (constants/mod.rs:408-421). -/
def errorCodes : List Nat := [2, 3, 4, 5, 6, 100, 101, 102, 500]

/-- `ErrorMessage` as CBOR. -/
def errorMsg : Codec ErrorMsg where
  ser m := .arr [.uint m.code, .uint m.previous.code, .text m.text, (Codec.opt value).ser m.stamp, Codec.u128.ser m.uuid]
  de
    | .arr [.uint a, .uint b, .text s, d, e] =>
      match MsgType.ofCode b, (Codec.opt value).de d, Codec.u128.de e with
      | some b, some d, some e => if a ∈ errorCodes then some ⟨a, b, s, d, e⟩ else none
      | _, _, _ => none
    | _ => none

/-- The message with which the device's client reports an error (client-linuxapp/src/main.rs:78-91); the UUID as number. -/
def clientError (code : Nat) (previous : MsgType) (text : String) (uuid : Nat) : ErrorMsg := ⟨code, previous, text, none, uuid⟩

/-- The error message of a server (http-wrapper/src/server.rs:100-113): 64 bits of the UUID. -/
def serverError (code : Nat) (previous : MsgType) (text : String) (uuid : Nat) : ErrorMsg :=
  ⟨code, previous, text, none, uuid % 2 ^ 64⟩

/-! ### Device credentials -/

/-- Whether an item is the name of a field. -/
def isName (k : String) : Item → Bool
  | .text s => s == k
  | _ => false

/-- A field of a struct with names, which must be there once; others are ignored. (`serde` also takes the number of a field for its
name.) -/
def field (k : String) (l : List (Item × Item)) : Option Item :=
  match l.filter fun x => isName k x.1 with
  | [x] => some x.2
  | _ => none

/-- `KeyStorage` (devicecredential/file.rs:24-36): a map with the name of the variant as only key, the fields in a map with their names. -/
def keyStorage : Codec Credential.KeyStorage where
  ser
    | .plain a b => .map [(.text "Plain", .map [(.text "hmac_secret", Codec.numbers.ser a), (.text "private_key", Codec.numbers.ser b)])]
    | .tpm a b c d => .map [(.text "Tpm", .map [(.text "signing_public", Codec.numbers.ser a), (.text "signing_private", Codec.numbers.ser b),
        (.text "hmac_public", Codec.numbers.ser c), (.text "hmac_private", Codec.numbers.ser d)])]
  de
    | .map [(.text n, .map l)] =>
      let get k := (field k l).bind Codec.numbers.de
      if n = "Plain" then
        match get "hmac_secret", get "private_key" with
        | some a, some b => some (.plain a b)
        | _, _ => none
      else if n = "Tpm" then
        match get "signing_public", get "signing_private", get "hmac_public", get "hmac_private" with
        | some a, some b, some c, some d => some (.tpm a b c d)
        | _, _, _, _ => none
      else none
    | _ => none

/-- `FileDeviceCredential` (devicecredential/file.rs:161-171). In the model the rendezvous information is in encoded form; it is decoded
here. (`serde` also reads a map with the names of fields; nobody writes that.) -/
def credential : Codec Credential.Cred where
  ser c := .arr [.bool c.active, .uint c.version, .text (String.ofList c.info), .bytes c.guid, (fromSlice c.rvinfo).getD .null,
    hash.ser c.keyHash, keyStorage.ser c.keys]
  de
    | .arr [.bool a, v, .text s, g, r, h, k] =>
      match version.de v, Codec.bytes16.de g, rvInfo.de r, hash.de h, keyStorage.de k with
      | some v, some g, some r, some h, some k => some ⟨a, v, s.toList, g, rvInfo.write r, h, k⟩
      | _, _, _, _, _ => none
    | _ => none

end Verif.Wire

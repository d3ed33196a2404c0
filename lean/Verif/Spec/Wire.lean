import Verif.Model.Wire
import Verif.Spec.Cbor
import Verif.Spec.To0
import Verif.Spec.MfgRun
/-!
What is needed of a CBOR item to be read as it was written, and of an environment for its codecs to be those of `Model/Wire`.
-/
namespace Verif.Wire
open Verif Verif.Types Verif.Cbor.Spec

/-- An item which `serde_cbor` can read: integers and tags of 64 bits, nested up to `d` deep. -/
def Item.Fits : Nat → Item → Prop
  | _, .uint n => n < 2 ^ 64
  | _, .nint n => n < 2 ^ 64
  | _, .bytes _ => True
  | _, .text _ => True
  | _, .bool _ => True
  | _, .null => True
  | _, .float n => n < 2 ^ 64
  | 0, .arr _ => False
  | 0, .map _ => False
  | 0, .tag _ _ => False
  | d + 1, .arr l => ∀ i ∈ l, i.Fits d
  | d + 1, .map l => ∀ x ∈ l, x.1.Fits d ∧ x.2.Fits d
  | d + 1, .tag t i => t < 2 ^ 64 ∧ i.Fits d

/-- As `Fits`, and without simple values (booleans, null, floats), which the array wrapper of data-formats refuses. -/
def Item.Solid : Nat → Item → Prop
  | _, .uint n => n < 2 ^ 64
  | _, .nint n => n < 2 ^ 64
  | _, .bytes _ => True
  | _, .text _ => True
  | _, .bool _ => False
  | _, .null => False
  | _, .float _ => False
  | 0, .arr _ => False
  | 0, .map _ => False
  | 0, .tag _ _ => False
  | d + 1, .arr l => ∀ i ∈ l, i.Solid d
  | d + 1, .map l => ∀ x ∈ l, x.1.Solid d ∧ x.2.Solid d
  | d + 1, .tag t i => t < 2 ^ 64 ∧ i.Solid d

/-- A service info value with integers of 64 bits (and a sign), nested up to `d` deep. -/
def Plain : Nat → ServiceInfo.Val → Prop
  | _, .null => True
  | _, .bool _ => True
  | _, .int n => -(2 ^ 64) ≤ n ∧ n < 2 ^ 64
  | _, .float n => n < 2 ^ 64
  | _, .text _ => True
  | _, .bytes _ => True
  | 0, .array _ => False
  | 0, .map _ => False
  | d + 1, .array l => ∀ v ∈ l, Plain d v
  | d + 1, .map l => ∀ x ∈ l, Plain d x.1 ∧ Plain d x.2

/-- The number of a random UUID: 128 bits, of which those from 76 to 79 are the version, 4 (RFC 4122, 4.4). -/
def RandomUuid (u : Nat) : Prop := u < 2 ^ 128 ∧ u / 2 ^ 76 % 16 = 4

/-- How values of the types which the model leaves open are written: public keys (type, encoding, data), rendezvous info, certificate
chains (each certificate in DER form) and the extra data of entries. Keys and certificates are parsed by OpenSSL. -/
structure Forms (E : Env) where
  pub : E.Pub → Int × Int × Bytes
  pubOf : Int × Int × Bytes → Option E.Pub
  rv : E.Rv → List (List (Nat × Bytes))
  rvOf : List (List (Nat × Bytes)) → E.Rv
  chain : E.Chain → List Bytes
  chainOf : List Bytes → Option E.Chain
  extra : E.Extra → List (Nat × Bytes)
  extraOf : List (Nat × Bytes) → E.Extra

variable {E : Env}

/-- The payload of an entry, in these forms. -/
def Forms.payload (F : Forms E) (p : EntryPayload E.Pub E.Extra) : EntryPayload (Int × Int × Bytes) (List (Nat × Bytes)) :=
  ⟨p.hashPrev, p.hashHdrInfo, p.extra.map F.extra, F.pub p.publicKey⟩

/-- See `payload`. -/
def Forms.payloadOf (F : Forms E) (p : EntryPayload (Int × Int × Bytes) (List (Nat × Bytes))) : Option (EntryPayload E.Pub E.Extra) :=
  (F.pubOf p.publicKey).map fun k => ⟨p.hashPrev, p.hashHdrInfo, p.extra.map F.extraOf, k⟩

/-- OpenSSL reads keys and certificates as it wrote them; keys have a type and an encoding there is, variables of rendezvous info a
number there is. Keys are not larger than 4 GiB. Keys of the extra data have 64 bits, though their type has 128. -/
structure Forms.Laws (F : Forms E) : Prop where
  pub : ∀ p, F.pubOf (F.pub p) = some p
  type : ∀ p, (F.pub p).1 ∈ [1, 5, 6, 10, 11] ∧ (F.pub p).2.1 ∈ [0, 1, 2, 3]
  size : ∀ p, (F.pub p).2.2.length < 2 ^ 32
  rv : ∀ r, F.rvOf (F.rv r) = r
  vars : ∀ r, ∀ d ∈ F.rv r, ∀ x ∈ d, x.1 < 15
  chain : ∀ c, F.chainOf (F.chain c) = some c
  extra : ∀ e, F.extraOf (F.extra e) = e
  small : ∀ e, ∀ x ∈ F.extra e, x.1 < 2 ^ 64

/-- The codecs of the environment of vouchers are those of data-formats. -/
structure SpeaksVoucher (E : Env) (F : Forms E) : Prop where
  encBytes : E.encBytes = Codec.bytes.write
  decBytes : E.decBytes = Codec.bytes.read
  encVersion : E.encVersion = version.write
  decVersion : E.decVersion = version.read
  encGuid : E.encGuid = Codec.bytes16.write
  decGuid : E.decGuid = Codec.bytes16.read
  encText : E.encText = Codec.text.write
  decText : E.decText = Codec.text.read
  encPub : E.encPub = fun p => publicKey.write (F.pub p)
  decPub : E.decPub = fun b => (publicKey.read b).bind F.pubOf
  encHash : E.encHash = hash.write
  decHash : E.decHash = hash.read
  encHashOpt : E.encHashOpt = (Codec.opt hash).write
  decHashOpt : E.decHashOpt = (Codec.opt hash).read
  encRv : E.encRv = fun r => rvInfo.write (F.rv r)
  decRv : E.decRv = fun b => (rvInfo.read b).map F.rvOf
  encChainOpt : E.encChainOpt = fun c => (Codec.opt chain).write (c.map F.chain)
  decChainOpt : E.decChainOpt = fun b =>
    match (Codec.opt chain).read b with
    | none => none
    | some none => some none
    | some (some l) => (F.chainOf l).map some
  encPayload : E.encPayload = fun p => payload.write (F.payload p)
  decPayload : E.decPayload = fun b => (payload.read b).bind F.payloadOf

/-- The addresses of an owner, as they are written: addresses of 4 or 16 bytes, ports of 16 bits, protocols there are. -/
def Addresses (l : List (Option Bytes × Option String × Nat × Nat)) : Prop :=
  (to1Data.write (l, ⟨.sha256, []⟩)).length < 2 ^ 32 ∧
  ∀ x ∈ l, (∀ b ∈ x.1, b.length = 4 ∨ b.length = 16) ∧ x.2.2.1 < 65536 ∧ 1 ≤ x.2.2.2 ∧ x.2.2.2 ≤ 6

/-- The codecs of the environment of owner and rendezvous server are those of data-formats, as far as TO0 is concerned. -/
structure SpeaksTo0 (R : OwnerServer.OwnerEnv) (N : To0.Msgs) (encode : RvServer.Resp → Bytes) : Prop where
  helloOk : R.helloOk = fun b => (Codec.unit.read b).isSome
  hello : N.hello = Codec.unit.write ()
  ack : ∀ n, encode (.helloAck n) = nonceMsg.write n
  decAck : N.decAck = nonceMsg.read
  accept : ∀ w, encode (.acceptOwner w) = acceptOwner.write w
  decAccept : N.decAccept = acceptOwner.read
  encU32 : R.encU32 = (Codec.uint (2 ^ 32)).write
  decU32 : R.decU32 = (Codec.uint (2 ^ 32)).read
  encNonce : R.encNonce = Codec.bytes16.write
  decNonce : R.decNonce = Codec.bytes16.read
  encTo1 : ∃ l, Addresses l ∧ R.encTo1 = fun h => to1Data.write (l, h)
  decTo1 : R.decTo1 = fun b => (to1Data.read b).map (·.2)

/-- The same for TO1. The claims of the token are written in any order. -/
structure SpeaksTo1 (R : Device.DevEnv) (encode : RvServer.Resp → Bytes) : Prop where
  encHelloRv : ∀ g, R.encHelloRv g = helloRv.write (g, -35, [])
  decHelloRv : R.decHelloRv = fun b => (helloRv.read b).map fun x => (x.1, x.2.1 == -7 || x.2.1 == -35, x.2.2)
  ack : ∀ n, encode (.helloRvAck n) = helloRvAck.write (n, -35, [])
  decHelloAck : R.decHelloAck = fun b => (helloRvAck.read b).map fun x => (x.1, sigOf x.2.1, x.2.2)
  redirect : ∀ t, encode (.redirect t) = t
  encClaims : ∀ n u, ∃ l, l.Perm [(eatNonce, .bytes n), (eatUeid, .bytes u)] ∧ R.encClaims n u none = header.write l
  decClaims : R.decClaims = readClaims

/-- The same for TO2. An entry is written as array of its number and itself (messages/v11/to2.rs:166-214). -/
structure SpeaksTo2 (R : Device.DevEnv) (F : Forms R.E) (encode : OwnerServer.Resp → Bytes) : Prop where
  encHello : R.encHello = fun h => helloDevice.write (OwnerServer.maxMessageSize, h)
  decHello : R.decHello = fun b => (helloDevice.read b).map (·.2)
  encGetEntry : R.encGetEntry = getEntry.write
  decGetEntry : R.decGetEntry = getEntry.read
  encReady : R.encReady = deviceReady.write (none, none)
  decReady : R.decReady = fun b => (deviceReady.read b).isSome
  encDeviceSi : ∃ more, R.encDeviceSi = fun si => deviceSi.write (more, si)
  decDeviceSi : R.decDeviceSi = fun b => (deviceSi.read b).map (·.2)
  encDone : R.encDone = nonceMsg.write
  decDone : R.decDone = nonceMsg.read
  proveOvHdr : ∀ t, encode (.proveOvHdr t) = t
  ovEntry : ∀ n e, Cbor.serialize ⟨none, [R.encU16 n, e]⟩ = .ok (encode (.ovEntry n e))
  setupDevice : ∀ t, encode (.setupDevice t) = t
  ownerReady : encode .ownerReady = Wire.ownerReady.write none
  decOwnerReady : R.decOwnerReady = fun b => (Wire.ownerReady.read b).map fun _ => ()
  ownerSi : ∀ m, encode (.ownerSi m) = Wire.ownerSi.write m
  decOwnerSi : R.decOwnerSi = Wire.ownerSi.read
  done2 : ∀ n, encode (.done2 n) = nonceMsg.write n
  decDone2 : R.decDone2 = nonceMsg.read
  encU16 : R.encU16 = (Codec.uint 65536).write
  decU16 : R.decU16 = (Codec.uint 65536).read
  encNonce : R.encNonce = Codec.bytes16.write
  decNonce : R.decNonce = Codec.bytes16.read
  encSig : R.encSig = fun t => sigInfo.write (sigNum t, [])
  decSigInfo : R.decSigInfo = fun b => (sigInfo.read b).map fun x => (sigOf x.1, x.2)
  encUnprot : ∀ n k, ∃ l, l.Perm [(cuphNonce, .bytes n), (cuphOwner, publicKey.ser (F.pub k))] ∧ R.encUnprot n k = header.write l
  cuphNonce : R.cuphNonce = headerValue Codec.bytes16 cuphNonce
  encEuph : ∀ n, R.encEuph n = header.write [(euphNonce, .bytes n)]
  euphNonce : R.euphNonce = headerValue Codec.bytes16 euphNonce
  encProve : R.encProve = proveDevice.write
  decProve : R.decProve = proveDevice.read
  encClaims : ∀ n u b, b.length < 2 ^ 32 → ∃ l, l.Perm [(eatNonce, .bytes n), (eatUeid, .bytes u), (eatFdo, proveDevice.ser b)] ∧
    R.encClaims n u (some (proveDevice.write b)) = header.write l
  decClaims : R.decClaims = readClaims

/-- The same for manufacturing. -/
structure SpeaksMfg (R : MfgClient.ClientEnv) (F : Forms R.E) (encode : MfgServer.Resp → Bytes) : Prop where
  encConnect : R.encConnect = connect.write
  decConnect : R.decConnect = connect.read
  encAccept : R.encAccept = acceptPayload.write
  decAccept : R.decAccept = acceptPayload.read
  token : ∀ b, encode (.accept b) = b
  header : ∀ b, encode (.setCredentials b) = b
  encProvideKey : R.encProvideKey = fun d s => provideKey.write (d, s)
  decProvideKey : R.decProvideKey = provideKey.read
  encAppStart : R.encAppStart = fun i => appStart.write (value.write (.text i.toList))
  decAppStart : R.decAppStart = appStart.read
  decMfgInfo : R.decMfgInfo = fun b => (value.read b).map fun
    | .text s => some (String.ofList s)
    | _ => none
  encSetHmac : R.encSetHmac = setHmac.write
  decSetHmac : R.decSetHmac = setHmac.read
  encKeyUnprot : ∀ k, R.encKeyUnprot k = Wire.header.write [(cuphOwner, publicKey.ser (F.pub k))]

end Verif.Wire

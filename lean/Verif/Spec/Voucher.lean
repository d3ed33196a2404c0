import Verif.Model.Voucher
import Verif.Spec.Cbor
/-!
Specification vocabulary for ownership vouchers: what a valid chain of entries is, who the owner is,
and the assumptions about external codecs and signing keys.
-/
namespace Verif.Voucher
open Verif Verif.Cbor Verif.Cbor.Spec

/-- The digest `h` is a plain hash of `d`. -/
def Commits (E : Env) (h : Hash) (d : Bytes) : Prop :=
  h.type.isPlain = true ∧ h.value = E.digest h.type d

/-- `SignChain info key prev raws ps`: the raw entries `raws` are COSE_Sign1 messages carrying the
payloads `ps`; the first is validly signed by `key`, every later one by the key named in its
predecessor; each payload commits to the bytes of its predecessor (`prev` for the first) and to the
header info bytes `info`. -/
inductive SignChain (E : Env) (c : Bool) (info : Bytes) :
    E.Pub → Bytes → List Bytes → List (Payload E) → Prop
  | nil {key : E.Pub} {prev : Bytes} : SignChain E c info key prev [] []
  | cons {key : E.Pub} {prev raw : Bytes} {raws : List Bytes} {s : Sign1} {p : Payload E}
      {ps : List (Payload E)}
      (hs : parseSign1 E c raw = .ok s)
      (hv : E.verify key s.prot s.payload s.sig = true)
      (hp : E.decPayload s.payload = some p)
      (hprev : Commits E p.hashPrev prev)
      (hinfo : Commits E p.hashHdrInfo info)
      (rest : SignChain E c info p.publicKey raw raws ps) :
      SignChain E c info key prev (raw :: raws) (p :: ps)

/-- The owner after a chain of payloads that starts with owner `key`. -/
def lastOwner {E : Env} (key : E.Pub) : List (Payload E) → E.Pub
  | [] => key
  | p :: ps => lastOwner p.publicKey ps

/-- Internal consistency of a voucher value: its cached fields are what its serialized contents say.
Established by reading (`wf_of_deserialize`), by `new` and kept by `extend`. -/
structure Wf {E : Env} (c : Bool) (v : Voucher E) : Prop where
  len : v.contents.contents.length = 5
  version : getLeaf E.decVersion v.contents 0 = .ok v.version
  header : ∃ hb, getLeaf E.decBytes v.contents 1 = .ok hb ∧ Header.deserialize E c hb = .ok v.header
  hmac : getLeaf E.decHash v.contents 2 = .ok v.hmac
  chain : getLeaf E.decChainOpt v.contents 3 = .ok v.chain
  entries : ∃ er rest, getRaw v.contents 4 = .ok er ∧
    Cbor.deserialize c none er = .ok (v.entries, rest)

/-- Assumptions about the serde codecs: byte strings and entry payloads decode to what was encoded,
and an encoded byte string is one CBOR item. Restricted to what fits in memory. -/
structure CodecLaws (E : Env) : Prop where
  bytes_dec : ∀ b : Bytes, b.length < 2 ^ 63 → E.decBytes (E.encBytes b) = some b
  bytes_item : ∀ b : Bytes, b.length < 2 ^ 63 → IsItem (E.encBytes b)
  payload_dec : ∀ p, (E.encPayload p).length < 2 ^ 63 → E.decPayload (E.encPayload p) = some p

/-- Assumptions about the remaining serde codecs, needed to read a written voucher back: decoding
inverts encoding and a (present) value is written as one CBOR item without simple values. -/
structure LeafLaws (E : Env) : Prop where
  version_dec : ∀ n, n = 100 ∨ n = 101 → E.decVersion (E.encVersion n) = some n
  version_item : ∀ n, n = 100 ∨ n = 101 → IsItem (E.encVersion n)
  guid_dec : ∀ g : Bytes, g.length = 16 → E.decGuid (E.encGuid g) = some g
  guid_item : ∀ g : Bytes, g.length = 16 → IsItem (E.encGuid g)
  text_dec : ∀ s, (E.encText s).length < 2 ^ 63 → E.decText (E.encText s) = some s
  text_item : ∀ s, (E.encText s).length < 2 ^ 63 → IsItem (E.encText s)
  pub_dec : ∀ p, (E.encPub p).length < 2 ^ 63 → E.decPub (E.encPub p) = some p
  pub_item : ∀ p, (E.encPub p).length < 2 ^ 63 → IsItem (E.encPub p)
  rv_dec : ∀ p, (E.encRv p).length < 2 ^ 63 → E.decRv (E.encRv p) = some p
  rv_item : ∀ p, (E.encRv p).length < 2 ^ 63 → IsItem (E.encRv p)
  hash_dec : ∀ h : Hash, (E.encHash h).length < 2 ^ 63 → E.decHash (E.encHash h) = some h
  hash_item : ∀ h : Hash, (E.encHash h).length < 2 ^ 63 → IsItem (E.encHash h)
  hashOpt_dec : ∀ h : Option Hash, (E.encHashOpt h).length < 2 ^ 63 → E.decHashOpt (E.encHashOpt h) = some h
  hashOpt_item : ∀ h : Hash, (E.encHashOpt (some h)).length < 2 ^ 63 → IsItem (E.encHashOpt (some h))
  hashOpt_none : E.encHashOpt none = [0xf6]
  chainOpt_dec : ∀ h, (E.encChainOpt h).length < 2 ^ 63 → E.decChainOpt (E.encChainOpt h) = some h
  chainOpt_item : ∀ h, (E.encChainOpt (some h)).length < 2 ^ 63 → IsItem (E.encChainOpt (some h))
  /-- an absent chain is written as CBOR null -/
  chainOpt_none : E.encChainOpt none = [0xf6]

/-- Assumption about a signing key: signing a payload works and verifies under every public key it matches. -/
def GoodKey (E : Env) (k : E.Priv) : Prop :=
  ∀ payload : Bytes, payload.length < 2 ^ 63 → ∃ prot sig, E.sign k payload = some (prot, sig) ∧
    prot.length < 2 ^ 63 ∧ sig.length < 2 ^ 63 ∧ E.coseOk prot emptyMap = true ∧
    ∀ pub, E.keyMatches pub k = true → E.verify pub prot payload sig = true

/-- The payload naming `next` and `extra` fits in memory (whatever the two digests are). -/
def SmallPayload (E : Env) (extra : Option E.Extra) (next : E.Pub) : Prop :=
  ∀ t d t' d', (E.encPayload ⟨⟨t, E.digest t d⟩, ⟨t', E.digest t' d'⟩, extra, next⟩).length < 2 ^ 63

/-- One extension step: signing key, extra data, next owner. -/
abbrev Step (E : Env) := E.Priv × Option E.Extra × E.Pub

/-- Each step is signed by the owner named in the previous step (`o` for the first). -/
def OwnerSteps {E : Env} : E.Pub → List (Step E) → Prop
  | _, [] => True
  | o, (k, _, n) :: r => E.keyMatches o k = true ∧ OwnerSteps n r

/-- Apply extension steps in order, stopping at the first failure. -/
def extendMany {E : Env} (c : Bool) : Voucher E → List (Step E) → Voucher E × Res Err Unit
  | v, [] => (v, .ok ())
  | v, (k, x, n) :: r =>
    match extend c v k x n with
    | (v', .ok ()) => extendMany c v' r
    | (v', e) => (v', e)

end Verif.Voucher

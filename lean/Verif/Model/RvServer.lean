import Verif.Model.Voucher
import Verif.Model.Http
import Verif.Model.Store
import Verif.Model.Rendezvous
/-!
Model of the rendezvous server (`rendezvous-server/src`): TO0 and TO1, on top of the HTTP layer
(`Model/Http`), the stores (`Model/Store`), vouchers and certificate chains.

A `COSESign` is identified with the bytes it was read from (`parseSign1` gives its parts): writing it again
writes the same elements. Errors and panics of a handler both reject the request.
-/
namespace Verif.RvServer
open Verif Verif.Voucher Verif.Store

/-- External functions used by the rendezvous server, besides those for vouchers (`E`). -/
structure RvEnv where
  E : Env
  C : Rendezvous.Certs
  /-- certificates of an `X5Chain` -/
  certs : E.Chain → List C.Cert
  /-- SHA-256 of a certificate (`X5Bag`, enhanced_types.rs:240-256) -/
  certDigest : C.Cert → Bytes
  /-- `PublicKey::try_from(X509)` (publickey.rs:183-200) -/
  certPub : C.Cert → Option E.Pub
  /-- OpenSSL `public_eq` -/
  sameKey : E.Pub → C.Key → Bool
  /-- serde for `u32` -/
  decU32 : Bytes → Option Nat
  /-- serde for `Nonce`: a byte string of 16 bytes -/
  decNonce : Bytes → Option Bytes
  /-- serde for `TO1DataPayload` (types.rs:656-660); only the hash matters here -/
  decTo1 : Bytes → Option Hash
  /-- serde for the claims map of an entity attestation token -/
  decClaims : Bytes → Option (Option Bytes × Option Bytes × Option Bytes)
  /-- serde for `to0::Hello` (the empty array) -/
  helloOk : Bytes → Bool
  /-- serde for `to1::HelloRV`: GUID, is the signature type ECDSA P-256 or P-384, signature info -/
  decHelloRv : Bytes → Option (Bytes × Bool × Bytes)

variable (R : RvEnv) (c : Bool)

/-- `TO0Data` (types.rs:584-591). -/
structure To0d where
  voucher : Voucher R.E
  wait : Nat
  nonce : Bytes

/-- `TO0Data::deserialize_from_reader` (types.rs:593-612). -/
def parseTo0d (b : Bytes) : Res Err (To0d R) := do
  let (a, _) ← liftP (Cbor.deserialize c (some 3) b)
  let raw ← getRaw a 0
  let (v, _) ← Voucher.deserialize c raw
  let w ← getLeaf R.decU32 a 1
  let n ← getLeaf R.decNonce a 2
  pure ⟨v, w, n⟩

/-- `StoredItem` (data-formats/src/serializable.rs:93-97). -/
structure Item where
  key : R.E.Pub
  to1d : Bytes

/-- Configuration (rendezvous-server/src/main.rs:30-43). -/
structure Config where
  maxWait : Nat
  mfgKeys : Option (List R.C.Cert)
  deviceKeys : Option (List R.C.Cert)

/-- `X5Bag::contains_publickey` (enhanced_types.rs:258-272): a certificate without readable key panics.
The order of the certificates (a hash map) is that of the list. -/
def bagHasKey (bag : List R.C.Cert) (k : R.E.Pub) : Res Err Bool :=
  match bag with
  | [] => .ok false
  | cert :: r =>
    match R.C.publicKey cert with
    | none => .panic
    | some ck => if R.sameKey k ck then .ok true else bagHasKey r k

/-- Manufacturer check (handlers_to0.rs:85-94). -/
def mfgTrusted (cfg : Config R) (k : R.E.Pub) : Res Err Unit :=
  match cfg.mfgKeys with
  | none => .ok ()
  | some bag =>
    match bagHasKey R bag k with
    | .ok true => .ok ()
    | .ok false => .err .inconsistentValue
    | .err e => .err e
    | .panic => .panic

/-- Is a poll the end of the iteration? -/
def isDone {E : Env} : Poll E → Bool
  | .done => true
  | _ => false

/-- `Iterator::last` on the entries (handlers_to0.rs:97-102): polls until the end; the last item. -/
def iterLast {E : Env} (v : Voucher E) : Option (Poll E) :=
  ((polls c v (v.entries.contents.length + 2) (iterStart v)).takeWhile (fun p => !isDone p)).getLast?

/-- The owner (handlers_to0.rs:97-122): no entries and an invalid entry are refused. -/
def ownerOf {E : Env} (v : Voucher E) : Res Err E.Pub :=
  match iterLast c v with
  | some (.item p) => .ok p.publicKey
  | some (.error e) => .err e
  | some .panic => .panic
  | some .done => .err .emptyData
  | none => .err .emptyData

/-- `to1d().get_payload(owner key)` (handlers_to0.rs:129-141; types.rs:1849-1855). -/
def to1Hash (to1d : Bytes) (owner : R.E.Pub) : Res Err Hash := do
  let s ← parseSign1 R.E c to1d
  if R.E.verify owner s.prot s.payload s.sig then ofOpt .serde (R.decTo1 s.payload) else .err .crypto

/-- `to1d_to_to0d_hash.compare(&msg.to0d_hash(..)?)` (handlers_to0.rs:144-150). -/
def checkTo0Hash (h : Hash) (to0d : Bytes) : Res Err Unit :=
  match R.E.hashData h.type to0d with
  | .ok h' => h.compare h'
  | .err e => .err e
  | .panic => .panic

/-- Which verification of the device certificate chain is used (handlers_to0.rs:166-170). -/
def verifyDevice (cfg : Config R) (ch : R.E.Chain) : Res Rendezvous.ChainErr R.C.Cert :=
  match cfg.deviceKeys with
  | some bag => Rendezvous.verifyFromBag R.certDigest bag (R.certs ch)
  | none => Rendezvous.insecureVerify (R.certs ch)

/-- Device certificate chain (handlers_to0.rs:154-188): the leaf's key. -/
def deviceKey (cfg : Config R) (chain : Option R.E.Chain) : Res Err R.E.Pub :=
  match chain with
  | none => .err .emptyData
  | some ch =>
    match verifyDevice R cfg ch with
    | .ok leaf => ofOpt .unsupportedAlgorithm (R.certPub leaf)
    | .err _ => .err .crypto
    | .panic => .panic

/-- What a registration stores. -/
structure Registration where
  guid : Bytes
  item : Item R
  wait : Nat

/-- The checks of `ownersign` (handlers_to0.rs:41-196) and what it stores. -/
def checkOwnerSign (cfg : Config R) (nonce3 to0d to1d : Bytes) : Res Err (Registration R) := do
  let t ← parseTo0d R c to0d
  if nonce3 ≠ t.nonce then .err .inconsistentValue
  else
    let _ ← mfgTrusted R cfg t.voucher.header.mfgKey
    let owner ← ownerOf c t.voucher
    let h ← to1Hash R c to1d owner
    let _ ← checkTo0Hash R h to0d
    let k ← deviceKey R cfg t.voucher.chain
    pure ⟨t.voucher.header.guid, ⟨k, to1d⟩, if t.wait > cfg.maxWait then cfg.maxWait else t.wait⟩

/-- `EATokenPayload` (types.rs:1511-1521). -/
structure Eat where
  nonce : Bytes
  guid : Bytes
  payload : Option Bytes

/-- `eat_from_map` (types.rs:1610-1640): nonce, UEID and FDO claim of the map; `none` for a claim that is
absent or of the wrong type. An empty UEID panics. -/
def eatFromMap (claims : Option Bytes × Option Bytes × Option Bytes) : Res Err Eat :=
  match claims.1 with
  | none => .err .inconsistentValue
  | some n =>
    match claims.2.1 with
    | none => .err .inconsistentValue
    | some u =>
      match Types.fromUeid u with
      | .ok g => .ok ⟨n, g, claims.2.2⟩
      | .err e => .err e
      | .panic => .panic

/-- `COSESign::get_eat` (types.rs:1865-1873). -/
def getEat (token : Bytes) (k : R.E.Pub) : Res Err Eat := do
  let s ← parseSign1 R.E c token
  if R.E.verify k s.prot s.payload s.sig then
    let claims ← ofOpt .serde (R.decClaims s.payload)
    eatFromMap claims
  else .err .crypto

/-! ### Sessions and stores -/

/-- Session data (handlers_to0.rs:24, handlers_to1.rs:58-63), as texts. -/
structure Data where
  nonce3 : Option (List Char)
  nonce4 : Option (List Char)
  guid : Option (List Char)

/-- `Nonce::from_str` (types.rs:284-293), panics as `none`. -/
def parseNonce (s : List Char) : Option Bytes :=
  match Types.hexDecode s with
  | some b => if b.length = 16 then some b else none
  | none => none

/-- `Guid::from_str` (types.rs:336-341). Only the hyphenated form, which is all that `to_string`
produces, is modelled. -/
def parseGuid (s : List Char) : Option Bytes :=
  match Types.hexDecode (s.filter (· ≠ '-')) with
  | some b => if b.length = 16 then some b else none
  | none => none

/-- `Guid::to_string` (types.rs:318-322, 343-347): panics on other lengths than 16, as `none`. -/
def guidKey (g : Bytes) : Option Name := if g.length = 16 then some (guidText g) else none

/-- A store for registrations as the handlers use it. -/
structure Backend (V : Type) where
  W : Type
  empty : W
  load : Nat → W → Name → W × Res SErr (Option V)
  put : W → Name → V → W × Res SErr Unit
  setTtl : Nat → W → Name → Int → W × Res SErr Unit
  maintain : Nat → List Name → W → W

/-- The directory store; a value is written in one piece (`C28` covers stopping while writing). -/
abbrev dirBackend {V : Type} (ser : V → Bytes) (de : Bytes → Option V) : Backend V where
  W := Dir
  empty := fun _ => none
  load now d k := Store.load de now d k
  put d k v := Store.store d k [ser v]
  setTtl now d k dur := Store.setMeta now d k ttlKey (.after dur)
  maintain now ls d := (Store.maintain now d ls).1

/-- The database store for rendezvous servers. -/
abbrev dbBackend {V : Type} (ser : V → Bytes) (de : Bytes → Option V) : Backend V where
  W := Table
  empty := []
  load _ t k := (t, dbLoad de t k)
  put t k v := dbStore t k (ser v)
  setTtl now t k dur := dbSetMeta .rendezvous now t k ttlKey (.after dur)
  maintain now _ t := dbMaintain .rendezvous now t

/-- Inputs of a handler: the clock, the random nonce (`none`: no randomness), and whether the server is
stopped (or `store_metadata` fails) between storing a registration and setting its lifetime. -/
structure Oracle where
  now : Nat
  nonce : Option Bytes
  stopped : Bool

/-- Decoded requests. -/
inductive Req where
  | hello
  | ownerSign (to0d to1d : Bytes)
  | helloRv (guid : Bytes) (sigOk : Bool) (info : Bytes)
  | prove (token : Bytes)

/-- Responses. -/
inductive Resp where
  | helloAck (nonce3 : Bytes)
  | acceptOwner (wait : Nat)
  | helloRvAck (nonce4 : Bytes)
  | redirect (to1d : Bytes)

/-- `OwnerSign::deserialize_from_reader` (messages/v11/to0.rs:97-116). -/
def parseOwnerSign (b : Bytes) : Res Err Req := do
  let (a, _) ← liftP (Cbor.deserialize c (some 2) b)
  let to0d ← getLeaf R.E.decBytes a 0
  let raw ← getRaw a 1
  let _ ← parseSign1 R.E c raw
  pure (.ownerSign to0d raw)

/-- Decoding of request bodies by message type. -/
def decode (t : MsgType) (b : Bytes) : Option Req :=
  match t with
  | .to0Hello => if R.helloOk b then some .hello else none
  | .to0OwnerSign =>
    match parseOwnerSign R c b with
    | .ok r => some r
    | _ => none
  | .to1HelloRV =>
    match R.decHelloRv b with
    | some (g, s, i) => some (.helloRv g s i)
    | none => none
  | .to1ProveToRV =>
    match parseSign1 R.E c b with
    | .ok _ => some (.prove b)
    | _ => none
  | _ => none

variable (B : Backend (Item R)) (cfg : Config R)

/-- `hello` (handlers_to0.rs:14-33). -/
def hello (o : Oracle) (s : Data) : Option (Resp × Data) :=
  match o.nonce with
  | none => none
  | some n => some (.helloAck n, { s with nonce3 := some (Types.hexEncode n) })

/-- Storing a registration (handlers_to0.rs:198-220). -/
def register (o : Oracle) (r : Registration R) (w : B.W) : B.W × Option Nat :=
  match guidKey r.guid with
  | none => (w, none)
  | some k =>
    match B.put w k r.item with
    | (w, .ok ()) =>
      if o.stopped then (w, none)
      else match B.setTtl o.now w k ((r.wait : Int) * (second : Int)) with
        | (w, .ok ()) => (w, some r.wait)
        | (w, _) => (w, none)
    | (w, _) => (w, none)

/-- `ownersign` (handlers_to0.rs:35-221). -/
def ownersign (o : Oracle) (to0d to1d : Bytes) (s : Data) (w : B.W) : B.W × Option (Resp × Data) :=
  match s.nonce3.bind parseNonce with
  | none => (w, none)
  | some n =>
    match checkOwnerSign R c cfg n to0d to1d with
    | .ok r =>
      match register R B o r w with
      | (w, some wait) => (w, some (.acceptOwner wait, s))
      | (w, none) => (w, none)
    | _ => (w, none)

/-- `hello_rv` (handlers_to1.rs:10-77). -/
def helloRv (o : Oracle) (g : Bytes) (sigOk : Bool) (info : Bytes) (s : Data) (w : B.W) :
    B.W × Option (Resp × Data) :=
  if !sigOk || !info.isEmpty then (w, none)
  else match guidKey g with
    | none => (w, none)
    | some k =>
      match B.load o.now w k with
      | (w, .ok (some _)) =>
        match o.nonce with
        | none => (w, none)
        | some n => (w, some (.helloRvAck n, { s with nonce4 := some (Types.hexEncode n), guid := some k }))
      | (w, _) => (w, none)

/-- `prove_to_rv` (handlers_to1.rs:79-155). -/
def proveToRv (o : Oracle) (token : Bytes) (s : Data) (w : B.W) : B.W × Option (Resp × Data) :=
  match s.nonce4.bind parseNonce with
  | none => (w, none)
  | some n =>
    match s.guid.bind parseGuid with
    | none => (w, none)
    | some g =>
      match B.load o.now w (guidText g) with
      | (w, .ok (some item)) =>
        match getEat R c token item.key with
        | .ok eat => if n ≠ eat.nonce then (w, none) else (w, some (.redirect item.to1d, s))
        | _ => (w, none)
      | (w, _) => (w, none)

/-- The handlers of the rendezvous server (main.rs:159-181). -/
def handle (o : Oracle) (r : Req) (s : Data) (w : B.W) : B.W × Option (Resp × Data) :=
  match r with
  | .hello => (w, hello o s)
  | .ownerSign to0d to1d => ownersign R c B cfg o to0d to1d s w
  | .helloRv g sigOk info => helloRv R B o g sigOk info s w
  | .prove token => proveToRv R c B o token s w

/-- The rendezvous server. How responses are written does not matter. Session ids and encryption come
from the environment. -/
abbrev server (Id : Type) [DecidableEq Id] (idOf : List Char → Option Id) (aead : Http.Aead)
    (encode : Resp → Bytes) : Http.Server where
  S := Data
  W := B.W
  Req := Req
  Resp := Resp
  Oracle := Oracle
  Id := Id
  idEq := inferInstance
  aead := aead
  idOf := idOf
  init := ⟨none, none, none⟩
  routes := rvRoutes
  decode := decode R c
  encode := encode
  handle o _ r s k w :=
    match handle R c B cfg o r s w with
    | (w, none) => (w, none)
    | (w, some (resp, s)) => (w, some (resp, s, k))

end Verif.RvServer

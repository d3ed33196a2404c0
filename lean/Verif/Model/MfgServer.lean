import Verif.Model.OwnerServer
/-!
Model of the manufacturing server (`manufacturing-server/src`): device initialization (DI), with its key
exchange (DIUN), on top of the HTTP layer; start-up checks; and the two handlers for fetching vouchers.

Errors of a handler reject the request. Panics do so as well, but are kept apart up to `handleRes`.
-/
namespace Verif.MfgServer
open Verif Verif.Voucher Verif.Store Verif.Types

/-- `KeyStorageType` (constants/mod.rs:443-449). -/
inductive KeyStorage where
  | fileSystem
  | tpm
  deriving DecidableEq, Repr

/-- `PublicKeyType` (constants/mod.rs:123-132). -/
inductive KeyType where
  | rsa2048
  | rsaPkcs
  | rsaPss
  | ecdsa256
  | ecdsa384
  deriving DecidableEq, Repr

/-- `MfgStringType` (constants/mod.rs:423-429). -/
inductive MfgString where
  | serialNumber
  | macAddress
  deriving DecidableEq, Repr

/-- `diun::Connect` (messages/v11/diun.rs:11-17). -/
structure Connect where
  nonce : Bytes
  kex : KexSuite
  cipher : CipherSuite
  keyExchange : Bytes

/-- What goes into a new certificate (handlers/di.rs:167-198): the subject's common name, the certificate
whose subject is the issuer and whose end of validity is taken over, the start of validity, the serial number
and the public key. -/
structure CertFields (C : Rendezvous.Certs) where
  subject : String
  issuer : C.Cert
  notBefore : Nat
  serial : Bytes
  key : C.Key

/-- External functions used by the manufacturing server, besides those of the owner's model. -/
structure MfgEnv extends OwnerServer.OwnerEnv where
  /-- `X5Chain::new` of a list which is not empty -/
  mkChain : List C.Cert → E.Chain
  /-- `X509::to_der` -/
  der : C.Cert → Option Bytes
  /-- `PKey::public_key_from_der` -/
  keyFromDer : Bytes → Option C.Key
  /-- `X509Builder`: builds and signs a certificate; fails for instance when the common name is too long -/
  build : CertFields C → E.Priv → Option C.Cert
  /-- `str::trim` -/
  trim : String → String
  /-- serde for `AppStart`: the manufacturing info as bytes -/
  decAppStart : Bytes → Option Bytes
  /-- these bytes as CBOR value: `some none` if it is not a text -/
  decMfgInfo : Bytes → Option (Option String)
  /-- serde for `SetHMAC` -/
  decSetHmac : Bytes → Option Hash
  /-- serde for `diun::Connect`, `AcceptPayload`, `RequestKeyParameters`, `ProvideKey` (key in DER form, storage) -/
  decConnect : Bytes → Option Connect
  encAccept : Bytes → Bytes
  decRequestKey : Bytes → Bool
  decProvideKey : Bytes → Option (Bytes × KeyStorage)
  /-- COSE_Sign1 signing with the nonce as `CUPHNonce` in the protected header -/
  signNonce : E.Priv → Bytes → Bytes → Option (Bytes × Bytes)
  /-- the unprotected header with a public key as `CUPHOwnerPubKey` -/
  encKeyUnprot : E.Pub → Bytes

variable (R : MfgEnv) (c : Bool)

/-- `DiunConfiguration` (main.rs:41-49). -/
structure Diun where
  stringType : MfgString
  keyType : KeyType
  storage : List KeyStorage
  key : R.E.Priv
  pub : R.E.Pub

/-- `ManufacturingServiceUD` without the stores (main.rs:62-90); `keyStore` says whether there is a store of
public keys. -/
structure Config where
  mfgCert : R.C.Cert
  mfgKey : Option R.E.Priv
  caKey : R.E.Priv
  caChain : R.E.Chain
  owner : Option R.E.Pub
  rv : R.E.Rv
  enableDi : Bool
  diun : Option (Diun R)
  keyStore : Bool

/-- What the settings amount to: the result of reading and parsing each file (`none`: failure), with an outer
option where the setting is optional (configuration/manufacturing_server.rs). -/
structure Settings where
  caKey : Option R.E.Priv
  caChain : Option (List R.C.Cert)
  mfgCert : Option R.C.Cert
  mfgKey : Option (Option R.E.Priv)
  owner : Option (Option R.E.Pub)
  diun : Option (Option (Diun R))
  rv : Option R.E.Rv
  plainDi : Option Bool
  keyStore : Bool

/-- An optional setting that has to be readable if it is there. -/
def optional {α : Type} : Option (Option α) → Option (Option α)
  | none => some none
  | some none => none
  | some (some a) => some (some a)

/-- Start-up of the server (main.rs:173-273), without the stores: reading failures and an empty chain
(publickey.rs:266-272) end it, as does a manufacturer key without owner certificate or the reverse
(main.rs:244-246). Plain DI is off unless switched on. -/
def startup (s : Settings R) : Option (Config R) := do
  let caKey ← s.caKey
  let chain ← s.caChain
  if chain.isEmpty then none
  else
    let mfgCert ← s.mfgCert
    let mfgKey ← optional s.mfgKey
    let owner ← optional s.owner
    if mfgKey.isNone != owner.isNone then none
    else
      let diun ← optional s.diun
      let rv ← s.rv
      pure ⟨mfgCert, mfgKey, caKey, R.mkChain chain, owner, rv, s.plainDi.getD false, diun, s.keyStore⟩

/-- Session data (handlers/di.rs:48-49, diun.rs:17, main.rs:35-36); a missing entry is `none` (`false`). -/
structure Data where
  diunKeys : Option Http.Keys
  deviceKey : Option Bytes
  performed : Bool
  header : Option (List Char)
  chain : Option R.E.Chain

/-- A store for vouchers, at the level of their bytes. -/
structure MStore where
  W : Type
  empty : W
  load : Nat → W → Name → W × Res SErr (Option Bytes)
  put : W → Name → Bytes → W × Res SErr Unit
  /-- the contents of all entries (`load_all_data`), for a directory listing -/
  all : List Name → W → Res SErr (List Bytes)
  maintain : Nat → List Name → W → W

/-- Contents of the files listed; a name that is gone is an error (directory.rs:210-229). -/
def allFiles (d : Dir) : List Name → Res SErr (List Bytes)
  | [] => .ok []
  | n :: r =>
    match d n with
    | none => .err .unspecified
    | some f =>
      match allFiles d r with
      | .ok l => .ok (f.content :: l)
      | .err e => .err e
      | .panic => .panic

/-- The directory store. -/
abbrev dirM : MStore where
  W := Dir
  empty := fun _ => none
  load now d k := Store.load some now d k
  put d k b := Store.store d k [b]
  all ls d := allFiles d ls
  maintain now ls d := (Store.maintain now d ls).1

/-- The database store for manufacturers. -/
abbrev dbM : MStore where
  W := Table
  empty := []
  load _ t k := (t, dbLoad some t k)
  put t k b := dbStore t k b
  all _ t := .ok (t.map (·.contents))
  maintain now _ t := dbMaintain .manufacturer now t

/-- Inputs of a handler: clock, random choices (`none`: no randomness), whether the request asks for the
non-interoperable KDF, and the answers of the public key store (which is read only). -/
structure Oracle where
  now : Nat
  kex : Option (R.K.Key × Bytes)
  guid : Option Bytes
  serial : Option Bytes
  nonInterop : Bool
  keys : Name → Res SErr (Option Bytes)

/-- Decoded requests. The manufacturing info in AppStart is decoded by the handler. -/
inductive Req where
  | appStart (info : Bytes)
  | setHmac (hmac : Hash)
  | connect (m : Connect)
  | requestKey
  | provideKey (key : Bytes) (storage : KeyStorage)

/-- Responses: the header as its bytes, the signed Accept as its bytes. -/
inductive Resp where
  | setCredentials (header : Bytes)
  | done
  | accept (token : Bytes)
  | keyParameters (t : KeyType) (allowed : Option (List KeyStorage))
  | diunDone (t : MfgString)

/-- Decoding of request bodies by message type. -/
def decode (t : MsgType) (b : Bytes) : Option Req :=
  match t with
  | .diAppStart => (R.decAppStart b).map .appStart
  | .diSetHmac => (R.decSetHmac b).map .setHmac
  | .diunConnect => (R.decConnect b).map .connect
  | .diunRequestKeyParameters => if R.decRequestKey b then some .requestKey else none
  | .diunProvideKey => (R.decProvideKey b).map fun x => .provideKey x.1 x.2
  | _ => none

variable (B : MStore) (cfg : Config R)

/-! ### DIUN -/

/-- The signed Accept (diun.rs:68-92). -/
def acceptToken (d : Diun R) (nonce kexA : Bytes) : Res Err Bytes := do
  let (prot, sig) ← ofOpt .crypto (R.signNonce d.key nonce (R.encAccept kexA))
  liftP (Cbor.serialize ⟨some 18, [R.E.encBytes prot, R.encKeyUnprot d.pub, R.E.encBytes (R.encAccept kexA),
    R.E.encBytes sig]⟩)

/-- `connect` (diun.rs:34-100). -/
def connect (o : Oracle R) (m : Connect) (s : Data R) : Res Err (Resp × Data R) :=
  match cfg.diun with
  | none => .err .inconsistentValue
  | some d =>
    match o.kex with
    | none => .err .crypto
    | some (key, random) => do
      let k ← (OwnerServer.newKex m.kex key random).deriveKey .owner m.cipher o.nonInterop m.keyExchange
      let token ← acceptToken R d m.nonce (OwnerServer.newKex m.kex key random).getPublic
      pure (.accept token, { s with diunKeys := some ⟨m.cipher, k⟩ })

/-- `request_key_parameters` (diun.rs:102-157): the keys become those of the session. -/
def requestKey (s : Data R) : Res Err (Resp × Data R × Option Http.Keys) :=
  match cfg.diun with
  | none => .err .inconsistentValue
  | some d =>
    match s.diunKeys with
    | none => .err .inconsistentValue
    | some k => .ok (.keyParameters d.keyType (if d.storage.isEmpty then none else some d.storage),
        { s with diunKeys := none }, some k)

/-- `provide_key` (diun.rs:159-189). The key and its storage type are not compared with what was asked for. -/
def provideKey (key : Bytes) (s : Data R) : Res Err (Resp × Data R) :=
  match cfg.diun with
  | none => .err .inconsistentValue
  | some d => .ok (.diunDone d.stringType, { s with deviceKey := some key, performed := true })

/-! ### DI -/

/-- `fail_if_no_di_and_not_from_diun` (di.rs:26-46). -/
def admitted (s : Data R) : Bool := cfg.enableDi || s.performed

/-- The device's public key in DER form (di.rs:75-95): from DIUN in this session, else from the key store. -/
def deviceKeyDer (o : Oracle R) (info : String) (s : Data R) : Res Err Bytes :=
  match s.deviceKey with
  | some k => .ok k
  | none =>
    if cfg.keyStore then
      match o.keys info.toList with
      | .ok (some k) => .ok k
      | .ok none => .err .emptyData
      | .err _ => .err .emptyData
      | .panic => .panic
    else .err .emptyData

/-- `create_device_certificate` (di.rs:166-198), for the first certificate of the CA's chain
(`leaf_certificate().unwrap()`, di.rs:99-103). -/
def deviceCert (o : Oracle R) (info : String) (key : R.C.Key) : Res Err R.C.Cert :=
  match (R.certs cfg.caChain).head? with
  | none => .panic
  | some ca =>
    match o.serial with
    | none => .err .crypto
    | some n => ofOpt .crypto (R.build ⟨info, ca, o.now, n, key⟩ cfg.caKey)

/-- Concatenated DER form of certificates (di.rs:112-121). -/
def derOf : List R.C.Cert → Option Bytes
  | [] => some []
  | x :: r =>
    match R.der x, derOf r with
    | some a, some b => some (a ++ b)
    | _, _ => none

/-- The new header (di.rs:112-140): version 1.1, with the hash of the certificates. -/
def newHeader (guid : Bytes) (info : String) (certs : List R.C.Cert) : Res Err (Header R.E) := do
  let der ← ofOpt .crypto (derOf R certs)
  let h ← R.E.hashData .sha384 der
  let pub ← ofOpt .crypto (R.certPub cfg.mfgCert)
  pure (Header.new R.E 101 guid cfg.rv (R.trim info) pub (some h))

/-- `app_start` (di.rs:51-158). The header is kept in the session in hex form. A GUID has 16 bytes
(`Guid::new`, types.rs:309-311). -/
def appStart (o : Oracle R) (raw : Bytes) (s : Data R) : Res Err (Resp × Data R) :=
  if !admitted R cfg s then .err .inconsistentValue
  else match R.decMfgInfo raw with
    | none => .err .serde
    | some none => .err .inconsistentValue
    | some (some info) => do
      let der ← deviceKeyDer R cfg o info s
      let key ← ofOpt .crypto (R.keyFromDer der)
      let cert ← deviceCert R cfg o info key
      match o.guid with
      | none => .err .crypto
      | some g =>
        if g.length ≠ 16 then .err .crypto
        else do
          let header ← newHeader R cfg g info (cert :: R.certs cfg.caChain)
          let hb ← Header.serialize R.E header
          pure (.setCredentials hb,
            { s with header := some (hexEncode hb), chain := some (R.mkChain (cert :: R.certs cfg.caChain)) })

/-- The voucher made by `set_hmac` (di.rs:240-257): extended to the owner if there is a manufacturer key
(`owner_cert.as_ref().unwrap()`). -/
def issue (header : Header R.E) (hmac : Hash) (chain : R.E.Chain) : Res Err (Voucher R.E) := do
  let v ← Voucher.new header hmac (some chain)
  match cfg.mfgKey with
  | none => pure v
  | some k =>
    match cfg.owner with
    | none => .panic
    | some next =>
      match Voucher.extend c v k none next with
      | (v', .ok ()) => pure v'
      | (_, .err e) => .err e
      | (_, .panic) => .panic

/-- The voucher and its GUID for a session (di.rs:208-257). -/
def sessionVoucher (hmac : Hash) (s : Data R) : Res Err (Bytes × Voucher R.E) :=
  match s.header with
  | none => .err .inconsistentValue
  | some t => do
    let hb ← ofOpt .serde (hexDecode t)
    let header ← Header.deserialize R.E c hb
    match s.chain with
    | none => .err .inconsistentValue
    | some ch => do
      let v ← issue R c cfg header hmac ch
      pure (header.guid, v)

/-- `set_hmac` (di.rs:200-265). A voucher that cannot be written is not stored (the directory store would
leave a temporary file). -/
def setHmac (hmac : Hash) (s : Data R) (w : B.W) : B.W × Res Err (Resp × Data R) :=
  if !admitted R cfg s then (w, .err .inconsistentValue)
  else match sessionVoucher R c cfg hmac s with
    | .err e => (w, .err e)
    | .panic => (w, .panic)
    | .ok (g, v) =>
      match Voucher.serialize v with
      | .err e => (w, .err e)
      | .panic => (w, .panic)
      | .ok b =>
        match B.put w (guidText g) b with
        | (w, .ok ()) => (w, .ok (.done, s))
        | (w, .err _) => (w, .err .inconsistentValue)
        | (w, .panic) => (w, .panic)

/-- Answers of handlers which leave the keys alone. -/
def keep (k : Option Http.Keys) : Res Err (Resp × Data R) → Res Err (Resp × Data R × Option Http.Keys)
  | .ok (r, s) => .ok (r, s, k)
  | .err e => .err e
  | .panic => .panic

/-- The handlers of the manufacturing server (main.rs:371-402). -/
def handleRes (o : Oracle R) (r : Req) (s : Data R) (k : Option Http.Keys) (w : B.W) :
    B.W × Res Err (Resp × Data R × Option Http.Keys) :=
  match r with
  | .appStart info => (w, keep R k (appStart R cfg o info s))
  | .setHmac m => ((setHmac R c B cfg m s w).1, keep R k (setHmac R c B cfg m s w).2)
  | .connect m => (w, keep R k (connect R cfg o m s))
  | .requestKey => (w, requestKey R cfg s)
  | .provideKey key _ => (w, keep R k (provideKey R cfg key s))

/-- Errors and panics reject the request. -/
def answer {α : Type} : Res Err α → Option α
  | .ok a => some a
  | _ => none

/-- The manufacturing server. -/
abbrev server (Id : Type) [DecidableEq Id] (idOf : List Char → Option Id) (aead : Http.Aead)
    (encode : Resp → Bytes) : Http.Server where
  S := Data R
  W := B.W
  Req := Req
  Resp := Resp
  Oracle := Oracle R
  Id := Id
  idEq := inferInstance
  aead := aead
  idOf := idOf
  init := ⟨none, none, false, none, none⟩
  routes := mfgRoutes
  decode := decode R
  encode := encode
  handle o _ r s k w := ((handleRes R c B cfg o r s k w).1, answer (handleRes R c B cfg o r s k w).2)

/-! ### Fetching vouchers -/

/-- What the handlers below answer: a voucher's bytes (`to_pem` is base64 of these), several, nothing found,
or an error. -/
inductive Fetched where
  | voucher (b : Bytes)
  | archive (l : List Bytes)
  | notFound
  | reject
  deriving DecidableEq, Repr

/-- `GET /ov/<guid>` (main.rs:278-319): `ov.unwrap()` panics when there is no such voucher. `readOk` says
whether the bytes are a voucher. -/
def getOv (readOk : Bytes → Bool) (now : Nat) (path : List Char) (w : B.W) : B.W × Res Err Fetched :=
  match RvServer.parseGuid path with
  | none => (w, .ok .reject)
  | some g =>
    match B.load now w (guidText g) with
    | (w, .ok (some b)) => (w, .ok (if readOk b then .voucher b else .reject))
    | (w, .ok none) => (w, .panic)
    | (w, .err _) => (w, .ok .reject)
    | (w, .panic) => (w, .panic)

/-- `POST /export` (main.rs:321-368): all vouchers as an archive, one file per voucher. -/
def exportAll (readOk : Bytes → Bool) (ls : List Name) (w : B.W) : Res Err Fetched :=
  match B.all ls w with
  | .ok l =>
    if !l.all readOk then .ok .reject
    else if l.isEmpty then .ok .notFound
    else .ok (.archive l)
  | .err _ => .ok .reject
  | .panic => .panic

/-- What happens to the store besides requests of devices: maintenance (main.rs:147-171), at a time and over a
directory listing, and fetching of vouchers. (Export does not change the store.) -/
inductive Move where
  | maintain (now : Nat) (ls : List Name)
  | fetch (now : Nat) (path : List Char)

/-- Effect of a `Move`. -/
def move (m : Move) (w : B.W) : B.W :=
  match m with
  | .maintain now ls => B.maintain now ls w
  | .fetch now path => (getOv B (fun _ => true) now path w).1

end Verif.MfgServer

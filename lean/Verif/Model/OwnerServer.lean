import Verif.Model.RvServer
import Verif.Model.ServiceInfo
/-!
Model of the owner onboarding server (`owner-onboarding-server/src`): TO2 on top of the HTTP layer, and the
reporting of vouchers to rendezvous servers (TO0, client side).

Errors and panics of a handler both reject the request. Vouchers are read again from the store by each
handler, as in the code.
-/
namespace Verif.OwnerServer
open Verif Verif.Voucher Verif.Store Verif.Types Verif.ServiceInfo

/-- `DeviceSigType` (constants/mod.rs), as far as it matters. -/
inductive SigType where
  | es256
  | es384
  | other
  deriving DecidableEq, Repr

/-- `HelloDevice` (messages/v11/to2.rs:18-71), without the message size limit, which is not looked at. -/
structure Hello where
  guid : Bytes
  nonce5 : Bytes
  kex : KexSuite
  cipher : CipherSuite
  sigType : SigType
  sigInfo : Bytes

/-- External functions used by the owner server, besides those of the rendezvous server's model. -/
structure OwnerEnv extends RvServer.RvEnv where
  /-- `X509::public_key` (OpenSSL) as used to verify COSE signatures -/
  leafKey : C.Cert → Option E.Pub
  K : KexEnv
  /-- serde for `u16`, `Nonce` and `SigInfo` (with empty info) -/
  encU16 : Nat → Bytes
  decU16 : Bytes → Option Nat
  encNonce : Bytes → Bytes
  encSig : SigType → Bytes
  decSig : Bytes → Option SigType
  /-- serde for `u32`, and `TO1DataPayload` with the owner's addresses -/
  encU32 : Nat → Bytes
  encTo1 : Hash → Bytes
  /-- the unprotected header with `CUPHNonce` and `CUPHOwnerPubKey` (types.rs:1692-1729), and lookups in an
  unprotected header: `none` for a value of the wrong type, `some none` for an absent one -/
  encUnprot : Bytes → E.Pub → Bytes
  cuphNonce : Bytes → Option (Option Bytes)
  cuphOwner : Bytes → Option (Option E.Pub)
  euphNonce : Bytes → Option (Option Bytes)
  /-- serde for the FDO claim as `TO2ProveDevicePayload` (types.rs:719-733): the device's key exchange value -/
  decProve : Bytes → Option Bytes
  /-- serde for `TO2SetupDevicePayload` (types.rs:679-717) with empty rendezvous info: GUID, nonce, key -/
  encSetup : Bytes → Bytes → E.Pub → Bytes
  /-- serde for messages -/
  decHello : Bytes → Option Hello
  decGetEntry : Bytes → Option Nat
  decReady : Bytes → Bool
  decDeviceSi : Bytes → Option ServiceInfo
  decDone : Bytes → Option Bytes
  /-- serde for service info values -/
  encVal : Val → Bytes
  decVal : Bytes → Option Val
  /-- the directives of the rendezvous info, how they are read, and `Display for IPAddress` -/
  D : Rendezvous.Dec
  directives : E.Rv → List Rendezvous.Directive
  showIp : Bytes → String

variable (R : OwnerEnv) (c : Bool)

/-! ### Messages -/

/-- `OwnershipVoucher::header_raw` (ownershipvoucher.rs:322-326). -/
def headerRaw (v : Voucher R.E) : Res Err Bytes := getLeaf R.E.decBytes v.contents 1

/-- `MAX_MESSAGE_SIZE`, `(2 ^ 16) - 1` where `^` is exclusive or (messages/v11/to2.rs:16). -/
def maxMessageSize : Nat := Nat.xor 2 16 - 1

/-- `TO2ProveOVHdrPayload` (types.rs:837-848). -/
structure ProveHdr where
  header : Bytes
  num : Nat
  hmac : Hash
  nonce5 : Bytes
  sig : SigType
  kexA : Bytes
  helloHash : Hash

/-- `TO2ProveOVHdrPayload::new` and writing it (types.rs:885-929). -/
def encProveHdr (p : ProveHdr) : Res Err Bytes :=
  liftP (Cbor.serialize ⟨none, [R.E.encBytes p.header, R.encU16 p.num, R.E.encHash p.hmac, R.encNonce p.nonce5,
    R.encSig p.sig, R.E.encBytes p.kexA, R.E.encHash p.helloHash, R.encU16 maxMessageSize]⟩)

variable {R} in
/-- `COSESign::new` with an unprotected header (types.rs:1796-1815) followed by `serialize_data`. -/
def signRawU (k : R.E.Priv) (unprot payload : Bytes) : Res Err Bytes := do
  let (prot, sig) ← ofOpt .crypto (R.E.sign k payload)
  liftP (Cbor.serialize ⟨some 18, [R.E.encBytes prot, unprot, R.E.encBytes payload, R.E.encBytes sig]⟩)

variable {R} in
/-- `OwnershipVoucher::entry` (ownershipvoucher.rs:247-249), written again as part of the reply: out of range
panics (`check_bounds!`, cborparser.rs:481-487); the entry is read as `COSESign` and its elements are
written with a fresh tag and array head (types.rs:1739-1783). -/
def entry (v : Voucher R.E) (n : Nat) : Res Err Bytes :=
  match v.entries.contents[n]? with
  | none => .panic
  | some raw => do
    let _ ← parseSign1 R.E c raw
    let (a, _) ← liftP (Cbor.deserialize c (some 4) raw)
    liftP (Cbor.serialize a)

/-- `KeyExchange::new` (types.rs:1004-1023) for a chosen key and (for ECDH) a chosen random. -/
def newKex {K : KexEnv} (suite : KexSuite) (key : K.Key) (random : Bytes) : KeyExchange K :=
  if suite.isEcdh then .ecdh suite key random else .dh suite key

/-! ### Sessions and stores -/

/-- Session data (handlers.rs); a missing entry is `none` (`false` for `proven_device`). -/
structure Data where
  guid : Option (List Char)
  nonce6 : Option Bytes
  nonce7 : Option Bytes
  kex : Option (KeyExchange R.K)
  cipher : Option CipherSuite
  proven : Bool
  loops : Option Nat

/-- A store for vouchers as the owner server uses it. -/
structure VStore (V : Type) where
  W : Type
  empty : W
  load : Nat → W → Name → W × Res SErr (Option V)
  put : W → Name → V → W × Res SErr Unit
  /-- `store_metadata(To2Performed, true)` -/
  setTo2 : Nat → W → Name → W × Res SErr Unit
  /-- `store_metadata(To0AcceptOwnerWaitSeconds, seconds from now)` -/
  setWait : Nat → W → Name → Nat → W × Res SErr Unit
  maintain : Nat → List Name → W → W
  /-- vouchers to be reported (main.rs:119-159), for the clock and a directory listing -/
  pending : Nat → List Name → W → Res SErr (List V)
  /-- vouchers whose registration ends before a time in seconds (main.rs:161-171) -/
  ending : Int → W → Res SErr (List V)
  /-- `window_check_enabled` (main.rs:486-493) -/
  windowCheck : Bool

/-- The directory store. -/
abbrev dirStore {V : Type} (ser : V → Bytes) (de : Bytes → Option V) : VStore V where
  W := Dir
  empty := fun _ => none
  load now d k := Store.load de now d k
  put d k v := Store.store d k [ser v]
  setTo2 now d k := Store.setMeta now d k to2Key (.flag true)
  setWait now d k s := Store.setMeta now d k to0Key (.after ((s : Int) * (second : Int)))
  maintain now ls d := (Store.maintain now d ls).1
  pending now ls d := pendingDir de now d ls
  ending _ _ := .err .methodNotAvailable
  windowCheck := false

/-- The database store for owner servers. -/
abbrev dbVStore {V : Type} (ser : V → Bytes) (de : Bytes → Option V) : VStore V where
  W := Table
  empty := []
  load _ t k := (t, dbLoad de t k)
  put t k v := dbStore t k (ser v)
  setTo2 now t k := dbSetMeta .owner now t k to2Key (.flag true)
  setWait now t k s := dbSetMeta .owner now t k to0Key (.after ((s : Int) * (second : Int)))
  maintain now _ t := dbMaintain .owner now t
  pending now _ t := pendingDb de now t
  ending max t := dbQueryTo2To0 de t false max
  windowCheck := true

/-- Inputs of a handler: clock, random choices (`none`: no randomness), the key exchange key with its random,
whether the request asks for the non-interoperable KDF (header `X-Non-Interoperable-KDF`, after the
availability check), and the service info API (query string to reply). -/
structure Oracle where
  now : Nat
  nonce6 : Option Bytes
  kex : Option (R.K.Key × Bytes)
  newGuid : Option Bytes
  nonInterop : Bool
  api : List Char → Option ApiReply

/-- Decoded requests. `hello` comes with its hash (`RequestInformation::req_hash`, http-wrapper
server.rs:461: SHA-256 of the body). -/
inductive Req where
  | hello (m : Hello) (body : Bytes)
  | getEntry (n : Nat)
  | prove (token : Bytes)
  | ready
  | deviceSi (si : ServiceInfo)
  | done (nonce6 : Bytes)

/-- Responses. Signed ones are the bytes of the `COSESign`. -/
inductive Resp where
  | proveOvHdr (token : Bytes)
  | ovEntry (n : Nat) (entry : Bytes)
  | setupDevice (token : Bytes)
  | ownerReady
  | ownerSi (m : OwnerSi)
  | done2 (nonce7 : Bytes)

/-- Decoding of request bodies by message type. -/
def decode (t : MsgType) (b : Bytes) : Option Req :=
  match t with
  | .to2HelloDevice => (R.decHello b).map fun m => .hello m b
  | .to2GetOVNextEntry => (R.decGetEntry b).map .getEntry
  | .to2ProveDevice =>
    match parseSign1 R.E c b with
    | .ok _ => some (.prove b)
    | _ => none
  | .to2DeviceServiceInfoReady => if R.decReady b then some .ready else none
  | .to2DeviceServiceInfo => (R.decDeviceSi b).map .deviceSi
  | .to2Done => (R.decDone b).map .done
  | _ => none

/-- Keys and configuration of the server (main.rs:50-77). -/
structure Config where
  ownerKey : R.E.Priv
  ownerPub : R.E.Pub
  owner2Key : R.E.Priv
  owner2Pub : R.E.Pub
  deviceKeys : Option (List R.C.Cert)
  period : Nat
  window : Nat

variable (B : VStore (Voucher R.E)) (cfg : Config R)

/-- The signed proof of `hello_device` (handlers.rs:78-113). -/
def proveHdrToken (v : Voucher R.E) (m : Hello) (body nonce6 : Bytes) (kx : KeyExchange R.K) : Res Err Bytes := do
  let raw ← headerRaw R v
  let hash ← R.E.hashData .sha256 body
  let payload ← encProveHdr R ⟨raw, numEntries v, v.hmac, m.nonce5, m.sigType, kx.getPublic, hash⟩
  signRawU cfg.ownerKey (R.encUnprot nonce6 cfg.ownerPub) payload

/-- The end of `hello_device` (handlers.rs:69-119), for a voucher that was found. -/
def helloReply (o : Oracle R) (m : Hello) (body : Bytes) (v : Voucher R.E) (k : Name) (s : Data R) :
    Option (Resp × Data R) :=
  if m.sigType = .other ∨ m.sigInfo ≠ [] then none
  else match o.kex, o.nonce6 with
    | some (key, random), some n =>
      match proveHdrToken R cfg v m body n (newKex m.kex key random) with
      | .ok token => some (.proveOvHdr token, { s with
          guid := some k, nonce6 := some n, cipher := some m.cipher, kex := some (newKex m.kex key random) })
      | _ => none
    | _, _ => none

/-- `hello_device` (handlers.rs:23-119). -/
def helloDevice (o : Oracle R) (m : Hello) (body : Bytes) (s : Data R) (w : B.W) : B.W × Option (Resp × Data R) :=
  match RvServer.guidKey m.guid with
  | none => (w, none)
  | some k =>
    match B.load o.now w k with
    | (w, .ok (some v)) => (w, helloReply R cfg o m body v k s)
    | (w, _) => (w, none)

/-- `get_ov_next_entry` (handlers.rs:121-162). -/
def getEntry (o : Oracle R) (n : Nat) (s : Data R) (w : B.W) : B.W × Option (Resp × Data R) :=
  match s.guid.bind RvServer.parseGuid with
  | none => (w, none)
  | some g =>
    match B.load o.now w (guidText g) with
    | (w, .ok (some v)) =>
      match entry c v n with
      | .ok e => (w, some (.ovEntry n e, s))
      | _ => (w, none)
    | (w, _) => (w, none)

/-- The device's key according to a voucher (handlers.rs:236-262): that of the first certificate of the
chain; the chain is not verified here. -/
def voucherKey (v : Voucher R.E) : Option R.E.Pub :=
  match v.chain with
  | none => none
  | some ch =>
    match (R.certs ch).head? with
    | none => none
    | some leaf => R.leafKey leaf

/-- What `prove_device` takes from the token (handlers.rs:264-301): nonce7 from the unprotected header (its
wrong type and absence both reject), then the signature, the payload and the nonce are checked. The result is
nonce7 and the device's key exchange value. -/
def checkToken (token : Bytes) (k : R.E.Pub) (n6 : Bytes) : Option (Bytes × Bytes) :=
  match parseSign1 R.E c token with
  | .ok s =>
    match R.euphNonce s.unprot with
    | some (some n7) =>
      match RvServer.getEat R.toRvEnv c token k with
      | .ok eat =>
        match eat.payload.bind R.decProve with
        | some b => if eat.nonce ≠ n6 then none else some (n7, b)
        | none => none
      | _ => none
    | _ => none
  | _ => none

/-- The reply of `prove_device` (handlers.rs:332-346). -/
def setupToken (newGuid n7 : Bytes) : Res Err Bytes :=
  signRaw R.E cfg.owner2Key (R.encSetup newGuid n7 cfg.owner2Pub)

/-- `prove_device` once the voucher is loaded (handlers.rs:236-355). -/
def proveWith (o : Oracle R) (token : Bytes) (n6 : Bytes) (kx : KeyExchange R.K) (cs : CipherSuite)
    (v : Voucher R.E) (s : Data R) : Option (Resp × Data R × Option Http.Keys) :=
  match voucherKey R v with
  | none => none
  | some k =>
    match checkToken R c token k n6 with
    | none => none
    | some (n7, b) =>
      match kx.deriveKey .owner cs o.nonInterop b with
      | .ok key =>
        match o.newGuid with
        | none => none
        | some g2 =>
          match setupToken R cfg g2 n7 with
          | .ok t => some (.setupDevice t,
              { s with kex := none, cipher := none, nonce7 := some n7, proven := true }, some ⟨cs, key⟩)
          | _ => none
      | _ => none

/-- `prove_device` (handlers.rs:164-355). -/
def proveDevice (o : Oracle R) (token : Bytes) (s : Data R) (w : B.W) :
    B.W × Option (Resp × Data R × Option Http.Keys) :=
  match s.guid.bind RvServer.parseGuid, s.nonce6, s.kex, s.cipher with
  | some g, some n6, some kx, some cs =>
    match B.load o.now w (guidText g) with
    | (w, .ok (some v)) => (w, proveWith R c cfg o token n6 kx cs v s)
    | (w, _) => (w, none)
  | _, _, _, _ => (w, none)

/-- `MAX_SERVICE_INFO_LOOPS` (handlers.rs:387). -/
def maxLoops : Nat := 1000

/-- `device_service_info` (handlers.rs:389-474). -/
def deviceSi (o : Oracle R) (si : ServiceInfo) (s : Data R) : Option (Resp × Data R) :=
  if !s.proven then none
  else match s.guid.bind RvServer.parseGuid with
    | none => none
    | some g =>
      if s.loops.getD 0 > maxLoops then none
      else match perform R.encVal R.decVal o.api (guidText g) si (s.loops.getD 0) with
        | none => none
        | some m => some (.ownerSi m, { s with loops := some (s.loops.getD 0 + 1) })

/-- `done` (handlers.rs:586-664). `destroy()` has no effect on the stored session (`Model/Http`). -/
def doneTo2 (o : Oracle R) (n : Bytes) (s : Data R) (w : B.W) : B.W × Option (Resp × Data R) :=
  if !s.proven then (w, none)
  else match s.nonce6 with
    | none => (w, none)
    | some n6 =>
      if n6 ≠ n then (w, none)
      else match s.guid.bind RvServer.parseGuid, s.nonce7 with
        | some g, some n7 =>
          match B.setTo2 o.now w (guidText g) with
          | (w, .ok ()) => (w, some (.done2 n7, { s with nonce7 := none }))
          | (w, _) => (w, none)
        | _, _ => (w, none)

/-- Answers of handlers which leave the keys alone. -/
def keep (k : Option Http.Keys) : Option (Resp × Data R) → Option (Resp × Data R × Option Http.Keys)
  | none => none
  | some (r, s) => some (r, s, k)

/-- The handlers of the owner server (main.rs:560-600). -/
def handle (o : Oracle R) (r : Req) (s : Data R) (k : Option Http.Keys) (w : B.W) :
    B.W × Option (Resp × Data R × Option Http.Keys) :=
  match r with
  | .hello m body => ((helloDevice R B cfg o m body s w).1, keep R k (helloDevice R B cfg o m body s w).2)
  | .getEntry n => ((getEntry R c B o n s w).1, keep R k (getEntry R c B o n s w).2)
  | .prove token => proveDevice R c B cfg o token s w
  | .ready => (w, if s.proven then some (.ownerReady, s, k) else none)
  | .deviceSi si => (w, keep R k (deviceSi R o si s))
  | .done n => ((doneTo2 R B o n s w).1, keep R k (doneTo2 R B o n s w).2)

/-- The owner onboarding server. -/
abbrev server (Id : Type) [DecidableEq Id] (idOf : List Char → Option Id) (aead : Http.Aead)
    (encode : Resp → Bytes) : Http.Server where
  S := Data R
  W := B.W
  Req := Req
  Resp := Resp
  Oracle := Oracle R
  Id := Id
  idEq := inferInstance
  aead := aead
  idOf := idOf
  init := ⟨none, none, none, none, none, false, none⟩
  routes := ownerRoutes
  decode := decode R c
  encode := encode
  handle o _ r s k w := handle R c B cfg o r s k w

/-! ### Reporting to rendezvous servers -/

/-- `TO0Data::new` and writing it (types.rs:614-640). -/
def buildTo0d (v : Voucher R.E) (period : Nat) (nonce3 : Bytes) : Res Err Bytes := do
  let raw ← Voucher.serialize v
  liftP (Cbor.serialize ⟨none, [raw, R.encU32 period, R.encNonce nonce3]⟩)

/-- What is sent in OwnerSign (main.rs:283-293). -/
def buildOwnerSign (v : Voucher R.E) (nonce3 : Bytes) : Res Err (Bytes × Bytes) := do
  let to0d ← buildTo0d R v cfg.period nonce3
  let h ← R.E.hashData .sha384 to0d
  let to1d ← signRaw R.E cfg.ownerKey (R.encTo1 h)
  pure (to0d, to1d)

variable {R}

/-- What `report_ov_to_rendezvous` returned for a voucher, with the clock when the result was stored;
see `Model/To0` for the function itself. -/
abbrev Outcome (R : OwnerEnv) := Voucher R.E → Option (Nat × Nat)

/-- The loops of main.rs:86-117, 139-151 and 172-207: the granted time is stored; a failing store ends the
loop. -/
def reportLoop (rv : Outcome R) : B.W → List (Voucher R.E) → B.W
  | w, [] => w
  | w, v :: r =>
    match rv v with
    | none => reportLoop rv w r
    | some (now, wait) =>
      match RvServer.guidKey v.header.guid with
      | none => w
      | some k =>
        match B.setWait now w k wait with
        | (w, .ok ()) => reportLoop rv w r
        | (w, _) => w

/-- The vouchers `report_to_rendezvous` reports (main.rs:119-159); errors of the query report none. -/
def toReport (now : Nat) (ls : List Name) (w : B.W) : List (Voucher R.E) :=
  match B.pending now ls w with
  | .ok l => l
  | _ => []

/-- The vouchers `check_registration_window` reports (main.rs:161-171). -/
def toRenew (now : Nat) (w : B.W) : List (Voucher R.E) :=
  if B.windowCheck then
    match B.ending (((now / second : Nat) : Int) + (cfg.window : Int)) w with
    | .ok l => l
    | _ => []
  else []

/-- Internal moves: a voucher is imported under its GUID, vouchers are reported on demand (main.rs:119-159,
handlers.rs:671-682), or a round of maintenance (main.rs:317-350), whose parts are taken to happen one after
the other: store maintenance, reporting, and the window check (with its own clock). -/
inductive Move (R : OwnerEnv) where
  | import (v : Voucher R.E)
  | report (now : Nat) (ls : List Name) (rv : Outcome R)
  | round (now : Nat) (ls : List Name) (rv : Outcome R) (now' : Nat) (rv' : Outcome R)

/-- Importing a voucher: it is stored under its own GUID. -/
def importV (v : Voucher R.E) (w : B.W) : B.W :=
  match RvServer.guidKey v.header.guid with
  | none => w
  | some k => (B.put w k v).1

/-- Effect of internal moves. -/
def move (m : Move R) (w : B.W) : B.W :=
  match m with
  | .import v => importV B v w
  | .report now ls rv => reportLoop B rv w (toReport B now ls w)
  | .round now ls rv now' rv' =>
    let w := B.maintain now ls w
    let w := reportLoop B rv w (toReport B now ls w)
    reportLoop B rv' w (toRenew B cfg now' w)

/-- Defaults (main.rs:44-46) and startup checks of period and window (main.rs:438-475): `none` aborts. -/
def startupTimes (period window : Option Nat) : Option (Nat × Nat) :=
  let p := period.getD 600
  let w := window.getD 61
  if period = some 0 then none
  else if window = some 0 then none
  else if window.isSome ∧ w ≤ 60 then none
  else if w ≥ p then none
  else some (p, w)

end Verif.OwnerServer

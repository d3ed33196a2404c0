import Verif.Model.NetClient
import Verif.Model.OwnerServer
import Verif.Model.Credential
import Verif.Model.SiClient
/-!
Model of the device's onboarding client (`client-linuxapp/src/main.rs`): TO1 with rendezvous servers, TO2 with the owner's
server, service info (`Model/SiClient`), and what is done afterwards. It is a program whose surroundings may answer anything.
Environment variables do not change while it runs.
-/
namespace Verif

/-- Changing the errors of a program. -/
def Proc.mapErr {S : Sig} {ε ε' α : Type} (f : ε → ε') (p : Proc S ε α) : Proc S ε' α :=
  Prog.bind p fun
    | .ok a => .ret (.ok a)
    | .err e => .ret (.err (f e))
    | .panic => .ret .panic

namespace Http
variable {X : Sig} {R : Type}

/-- The client after a request that was not sent (client.rs:181-216): `last_message_type` is advanced after the two checks of
the sequence, see `send`. -/
def refused (c : Client) (sm : MsgType) : CErr → Client
  | .invalidSequenceRequest => c
  | .invalidSequenceResponse => c
  | _ => { c with last := some sm }

/-- The end of `send_request`, see `received`. -/
def receivedQ : Client × Res CErr R → Proc (netSig X) (Client × CErr) (Client × R)
  | (c, .ok m) => pure (c, m)
  | (c, .err e) => Proc.fail (c, e)
  | (_, .panic) => Prog.ret .panic

/-- `ServiceClient::send_request` (client.rs:168-304) as `sendP`, but the client's state is also returned after an error. -/
def sendQ (A : Aead) (dec : Bytes → Option R) (c : Client) (om sm : MsgType) (plain : Bytes)
    (newKeys : Option (Option Keys)) : Proc (netSig X) (Client × CErr) (Client × R) :=
  match precheck c om sm newKeys with
  | some e => Proc.fail (refused c sm e, e)
  | none => do
    let iv ← Proc.ask (S := netSig X) .iv
    let body ← Proc.some? ({ c with last := some sm }, .encrypt) (encryptWith A c.keys iv plain)
    let r ← Proc.ask (S := netSig X) (.net ⟨om, c.token, body⟩)
    let r ← Proc.some? (({ c with last := some sm } : Client).setKeys newKeys, .network) (r : Option NetReply)
    receivedQ (receive A dec (({ c with last := some sm } : Client).setKeys newKeys) sm r)

end Http

namespace Device
open Verif Verif.Voucher Verif.Types Verif.ServiceInfo Verif.Fs

/-- `TransportProtocol` (constants/mod.rs), as far as it matters. -/
inductive Transport where
  | http
  | https
  | other
  deriving DecidableEq, Repr

/-- `TO2AddressEntry` (types.rs:544-550). -/
structure Addr where
  ip : Option Bytes
  dns : Option String
  port : Nat
  protocol : Transport

/-- Why TO1 or TO2 fails, or the client as a whole. -/
inductive DevErr where
  | http (e : Http.CErr)
  | data (e : Err)
  | random
  | sigInfo
  | nonce
  | entry
  | signature
  | missing
  | serviceInfo
  | marker
  | deactivate
  | io
  | version
  | rendezvous
  /-- the number of rounds looked at is over (the client goes on for ever) -/
  | rounds
  deriving DecidableEq, Repr

/-- External functions used by the client, besides those of the owner server's model. -/
structure DevEnv extends OwnerServer.OwnerEnv where
  H : Credential.Keys
  codec : Credential.Codec
  /-- serde for messages of TO1 (messages/v11/to1.rs): `HelloRV` for a GUID, signature type P-384 and no signature info;
  `HelloRVAck` with its nonce, signature type and info -/
  encHelloRv : Bytes → Bytes
  decHelloAck : Bytes → Option (Bytes × OwnerServer.SigType × Bytes)
  /-- serde for the addresses in `TO1DataPayload` (types.rs:656-660) -/
  decAddrs : Bytes → Option (List Addr)
  /-- serde for the claims of an entity attestation token (types.rs:1556-1575): nonce, UEID and FDO claim. The order of
  the claims is that of a hash map; here it is up to this function. -/
  encClaims : Bytes → Bytes → Option Bytes → Bytes
  /-- serde for `TO2ProveDevicePayload` (types.rs:719-733), and the unprotected header with `EUPHNonce` -/
  encProve : Bytes → Bytes
  encEuph : Bytes → Bytes
  /-- serde for `SigInfo` -/
  decSigInfo : Bytes → Option (OwnerServer.SigType × Bytes)
  /-- serde for messages of TO2 (messages/v11/to2.rs) -/
  encHello : OwnerServer.Hello → Bytes
  encGetEntry : Nat → Bytes
  encReady : Bytes
  decOwnerReady : Bytes → Option Unit
  encDeviceSi : ServiceInfo → Bytes
  decOwnerSi : Bytes → Option OwnerSi
  encDone : Bytes → Bytes
  decDone2 : Bytes → Option Bytes
  /-- serde for `ErrorMessage` (messages/v11/error.rs); code, text and message type depend on the error, the id is random -/
  encError : DevErr → Bytes → Bytes
  decError : Bytes → Option Unit

variable (R : DevEnv)

/-- Effects besides the network. `connect` marks that a client for a URL is made (`ServiceClient::new`, main.rs:148-151, 858):
requests after it go there. Others: `Nonce::new`, `KeyExchange::new` (types.rs:1004-1023), `Uuid::new_v4`, a COSE signature
of a payload with the credential's key (by OpenSSL or a TPM), what service info asks of the host, file operations,
`sleep_between_retries` (main.rs:1078-1083) for a configured delay, `perform_required_reencrypts` (reencrypt.rs, not modelled), and
`systemctl reboot`. -/
inductive Op where
  | connect (url : String)
  | nonce
  | kex
  | uuid
  | sign (payload : Bytes)
  | host (m : SiModule) (op : SiClient.Op)
  | fs (o : Fs.Op)
  | sleep (delay : Nat)
  | reencrypt
  | reboot

/-- Answers; `none` and `false` are failures. A signature comes with its protected header. For the reboot: `none` if the program
cannot be started, `false` if waiting for it fails. -/
def Op.Ans : Op → Type
  | .connect _ => Unit
  | .nonce => Option Bytes
  | .kex => Option (R.K.Key × Bytes)
  | .uuid => Bytes
  | .sign _ => Option (Bytes × Bytes)
  | .host _ op => op.Ans
  | .fs o => o.Ans
  | .sleep _ => Unit
  | .reencrypt => Bool
  | .reboot => Option Bool

/-- Signature of the client's own effects, and of all its effects. -/
abbrev ops : Sig := ⟨Op, Op.Ans R⟩
abbrev sig : Sig := Http.netSig (ops R)

variable {R}

/-- Steps of TO1 and TO2: an error comes with the state of the HTTP client, since an error message is sent with it. -/
abbrev Step (R : DevEnv) (α : Type) := Proc (sig R) (Http.Client × DevErr) α

/-- Errors of data formats. -/
def liftD {α : Type} : Res Err α → Res DevErr α
  | .ok a => .ok a
  | .err e => .err (.data e)
  | .panic => .panic

/-- An optional value. -/
def orErr {α : Type} (e : DevErr) : Option α → Res DevErr α
  | some a => .ok a
  | none => .err e

/-- A result as a step. -/
def given {α : Type} (cl : Http.Client) (r : Res DevErr α) : Step R α := Proc.mapErr (fun e => (cl, e)) (Proc.lift r)

/-- A message is sent and answered. -/
def say {α : Type} (A : Http.Aead) (dec : Bytes → Option α) (cl : Http.Client) (om sm : MsgType) (plain : Bytes)
    (newKeys : Option (Option Http.Keys)) : Step R (Http.Client × α) :=
  Proc.mapErr (fun x => (x.1, .http x.2)) (Http.sendQ A dec cl om sm plain newKeys)

/-- A program working on files. -/
def files {α : Type} : Prog Fs.sig α → Prog (sig R) α
  | .ret a => .ret a
  | .act o k => .act (.app (.fs o)) fun a => files (k a)

variable (c : Bool) (A : Http.Aead)

/-- Reading a COSE_Sign1 message; errors and panics of reading are both failures. -/
def decToken (b : Bytes) : Option Sign1 :=
  match parseSign1 R.E c b with
  | .ok s => some s
  | _ => none

/-- `send_client_error` (main.rs:76-90): the result is not looked at. -/
def sendError (cl : Http.Client) (e : DevErr) : Proc (sig R) DevErr Unit := do
  let id ← Http.app (X := ops R) .uuid
  let _ ← Proc.attempt (Http.sendQ (X := ops R) A R.decError cl .error .error (R.encError e id) none) |> Proc.mapErr fun _ => e
  pure ()

/-- What is done about an error in TO1 and TO2 (main.rs:275-300, 861-1060): the peer is told. -/
def reporting {α : Type} (p : Step R α) : Proc (sig R) DevErr α :=
  Prog.bind p fun
    | .ok a => .ret (.ok a)
    | .err (cl, e) => (do
      sendError A cl e
      Proc.fail e : Proc (sig R) DevErr α)
    | .panic => .ret .panic

/-- A random nonce (main.rs:370-379, types.rs:272-276). -/
def freshNonce (cl : Http.Client) : Step R Bytes := do
  let n ← Http.app (X := ops R) .nonce
  Proc.some? (cl, .random) (n : Option Bytes)

/-- `COSESign::from_eat` (types.rs:1837-1847) and writing the result, see `OwnerServer.signRawU`. -/
def signToken (cl : Http.Client) (unprot payload : Bytes) : Step R Bytes := do
  let x ← Http.app (X := ops R) (.sign payload)
  let x ← Proc.some? (cl, .data .crypto) (x : Option (Bytes × Bytes))
  given cl (liftD (liftP (Cbor.serialize ⟨some 18, [R.E.encBytes x.1, unprot, R.E.encBytes payload, R.E.encBytes x.2]⟩)))

/-! ### TO1 -/

/-- `perform_hellorv` (main.rs:159-237): the token. -/
def helloRv (cr : Credential.Cred) (cl : Http.Client) : Step R (Http.Client × Bytes) := do
  let (cl, m) ← say A R.decHelloAck cl .to1HelloRV .to1HelloRVAck (R.encHelloRv cr.guid) none
  Proc.check (cl, .sigInfo) (decide (m.2.1 = .es384 ∧ m.2.2 = []))
  let t ← signToken cl emptyMap (R.encClaims m.1 (asUeid cr.guid) none)
  pure (cl, t)

/-- `perform_to1` (main.rs:239-300). -/
def to1 (cr : Credential.Cred) (cl : Http.Client) : Step R Sign1 := do
  let (cl, t) ← helloRv A cr cl
  let (_, s) ← say A (decToken (R := R) c) cl .to1ProveToRV .to1RVRedirect t none
  pure s

/-- The loop of `get_to1d` (main.rs:316-335): `none` if no server gave an answer. -/
def getTo1d (cr : Credential.Cred) : List String → Proc (sig R) DevErr (Option Sign1)
  | [] => pure none
  | u :: r => do
    Http.app (X := ops R) (.connect u)
    let s ← Proc.attempt (reporting A (to1 c A cr .new))
    match s with
    | some s => pure (some s)
    | none => getTo1d cr r

/-- `get_client_list` (main.rs:126-156): the URLs for which a client is made. -/
def clientUrls (i : Rendezvous.Interp) : Option (List String) :=
  if i.bypass then none
  else if i.wifiSsid.isSome then none
  else if i.userInput then none
  else if i.protocol ≠ .http ∧ i.protocol ≠ .https then none
  else some (Rendezvous.getUrls R.showIp i)

/-- `get_to2_urls` (main.rs:96-124). -/
def to2Urls (l : List Addr) : List String :=
  l.flatMap fun a =>
    match a.protocol with
    | .http => urls "http" a
    | .https => urls "https" a
    | .other => []
where
  urls (p : String) (a : Addr) : List String :=
    (match a.dns with
      | some n => [p ++ "://" ++ n ++ ":" ++ toString a.port]
      | none => []) ++
    (match a.ip with
      | some b => [p ++ "://" ++ R.showIp b ++ ":" ++ toString a.port]
      | none => [])

/-! ### TO2: the owner's proof -/

variable (R) in
/-- `TO2ProveOVHdrPayload::deserialize_from_reader` (types.rs:850-883), with the signature info. -/
def parseProveHdr (b : Bytes) : Res Err (OwnerServer.ProveHdr × Bytes) := do
  let (a, _) ← liftP (Cbor.deserialize c (some 8) b)
  let header ← getLeaf R.E.decBytes a 0
  let num ← getLeaf R.decU16 a 1
  let hmac ← getLeaf R.E.decHash a 2
  let nonce5 ← getLeaf R.decNonce a 3
  let sig ← getLeaf R.decSigInfo a 4
  let kexA ← getLeaf R.E.decBytes a 5
  let hash ← getLeaf R.E.decHash a 6
  let _ ← getLeaf R.decU16 a 7
  pure (⟨header, num, hmac, nonce5, sig.1, kexA, hash⟩, sig.2)

/-- `manufacturer_public_key_hash` (ownershipvoucher.rs:518-523): digest of the encoded key in the header. -/
def keyHash {E : Env} (h : Header E) (t : HashType) : Res Err Hash := do
  let raw ← getRaw h.contents 4
  E.hashData t raw

/-- Checks of the proof before the voucher is complete (main.rs:411-521). -/
def checkHello (cr : Credential.Cred) (nonce5 : Bytes) (s : Sign1) : Res DevErr OwnerServer.ProveHdr := do
  let (p, info) ← liftD (parseProveHdr R c s.payload)
  if nonce5 ≠ p.nonce5 then .err .nonce
  else if p.sig ≠ .es384 ∨ info ≠ [] then .err .sigInfo
  else
    let _ ← liftD (cr.verifyHmac R.H p.header p.hmac)
    let h ← liftD (Header.deserialize R.E c p.header)
    let kh ← liftD (keyHash h cr.keyHash.type)
    let _ ← liftD (cr.keyHash.compare kh)
    pure p

/-- `perform_hellodevice` and `get_nonce6` (main.rs:382-548): the token, its payload and nonce6. -/
def helloDevice (cr : Credential.Cred) (cl : Http.Client) (nonce5 : Bytes) :
    Step R (Http.Client × Sign1 × OwnerServer.ProveHdr × Bytes) := do
  let (cl, s) ← say A (decToken (R := R) c) cl .to2HelloDevice .to2ProveOVHdr
    (R.encHello ⟨cr.guid, nonce5, .ecdh384, .a256gcm, .es384, []⟩) none
  let p ← given cl (checkHello (R := R) c cr nonce5 s)
  let n6 ← Proc.some? (cl, .missing) (R.cuphNonce s.unprot).join
  pure (cl, s, p, n6)

variable (R) in
/-- `OVNextEntry::deserialize_from_reader` (messages/v11/to2.rs:166-178), and the entry as it is written again when it is added
to the others (main.rs:361-364); errors and panics are both failures. -/
def decEntry (b : Bytes) : Option (Nat × Bytes) :=
  match (do
    let (a, _) ← liftP (Cbor.deserialize c (some 2) b)
    let n ← getLeaf R.decU16 a 0
    let raw ← getRaw a 1
    let _ ← parseSign1 R.E c raw
    let (e, _) ← liftP (Cbor.deserialize c (some 4) raw)
    let out ← liftP (Cbor.serialize e)
    pure (n, out) : Res Err (Nat × Bytes)) with
  | .ok x => some x
  | _ => none

/-- The loop of `get_ov_entries` (main.rs:343-365), for the entries from number `i` on: `entry_num as u8` keeps the low byte. -/
def entriesFrom (cl : Http.Client) (i : Nat) (got : List Bytes) : Nat → Step R (Http.Client × List Bytes)
  | 0 => pure (cl, got)
  | k + 1 => do
    let (cl, m) ← say A (decEntry R c) cl .to2GetOVNextEntry .to2OVNextEntry (R.encGetEntry (i % 256)) none
    Proc.check (cl, .entry) (decide (m.1 = i))
    entriesFrom cl (i + 1) (got ++ [m.2]) k

/-- The voucher is put together and checked (main.rs:573-653): the payload of the proof, now verified. -/
def checkOwner (s to1d : Sign1) (p : OwnerServer.ProveHdr) (entries : List Bytes) : Res DevErr OwnerServer.ProveHdr := do
  let v ← liftD (Voucher.fromParts (E := R.E) c 101 p.header p.hmac ⟨none, entries⟩)
  let k ← liftD (RvServer.ownerOf c v)
  if !R.E.verify k s.prot s.payload s.sig then .err .signature
  else
    let (p, _) ← liftD (parseProveHdr R c s.payload)
    if !R.E.verify k to1d.prot to1d.payload to1d.sig then .err .signature
    else pure p

/-- `get_and_verify_ov_header_signature` (main.rs:550-654). -/
def ownerProof (cl : Http.Client) (s to1d : Sign1) (p : OwnerServer.ProveHdr) :
    Step R (Http.Client × OwnerServer.ProveHdr) := do
  let (cl, es) ← entriesFrom c A cl 0 [] p.num
  let p ← given cl (checkOwner (R := R) c s to1d p es)
  pure (cl, p)

/-! ### TO2: the device's proof and the rest -/

/-- `perform_key_derivation` (main.rs:656-705). -/
def deriveKeys (cl : Http.Client) (p : OwnerServer.ProveHdr) : Step R (KeyExchange R.K × Http.Keys) := do
  let flag ← Proc.some? (cl, .missing) cl.nonInterop
  let k ← Http.app (X := ops R) .kex
  let k ← Proc.some? (cl, .random) (k : Option (R.K.Key × Bytes))
  let key ← given cl (liftD ((OwnerServer.newKex .ecdh384 k.1 k.2).deriveKey .device .a256gcm flag p.kexA))
  pure (OwnerServer.newKex .ecdh384 k.1 k.2, ⟨.a256gcm, key⟩)

/-- `perform_provedevice` (main.rs:707-795): of SetupDevice it is only checked that it is a COSE_Sign1 message. -/
def proveDevice (cr : Credential.Cred) (cl : Http.Client) (kx : KeyExchange R.K) (n6 n7 : Bytes) (ks : Http.Keys) :
    Step R Http.Client := do
  let t ← signToken cl (R.encEuph n7) (R.encClaims n6 (asUeid cr.guid) (some (R.encProve kx.getPublic)))
  let (cl, _) ← say A (decToken (R := R) c) cl .to2ProveDevice .to2SetupDevice t (some (some ks))
  pure cl

/-- `perform_deviceserviceinfoready` (main.rs:797-821). -/
def ready (cl : Http.Client) : Step R Http.Client := do
  let (cl, _) ← say A R.decOwnerReady cl .to2DeviceServiceInfoReady .to2OwnerServiceInfoReady R.encReady none
  pure cl

/-- Service info (`Model/SiClient`), where its messages are sent by the HTTP client (serviceinfo.rs:797-806). -/
def siRun {α : Type} : Prog SiClient.sig α → Http.Client → Step R (Http.Client × α)
  | .ret a, cl => Prog.ret (.ok (cl, a))
  | .act (.host m op) k, cl => Prog.act (.app (.host m op)) fun a => siRun (k a) cl
  | .act (.exchange si) k, cl =>
    Prog.bind (Http.sendQ (X := ops R) A R.decOwnerSi cl .to2DeviceServiceInfo .to2OwnerServiceInfo (R.encDeviceSi si) none) fun
      | .ok (cl, m) => siRun (k (some m)) cl
      | .err (cl, _) => siRun (k none) cl
      | .panic => .ret .panic

/-- `perform_to2_serviceinfos` as it is used (main.rs:1004-1020): whether a reboot was asked for. -/
def serviceInfos (h : SiClient.Host) (cl : Http.Client) : Step R (Http.Client × Bool) := do
  let (cl, r) ← siRun A (SiClient.perform h R.encVal R.decVal) cl
  match r with
  | .ok b => pure (cl, b)
  | .err _ => Proc.fail (cl, .serviceInfo)
  | .panic => Prog.ret .panic

/-- `marker_file_location` (main.rs:33-39). -/
def markerPath (w : Credential.Surroundings) : Path :=
  (w.var "DEVICE_ONBOARDING_EXECUTED_MARKER_FILE_PATH".toList).join.getD "/etc/device_onboarding_performed".toList

/-- What the marker file says. -/
def executed : Bytes := "executed".toUTF8.toList

/-- `mark_device_onboarding_executed` and `deactivate` (main.rs:92-94, 1022-1042). -/
def settle (w : Credential.Surroundings) (l : Credential.Location) (cl : Http.Client) : Step R Unit := do
  Proc.mapErr (fun _ => (cl, .marker)) (files (writeFile () (markerPath w) executed))
  Proc.mapErr (fun _ => (cl, .deactivate)) (files (Credential.deactivate R.codec l))

/-- `perform_done` (main.rs:823-848). -/
def done (cl : Http.Client) (n6 n7 : Bytes) : Step R Unit := do
  let (cl, m) ← say A R.decDone2 cl .to2Done .to2Done2 (R.encDone n6) none
  Proc.check (cl, .nonce) (decide (n7 = m))

/-- `perform_to2` (main.rs:850-1061), up to the owner's proof and the new keys. -/
def authenticate (cr : Credential.Cred) (to1d : Sign1) (cl : Http.Client) :
    Step R (Http.Client × KeyExchange R.K × Http.Keys × Bytes) := do
  let n5 ← freshNonce cl
  let (cl, s, p, n6) ← helloDevice c A cr cl n5
  let (cl, p) ← ownerProof c A cl s to1d p
  let (kx, ks) ← deriveKeys cl p
  pure (cl, kx, ks, n6)

/-- `perform_to2` (main.rs:850-1061). -/
def to2 (w : Credential.Surroundings) (h : SiClient.Host) (l : Credential.Location) (cr : Credential.Cred) (to1d : Sign1)
    (cl : Http.Client) : Step R Bool := do
  let (cl, kx, ks, n6) ← authenticate c A cr to1d cl
  let n7 ← freshNonce cl
  let cl ← proveDevice c A cr cl kx n6 n7 ks
  let cl ← ready A cl
  let (cl, b) ← serviceInfos A h cl
  settle w l cl
  done A cl n6 n7
  pure b

/-! ### Main -/

/-- The loop over the owner's addresses (main.rs:1192-1212): `none` if TO2 failed for all of them. -/
def tryAddrs (w : Credential.Surroundings) (h : SiClient.Host) (l : Credential.Location) (cr : Credential.Cred) (to1d : Sign1) :
    List String → Proc (sig R) DevErr (Option Bool)
  | [] => pure none
  | u :: r => do
    Http.app (X := ops R) (.connect u)
    let b ← Proc.attempt (reporting A (to2 c A w h l cr to1d .new))
    match b with
    | some b => pure (some b)
    | none => tryAddrs w h l cr to1d r

/-- The loop over rendezvous directives (main.rs:1141-1216): `none` if onboarding did not succeed with any of them. -/
def tryEntries (w : Credential.Surroundings) (h : SiClient.Host) (l : Credential.Location) (cr : Credential.Cred) :
    List Rendezvous.Interp → Proc (sig R) DevErr (Option Bool)
  | [] => pure none
  | i :: r =>
    match clientUrls (R := R) i with
    | none => tryEntries w h l cr r
    | some us => do
      let s ← getTo1d c A cr us
      match s with
      | none => tryEntries w h l cr r
      | some s =>
        match R.decAddrs s.payload with
        | none => tryEntries w h l cr r
        | some as => do
          let b ← tryAddrs c A w h l cr s (to2Urls (R := R) as)
          match b with
          | some b => pure (some b)
          | none => tryEntries w h l cr r

/-- The loop of `main` (main.rs:1140-1222), cut off after a number of rounds: the delay is that of the last directive. -/
def onboard (w : Credential.Surroundings) (h : SiClient.Host) (l : Credential.Location) (cr : Credential.Cred)
    (rv : List Rendezvous.Interp) : Nat → Proc (sig R) DevErr Bool
  | 0 => Proc.fail .rounds
  | n + 1 => do
    let b ← tryEntries c A w h l cr rv
    match b with
    | some b => pure b
    | none => do
      Http.app (X := ops R) (.sleep ((rv.getLast?.map (·.delay)).getD 0))
      onboard w h l cr rv n

/-- `get_rv_info` (main.rs:302-314). The rendezvous information is read with the credential in the code. -/
def rvEntries (cr : Credential.Cred) : Res DevErr (List Rendezvous.Interp) := do
  let rv ← orErr (.data .serde) (R.E.decRv cr.rvinfo)
  let l ← liftD (Rendezvous.toInterpreted R.D .device (R.directives rv))
  if l = [] then .err .rendezvous else pure l

/-- The reboot (main.rs:1225-1231). -/
def reboot : Bool → Proc (sig R) DevErr Unit
  | false => pure ()
  | true => do
    let r ← Http.app (X := ops R) .reboot
    match (r : Option Bool) with
    | none => Prog.ret .panic
    | some ok => Proc.check .io ok

/-- `main` once the credential is read (main.rs:1123-1233). -/
def start (w : Credential.Surroundings) (h : SiClient.Host) (l : Credential.Location) (cr : Credential.Cred) (n : Nat) :
    Proc (sig R) DevErr Unit :=
  if !cr.active then pure ()
  else if cr.version ≠ 101 then Proc.fail .version
  else do
    let rv ← Proc.lift (rvEntries (R := R) cr)
    let b ← onboard c A w h l cr rv n
    reboot b

/-- `main` (main.rs:1085-1238), for a number of rounds; the interoperable key derivation is taken to be available (1090-1094). -/
def main (w : Credential.Surroundings) (h : SiClient.Host) (n : Nat) : Proc (sig R) DevErr Unit :=
  if w.exists? (markerPath w) then do
    let ok ← Http.app (X := ops R) .reencrypt
    Proc.check .io (ok : Bool)
  else
    match Credential.find w with
    | none => pure ()
    | some (.err e) => Proc.fail (.data e)
    | some .panic => Prog.ret .panic
    | some (.ok l) => do
      let cr ← Proc.mapErr (fun _ => .io) (files (Credential.readCred R.codec l))
      start c A w h l cr n

end Device
end Verif

import Verif.Model.Messages
import Verif.Model.Types
/-!
Model of `http-wrapper`: the server side request filter with its sessions, and the client.
-/
namespace Verif.Http
open Verif Verif.Types

/-- `EncryptionKeys` that are present: cipher suite and combined key (http-wrapper/src/lib.rs:22-50).
The Rust type has two options which `unencrypted` and `from_derived` set together; it is modelled by
`Option Keys`. Split keys do not occur with the existing suites. -/
structure Keys where
  suite : CipherSuite
  sevk : Bytes
  deriving DecidableEq, Repr

/-- COSE_Encrypt0 with AES-GCM (aws-nitro-enclaves-cose); `iv` is the random IV. -/
structure Aead where
  encrypt : Bytes → Bytes → Bytes → Option Bytes
  decrypt : Bytes → Bytes → Option Bytes

/-- `EncryptionKeys::encrypt` (lib.rs:52-64): passes through without keys. -/
def encryptWith (A : Aead) (k : Option Keys) (iv plain : Bytes) : Option Bytes :=
  match k with
  | none => some plain
  | some k => A.encrypt k.sevk iv plain

/-- `EncryptionKeys::decrypt` (lib.rs:66-82). -/
def decryptWith (A : Aead) (k : Option Keys) (c : Bytes) : Option Bytes :=
  match k with
  | none => some c
  | some k => A.decrypt k.sevk c

/-- A server built with `fdo_request_filter`: its routes and its handlers. Handlers see the session
data and keys and may change them; their other inputs (time, randomness, answers of other services)
are `Oracle`. They return `none` for a rejection (or panic), possibly after changing the world. -/
structure Server where
  /-- session data other than the two keys used by the wrapper -/
  S : Type
  /-- stores and other server state -/
  W : Type
  Req : Type
  Resp : Type
  Oracle : Type
  /-- session ids -/
  Id : Type
  idEq : DecidableEq Id
  aead : Aead
  /-- `Session::id_from_cookie_value` -/
  idOf : List Char → Option Id
  init : S
  routes : List (MsgType × MsgType)
  /-- `IM::deserialize_data` -/
  decode : MsgType → Bytes → Option Req
  /-- `OM::to_response` -/
  encode : Resp → Bytes
  handle : Oracle → MsgType → Req → S → Option Keys → W → W × Option (Resp × S × Option Keys)

attribute [instance] Server.idEq

variable (Sv : Server)

/-- A stored session: last message sent, keys, other data (server.rs:172-173). -/
structure Sess where
  last : Option MsgType
  keys : Option Keys
  data : Sv.S

/-- `Session::new()`. -/
def Sess.new : Sess Sv := ⟨none, none, Sv.init⟩

/-- Server state: session store and world. The session store is a map (see the store properties). -/
structure St where
  sessions : Sv.Id → Option (Sess Sv)
  world : Sv.W

/-- An HTTP POST to `/fdo/101/msg/<type>`, with the random choices made while it is served: the
cookie of a session created for it, the IV, and the handler's inputs. `storeOk` says whether the session
store accepts the session. -/
structure Request where
  type : MsgType
  cborContent : Bool
  auth : Option (List Char)
  body : Bytes
  freshCookie : List Char
  iv : Bytes
  oracle : Sv.Oracle
  storeOk : Bool

/-- HTTP reply: an error message, or a response of some type, possibly with an Authorization token. -/
inductive Reply where
  | reject
  | ok (type : MsgType) (body : Bytes) (token : Option (List Char))
  deriving DecidableEq, Repr

/-- The token in an Authorization header (server.rs:424-428): the second word, if there is a space. -/
def bearer (v : List Char) : List Char :=
  match splitFirst ' ' v with
  | none => v
  | some (_, r) => r.takeWhile (· ≠ ' ')

variable {Sv}

/-- Session retrieval (server.rs:421-441): `none` is an error; otherwise the id, the session, and the
cookie if it is a new one. Stored sessions carry no cookie value (async-session does not store it). -/
def findSession (σ : St Sv) (rq : Request Sv) : Option (Sv.Id × Sess Sv × Option (List Char)) :=
  let fresh := (Sv.idOf rq.freshCookie).map fun i => (i, Sess.new Sv, some rq.freshCookie)
  match rq.auth with
  | none => fresh
  | some hdr =>
    match Sv.idOf (bearer hdr) with
    | none => none
    | some i =>
      match σ.sessions i with
      | some s => some (i, s, none)
      | none => fresh

/-- Do the keys of the session meet the requirement of a message type (server.rs:201-219, 333-349)? -/
def encOk (t : MsgType) (k : Option Keys) : Bool :=
  match t.encReq with
  | some .mustBe => k.isSome
  | some .mustNotBe => k.isNone
  | none => true

/-- `parse_request` (server.rs:175-239). -/
def parseRequest (t : MsgType) (s : Sess Sv) (body : Bytes) : Option Sv.Req :=
  if !t.validPrev s.last then none
  else if !encOk t s.keys then none
  else match decryptWith Sv.aead s.keys body with
    | none => none
    | some plain => Sv.decode t plain

/-- What reaches the handler: response type, session id, session, new cookie and request. -/
structure Accepted (Sv : Server) where
  om : MsgType
  id : Sv.Id
  sess : Sess Sv
  cookie : Option (List Char)
  req : Sv.Req

/-- The response type of a route (the filters are tried by path). -/
def routeOf (routes : List (MsgType × MsgType)) (t : MsgType) : Option MsgType :=
  (routes.find? (fun r => r.1 = t)).map (·.2)

/-- The filter up to the handler (server.rs:405-462): path, size limit of 16 KiB, content type,
session, parsing. -/
def accept (σ : St Sv) (rq : Request Sv) : Option (Accepted Sv) :=
  match routeOf Sv.routes rq.type with
  | none => none
  | some om =>
    if rq.body.length > 16384 then none
    else if !rq.cborContent then none
    else match findSession σ rq with
      | none => none
      | some (i, s, c) =>
        match parseRequest rq.type s rq.body with
        | none => none
        | some req => some ⟨om, i, s, c, req⟩

/-- Storing one session. -/
def putSession (σ : St Sv) (i : Sv.Id) (s : Sess Sv) : St Sv :=
  { σ with sessions := fun j => if j = i then some s else σ.sessions j }

/-- `encrypt_and_generate_response` (server.rs:322-363). -/
def respond (om : MsgType) (resp : Sv.Resp) (cookie : Option (List Char)) (k : Option Keys) (iv : Bytes) : Reply :=
  if !encOk om k then .reject
  else match encryptWith Sv.aead k iv (Sv.encode resp) with
    | none => .reject
    | some b => .ok om b cookie

/-- `fdo_request_filter` (server.rs:405-493), with `store_session` (259-298): the last message type is
recorded, the session is stored, then the response is encrypted under the session's keys. A session for
which `destroy()` was called is stored all the same (the flag is not looked at). A rejection by the
handler leaves the stored session as it was. -/
def step (σ : St Sv) (rq : Request Sv) : St Sv × Reply :=
  match accept σ rq with
  | none => (σ, .reject)
  | some a =>
    match Sv.handle rq.oracle rq.type a.req a.sess.data a.sess.keys σ.world with
    | (w, none) => ({ σ with world := w }, .reject)
    | (w, some (resp, data, keys)) =>
      if !rq.storeOk then ({ σ with world := w }, .reject)
      else (putSession { σ with world := w } a.id ⟨some a.om, keys, data⟩,
        respond a.om resp a.cookie keys rq.iv)

/-- What may happen to a server: a request, or the expiry of a session (TTL of 600 s, server.rs:51-86),
or a change of the world from outside (maintenance, other processes). -/
inductive Act (Sv : Server) where
  | request (rq : Request Sv)
  | expire (i : Sv.Id)
  | outside (w : Sv.W)

/-- Effect of an action. -/
def act (σ : St Sv) : Act Sv → St Sv
  | .request rq => (step σ rq).1
  | .expire i => { σ with sessions := fun j => if j = i then none else σ.sessions j }
  | .outside w => { σ with world := w }

/-- State after a list of actions. -/
def run (σ : St Sv) : List (Act Sv) → St Sv
  | [] => σ
  | a :: r => run (act σ a) r

/-- Startup check of `fdo_request_filter` (server.rs:385-394): panics unless the response type may follow
the request type. -/
def startup (routes : List (MsgType × MsgType)) : Res Unit Unit :=
  if routes.all (fun r => r.2.validPrev (some r.1)) then .ok () else .panic

/-! ### Client -/

/-- `ServiceClient` (client.rs:142-151), without URL and HTTP client. -/
structure Client where
  token : Option (List Char)
  keys : Option Keys
  last : Option MsgType
  nonInterop : Option Bool
  deriving DecidableEq, Repr

/-- `ServiceClient::new` (client.rs:154-164). -/
def Client.new : Client := ⟨none, none, none, none⟩

/-- The `message-type` header of a reply: absent, not a number in `u8`, or a number. -/
inductive TypeHeader where
  | absent
  | unreadable
  | code (n : Nat)
  deriving DecidableEq, Repr

/-- A reply as received. `auth` is `some none` if the header is not visible ASCII. -/
structure NetReply where
  success : Bool
  type : TypeHeader
  auth : Option (Option (List Char))
  kdfHeader : Bool
  body : Bytes
  deriving DecidableEq, Repr

/-- Errors of `send_request` (client.rs:12-45). -/
inductive CErr where
  | invalidSequenceRequest
  | invalidSequenceResponse
  | requestEncryption
  | responseEncryption
  | encrypt
  | decrypt
  | network
  | invalidMessageType
  | missingMessageType
  | invalidMessage
  | decode
  | errorMessage (body : Bytes)
  deriving DecidableEq, Repr

/-- The reply's message type (client.rs:255-277). -/
def replyType (r : NetReply) : Res CErr MsgType :=
  match r.type with
  | .unreadable => .err .invalidMessageType
  | .code n =>
    match MsgType.ofCode n with
    | none => .err .invalidMessageType
    | some t => .ok t
  | .absent => if r.success then .err .missingMessageType else .ok .error

/-- What was put on the wire: message type, Authorization header, body. -/
structure Sent where
  type : MsgType
  auth : Option (List Char)
  body : Bytes
  deriving DecidableEq, Repr

/-- The checks of `send_request` before anything is sent (client.rs:181-216). -/
def precheck (c : Client) (om sm : MsgType) (newKeys : Option (Option Keys)) : Option CErr :=
  if !om.validPrev c.last then some .invalidSequenceRequest
  else if !sm.validPrev (some om) then some .invalidSequenceResponse
  else if !encOk om c.keys then some .requestEncryption
  else
    let enc := c.keys.isSome || newKeys.isSome
    match sm.encReq with
    | some .mustBe => if enc then none else some .responseEncryption
    | some .mustNotBe => if enc then some .responseEncryption else none
    | none => none

/-- The peer's key derivation variant is noted with the first reply (client.rs:242-253). -/
def Client.noteKdf (c : Client) (h : Bool) : Client :=
  if c.nonInterop = none then { c with nonInterop := some h } else c

/-- The token of a reply replaces the one held (client.rs:279-281). -/
def Client.setToken (c : Client) (a : Option (List Char)) : Client :=
  match a with
  | some tok => { c with token := some tok }
  | none => c

/-- New keys, if given, are in force for the reply (client.rs:236-238). -/
def Client.setKeys (c : Client) (k : Option (Option Keys)) : Client :=
  match k with
  | some k => { c with keys := k }
  | none => c

/-- The result for a reply of message type `t` (client.rs:283-303). -/
def outcome {R : Type} (A : Aead) (dec : Bytes → Option R) (k : Option Keys) (sm t : MsgType) (r : NetReply) :
    Res CErr R :=
  if r.success then
    if t ≠ sm then .err .invalidMessage
    else match decryptWith A k r.body with
      | none => .err .decrypt
      | some plain =>
        match dec plain with
        | none => .err .decode
        | some m => .ok m
  else if t ≠ .error then .err .invalidMessage
  else .err (.errorMessage r.body)

/-- Reception of a reply (client.rs:242-303), for the keys now in force. -/
def receive {R : Type} (A : Aead) (dec : Bytes → Option R) (c : Client) (sm : MsgType) (r : NetReply) :
    Client × Res CErr R :=
  match replyType r with
  | .err e => (c.noteKdf r.kdfHeader, .err e)
  | .panic => (c.noteKdf r.kdfHeader, .panic)
  | .ok t =>
    match r.auth with
    | some none => (c.noteKdf r.kdfHeader, .panic)
    | some (some tok) => ((c.noteKdf r.kdfHeader).setToken (some tok), outcome A dec c.keys sm t r)
    | none => (c.noteKdf r.kdfHeader, outcome A dec c.keys sm t r)

/-- `ServiceClient::send_request` (client.rs:168-304). `plain` is the serialized request, `iv` the
random IV, `net` what the network answers to the request sent (`none`: connection failure), `dec` is
`SM::deserialize_data`. `last_message_type` is advanced before anything is sent (line 187), after the two
sequence checks. -/
def send {R : Type} (A : Aead) (dec : Bytes → Option R) (c : Client) (om sm : MsgType) (plain iv : Bytes)
    (newKeys : Option (Option Keys)) (net : Sent → Option NetReply) : Client × Res CErr R :=
  match precheck c om sm newKeys with
  | some .invalidSequenceRequest => (c, .err .invalidSequenceRequest)
  | some .invalidSequenceResponse => (c, .err .invalidSequenceResponse)
  | some e => ({ c with last := some sm }, .err e)
  | none =>
    match encryptWith A c.keys iv plain with
    | none => ({ c with last := some sm }, .err .encrypt)
    | some body =>
      match net ⟨om, c.token, body⟩ with
      | none => (({ c with last := some sm } : Client).setKeys newKeys, .err .network)
      | some r => receive A dec (({ c with last := some sm } : Client).setKeys newKeys) sm r

end Verif.Http

import Verif.Model.OwnerServer
import Verif.Model.Wire
/-!
Why a request is refused, and what the client is told: the error paths of `http-wrapper/src/server.rs` and of the handlers, which
`Model/Http` and the models of the servers have as `none` and `reject` only. The parts that decide are those of `Model/Http`; here is what
they say when they refuse.
-/
namespace Verif.Errors
open Verif Verif.Http Verif.Wire

/-- `warp::Rejection` as far as `handle_rejection` looks at it: an `Error` (code, type of message, text), a `ParseError`, a path that does
not exist, anything else (method, size, content type). -/
inductive Rejection where
  | own (code : Nat) (previous : MsgType) (text : String)
  | parse
  | notFound
  | other
  deriving DecidableEq

/-- `Error::from_error` (server.rs:115-130). -/
def fromError (t : MsgType) : Rejection := .own 500 t "Internal server error"

/-- `handle_rejection` (server.rs:135-165): what the client is told. -/
def told : Rejection → Nat × MsgType × String
  | .own c t s => (c, t, s)
  | .parse => (100, .invalid, "Invalid request body")
  | .notFound => (100, .invalid, "Invalid request type")
  | .other => (500, .invalid, "Error processing response")

/-- The error message (server.rs:100-113); `uuid` is random. -/
def message (uuid : Nat) (r : Rejection) : ErrorMsg := serverError (told r).1 (told r).2.1 (told r).2.2 uuid

/-- The reply (server.rs:164, 300-320; messages/v11/error.rs:73-75): status 500, no token, not encrypted. `kdf` as in `Http.Arrives`. -/
def reply (kdf : Bool) (uuid : Nat) (r : Rejection) : NetReply := ⟨false, .code MsgType.error.code, none, kdf, errorMsg.write (message uuid r)⟩

variable {Sv : Server}

/-- Why `parse_request` refuses (server.rs:182-236). -/
def parseWhy (t : MsgType) (s : Sess Sv) (body : Bytes) : Option Rejection :=
  if !t.validPrev s.last then some (.own 500 t "Message sequence error")
  else if !encOk t s.keys then some (.own 500 t "IM encryption requirement not met")
  else match decryptWith Sv.aead s.keys body with
    | none => some (.own 101 t "Error decrypting")
    | some plain =>
      match Sv.decode t plain with
      | none => some .parse
      | some _ => none

/-- Why the filter refuses before the handler (server.rs:419-464). A new session whose id cannot be read from its cookie does not exist;
it is treated like a session that cannot be loaded. -/
def acceptWhy (σ : St Sv) (rq : Request Sv) : Option Rejection :=
  match routeOf Sv.routes rq.type with
  | none => some .notFound
  | some _ =>
    if rq.body.length > 16384 then some .other
    else if !rq.cborContent then some .other
    else match findSession σ rq with
      | none => some (.own 500 rq.type "Error retrieving session")
      | some (_, s, _) => parseWhy rq.type s rq.body

/-- Why the response is not sent (server.rs:331-358). -/
def respondWhy (t om : MsgType) (resp : Sv.Resp) (k : Option Keys) (iv : Bytes) : Option Rejection :=
  if !encOk om k then
    some (.own 101 t (if k.isNone then "Sequence error: must be encrypted" else "Sequence error: must not be encrypted"))
  else match encryptWith Sv.aead k iv (Sv.encode resp) with
    | none => some (.own 101 t "Error encrypting")
    | some _ => none

/-- Why a request is refused (`fdo_request_filter`, server.rs:372-493). `handler` is what the handler refuses with, if it does. -/
def why (σ : St Sv) (rq : Request Sv) (handler : Rejection) : Option Rejection :=
  match accept σ rq with
  | none => acceptWhy σ rq
  | some a =>
    match Sv.handle rq.oracle rq.type a.req a.sess.data a.sess.keys σ.world with
    | (_, none) => some handler
    | (_, some (resp, _, keys)) =>
      if !rq.storeOk then some (.own 500 rq.type "Error storing session")
      else respondWhy (Sv := Sv) rq.type a.om resp keys rq.iv

/-! ### Handlers -/

/-- The rejections of the handlers: the message they handle, and code, type of message and text of the error. Errors of `from_error`
apart: see `fromErrors`. -/
def handlerErrors : List (MsgType × Nat × MsgType × String) := [
  -- manufacturing-server/src/handlers/diun.rs:24-28, 119-123
  (.diunConnect, 500, .diunConnect, "DIUN is disabled"),
  (.diunRequestKeyParameters, 500, .diunRequestKeyParameters, "DIUN is disabled"),
  (.diunProvideKey, 500, .diunProvideKey, "DIUN is disabled"),
  (.diunRequestKeyParameters, 101, .diunRequestKeyParameters, "Sequence error: no diun_keys"),
  -- manufacturing-server/src/handlers/di.rs:38-42, 66-70, 87-91, 216-220, 228-232
  (.diAppStart, 500, .diAppStart, "Plain DI is disabled"),
  (.diSetHmac, 500, .diSetHmac, "Plain DI is disabled"),
  (.diAppStart, 500, .diAppStart, "MFG Info is not a string"),
  (.diAppStart, 500, .diAppStart, "No public key located"),
  (.diSetHmac, 101, .diunRequestKeyParameters, "Sequence error: no ownership voucher header"),
  (.diSetHmac, 101, .diunRequestKeyParameters, "Sequence error: no device certificate"),
  -- rendezvous-server/src/handlers_to0.rs:46-50, 64-68, 84-88, 101-105, 110-114, 128-132, 151-155, 170-174
  (.to0OwnerSign, 101, .to0OwnerSign, "Request sequence failure"),
  (.to0OwnerSign, 101, .to0OwnerSign, "Invalid nonce3"),
  (.to0OwnerSign, 2, .to0OwnerSign, "Ownership voucher manufacturer not trusted"),
  (.to0OwnerSign, 2, .to0OwnerSign, "Invalid OV"),
  (.to0OwnerSign, 2, .to0OwnerSign, "Invalid TO1D"),
  (.to0OwnerSign, 2, .to0OwnerSign, "No device certificate"),
  (.to0OwnerSign, 2, .to0OwnerSign, "Device certificate not trusted"),
  -- rendezvous-server/src/handlers_to1.rs:22-26, 31-35, 49-53, 89-93, 102-106, 116-120, 124-128, 136-140, 146-150
  (.to1HelloRV, 101, .to1HelloRV, "Unsupported signature scheme"),
  (.to1HelloRV, 101, .to1HelloRV, "Unsupported signature info"),
  (.to1HelloRV, 6, .to1HelloRV, "Device GUID not found"),
  (.to1ProveToRV, 101, .to0OwnerSign, "Request sequence failure"),
  (.to1ProveToRV, 101, .to1ProveToRV, "Request sequence failure"),
  (.to1ProveToRV, 6, .to1ProveToRV, "Device not found"),
  (.to1ProveToRV, 101, .to1ProveToRV, "Token invalid"),
  (.to1ProveToRV, 101, .to1ProveToRV, "Nonce invalid"),
  -- owner-onboarding-server/src/handlers.rs:38-42, 55-59, 64-68
  (.to2HelloDevice, 6, .to2HelloDevice, "Device not found"),
  (.to2HelloDevice, 100, .to2HelloDevice, "Invalid signature info"),
  -- 129-133, 146-150
  (.to2GetOVNextEntry, 101, .to2GetOVNextEntry, "Request sequence failure"),
  (.to2GetOVNextEntry, 6, .to2GetOVNextEntry, "Device not found"),
  -- 174-178, 187-191, 199-203, 212-216, 229-233, 242-246, 251-255, 271-275, 290-294, 301-305
  (.to2ProveDevice, 101, .to2ProveDevice, "Request sequence failure"),
  (.to2ProveDevice, 101, .to2GetOVNextEntry, "Request sequence failure"),
  (.to2ProveDevice, 6, .to2ProveDevice, "Device not found"),
  (.to2ProveDevice, 101, .to2ProveDevice, "Device certificate not supported"),
  (.to2ProveDevice, 101, .to2ProveDevice, "Device certificate chain not supported"),
  (.to2ProveDevice, 101, .to2ProveDevice, "Missing nonce7"),
  (.to2ProveDevice, 101, .to2ProveDevice, "Missing payload"),
  (.to2ProveDevice, 101, .to2ProveDevice, "Nonce invalid"),
  -- 372-376
  (.to2DeviceServiceInfoReady, 101, .to2GetOVNextEntry, "Request sequence failure"),
  -- 398-402, 409-413, 434-438, 464-468
  (.to2DeviceServiceInfo, 101, .to2DeviceServiceInfo, "Request sequence failure"),
  (.to2DeviceServiceInfo, 101, .to2GetOVNextEntry, "Request sequence failure"),
  (.to2DeviceServiceInfo, 101, .to2DeviceServiceInfo, "Too many serviceinfo loops performed"),
  (.to2DeviceServiceInfo, 500, .to2DeviceServiceInfo, "Error handling serviceinfo"),
  -- 595-599, 607-611, 616-620, 627-631, 641-645
  (.to2Done, 101, .to2GetOVNextEntry, "Request sequence failure"),
  (.to2Done, 101, .to2ProveDevice, "Request sequence failure"),
  (.to2Done, 101, .to2ProveDevice, "Nonce6 invalid")]

/-- The message handled and the one named where handlers use `from_error`: another one only in handlers.rs:658 of the owner server.
`set_encryption_keys` (server.rs:241-257) has a text of its own. -/
def fromErrors (t : MsgType) : List Rejection :=
  if t = .to2Done then [fromError .to2ProveDevice] else [fromError t, .own 500 t "Internal error"]

/-- What the handler of a message may refuse with. -/
def fromHandler (t : MsgType) (r : Rejection) : Bool :=
  r ∈ fromErrors t || handlerErrors.any fun x => x.1 = t ∧ r = .own x.2.1 x.2.2.1 x.2.2.2

/-- Why the handler of TO2.Done refuses (owner-onboarding-server/src/handlers.rs:591-658); compare `OwnerServer.doneTo2`. A GUID in the
session that cannot be read is a panic: `none` in the outer option. -/
def doneWhy (R : OwnerServer.OwnerEnv) (B : OwnerServer.VStore (Voucher.Voucher R.E)) (o : OwnerServer.Oracle R) (n : Bytes) (s : OwnerServer.Data R)
    (w : B.W) : Option (Option Rejection) :=
  if !s.proven then some (some (.own 101 .to2GetOVNextEntry "Request sequence failure"))
  else match s.nonce6 with
    | none => some (some (.own 101 .to2ProveDevice "Request sequence failure"))
    | some n6 =>
      if n6 ≠ n then some (some (.own 101 .to2ProveDevice "Nonce6 invalid"))
      else match s.guid with
        | none => some (some (.own 101 .to2GetOVNextEntry "Request sequence failure"))
        | some g =>
          match RvServer.parseGuid g with
          | none => none
          | some g =>
            match s.nonce7 with
            | none => some (some (.own 101 .to2ProveDevice "Request sequence failure"))
            | some _ =>
              match B.setTo2 o.now w (Store.guidText g) with
              | (_, .ok ()) => some none
              | (_, .err _) => some (some (fromError .to2ProveDevice))
              | (_, .panic) => none

end Verif.Errors

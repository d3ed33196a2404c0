import Verif.Props.ErrorsMfg
import Verif.Props.MfgExample
/-!
Cases of C95: requests to a manufacturing server that are refused, and the reasons.
-/
namespace Verif.MfgServer.Toy
open Verif Verif.Voucher Verif.Store Verif.Types
open Verif.RvServer.Toy (aead guid)
open Verif.Errors (Rejection mfgWhy)

/-- The server when it waits for the HMAC of the device in session `a`. -/
def waiting : Http.St (srv dirM) := reached env true dirM cfg some aead encode (begin dirM ['a'] 9 0xaa)

def orc : Oracle env := (rq dirM .diSetHmac none [] [] 0xaa).oracle

/-- What the handler says to a request in the session of the device, whose data may be changed. -/
def handlerSays (r : Req) (f : Data env → Data env := id) (o : Oracle env := orc) (k : Config env := cfg) : Option (Option Rejection) :=
  match waiting.sessions ['a'] with
  | some s => mfgWhy env true dirM k o r (f s.data) waiting.world
  | none => none

def di (code : Nat) (t : MsgType) (text : String) : Option (Option Rejection) := some (some (.own code t text))

def hash : Hash := ⟨.hmacSha256, List.replicate 32 6⟩

def plain (s : Data env) : Data env := { s with performed := false, deviceKey := none }

def chkReasons : Bool :=
  decide (handlerSays (.setHmac hash) = some none) && decide (handlerSays (.appStart info) = some none) &&
  -- without DIUN
  decide (handlerSays (.setHmac hash) plain = di 500 .diSetHmac "Plain DI is disabled") &&
  decide (handlerSays (.appStart info) plain = di 500 .diAppStart "Plain DI is disabled") &&
  decide (handlerSays (.appStart info) plain orc { cfg with enableDi := true } = di 500 .diAppStart "No public key located") &&
  decide (handlerSays (.appStart info) plain orc { cfg with enableDi := true, keyStore := true } =
    di 500 .diAppStart "No public key located") &&
  decide (handlerSays (.appStart info) plain { orc with keys := fun _ => .err .unspecified } { cfg with enableDi := true, keyStore := true } =
    di 500 .diAppStart "Internal server error") &&
  decide (handlerSays (.appStart info) plain { orc with keys := fun _ => .ok (some [8]) } { cfg with enableDi := true, keyStore := true } =
    some none) &&
  -- no key at all, a key for which there is no certificate
  decide (handlerSays (.appStart info) (fun s => { s with deviceKey := some [1, 2] }) = di 500 .diAppStart "Internal server error") &&
  decide (handlerSays (.appStart info) (fun s => { s with deviceKey := some [200] }) = di 500 .diAppStart "Internal server error") &&
  -- out of order
  decide (handlerSays (.setHmac hash) (fun s => { s with header := none }) =
    di 101 .diunRequestKeyParameters "Sequence error: no ownership voucher header") &&
  decide (handlerSays (.setHmac hash) (fun s => { s with chain := none }) =
    di 101 .diunRequestKeyParameters "Sequence error: no device certificate") &&
  decide (handlerSays .requestKey = di 101 .diunRequestKeyParameters "Sequence error: no diun_keys") &&
  -- DIUN
  decide (handlerSays (.connect ⟨List.replicate 16 4, .ecdh256, .a128gcm, OwnerServer.Toy.devKex.getPublic⟩) = some none) &&
  decide (handlerSays (.connect ⟨List.replicate 16 4, .ecdh256, .a128gcm, OwnerServer.Toy.devKex.getPublic⟩) id orc { cfg with diun := none } =
    di 500 .diunConnect "DIUN is disabled") &&
  decide (handlerSays (.provideKey [9] .tpm) id orc { cfg with diun := none } = di 500 .diunProvideKey "DIUN is disabled")

theorem chk_reasons : chkReasons = true := by decide +kernel

/-- The hypotheses of `C95_di` and `C95_in_order` are met: a device whose key is none begins DI in a history, reaches the handler, and is
refused by it. -/
def chkHandler : Bool :=
  match Http.accept (reached env true dirM cfg some aead encode ((begin dirM ['a'] 200 0xaa).take 3))
    (rq dirM .diAppStart (some ['a']) (key ++ info) ['a'] 0xaa) with
  | some a => decide (mfgWhy env true dirM cfg orc a.req a.sess.data waiting.world = di 500 .diAppStart "Internal server error")
  | none => false

example : chkHandler = true := by decide +kernel

/-- The hypotheses of `C95_key_violated` are met. -/
example : env.decMfgInfo info = some (some "dev") ∧ env.keyFromDer [1, 2] = none := by decide +kernel

end Verif.MfgServer.Toy

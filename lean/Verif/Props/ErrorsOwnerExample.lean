import Verif.Props.ErrorsOwner
import Verif.Props.OwnerExample
/-!
Cases of C95: requests to an owner server that are refused, and the reasons.
-/
namespace Verif.OwnerServer.Toy
open Verif Verif.Voucher Verif.Store Verif.Types Verif.ServiceInfo
open Verif.RvServer.Toy (aead guid)
open Verif.Errors (Rejection)

/-- The server when it waits for the proof of the device. -/
def unproven : Http.St (srv dirB) := reached env true dirB cfg some aead encode
  (imported dirB ++ [.request (rq dirB .to2HelloDevice none [1] ['s']), asks dirB .to2GetOVNextEntry [0], asks dirB .to2GetOVNextEntry [1]])

def orc : Oracle env := (rq dirB .to2Done none [] []).oracle

/-- What the handler says to a request in the session of the device, whose data may be changed, with this store. -/
def handlerSays (r : Req) (f : Data env → Data env := id) (w : Dir := unproven.world) (o : Oracle env := orc) : Option (Option Rejection) :=
  match unproven.sessions ['s'] with
  | some s => Errors.ownerWhy env true dirB cfg o r (f s.data) w
  | none => none

def pd (code : Nat) (text : String) : Option (Option Rejection) := some (some (.own code .to2ProveDevice text))

def proven (s : Data env) : Data env := { s with proven := true }

def chkReasons : Bool :=
  -- the device, another device, an old nonce
  decide (handlerSays (.prove (token 9 6)) = some none) && decide (handlerSays (.prove (token 10 6)) = pd 500 "Internal server error") &&
  decide (handlerSays (.prove (token 9 8)) = pd 101 "Nonce invalid") &&
  -- a session without nonce, a voucher that is gone
  decide (handlerSays (.prove (token 9 6)) (fun s => { s with nonce6 := none }) = pd 101 "Request sequence failure") &&
  decide (handlerSays (.prove (token 9 6)) id dirB.empty = pd 6 "Device not found") &&
  decide (handlerSays (.getEntry 0) id dirB.empty = some (some (.own 6 .to2GetOVNextEntry "Device not found"))) &&
  decide (handlerSays (.getEntry 0) = some none) &&
  -- service info before the proof, and too often
  decide (handlerSays (.deviceSi []) = some (some (.own 101 .to2DeviceServiceInfo "Request sequence failure"))) &&
  decide (handlerSays (.deviceSi []) (fun s => { proven s with loops := some 1001 }) =
    some (some (.own 101 .to2DeviceServiceInfo "Too many serviceinfo loops performed"))) &&
  decide (handlerSays (.deviceSi [("devmod:modules".toList, [1, 1])]) proven = some none) &&
  decide (handlerSays (.deviceSi [("devmod:modules".toList, [1, 1])]) proven unproven.world { orc with api := fun _ => none } =
    some (some (.own 500 .to2DeviceServiceInfo "Error handling serviceinfo"))) &&
  decide (handlerSays .ready = some (some (.own 101 .to2GetOVNextEntry "Request sequence failure")))

theorem chk_reasons : chkReasons = true := by decide +kernel

/-- The hypotheses of `C95_signature_violated` are met by the token of another device. -/
def chkOther : Bool :=
  match unproven.sessions ['s'] with
  | none => false
  | some s =>
    match s.data.guid.bind RvServer.parseGuid with
    | none => false
    | some g =>
      match (dirB.load orc.now unproven.world (guidText g)).2, parseSign1 env.E true (token 10 6) with
      | .ok (some v), .ok t =>
        decide (voucherKey env v = some (9 : UInt8)) && decide (env.euphNonce t.unprot = some (some (List.replicate 16 7))) &&
        !env.E.verify (9 : UInt8) t.prot t.payload t.sig && s.data.nonce6.isSome && s.data.kex.isSome && s.data.cipher.isSome
      | _, _ => false

example : chkOther = true := by decide +kernel

/-- The hypotheses of `C95_to2_partial` are met: the request of another device reaches the handler, and is refused by it. -/
def chkHandler : Bool :=
  match Http.accept unproven (rq dirB .to2ProveDevice (some ['s']) (token 10 6) ['s']) with
  | some a => decide (Errors.ownerWhy env true dirB cfg orc a.req a.sess.data unproven.world = pd 500 "Internal server error")
  | none => false

example : chkHandler = true := by decide +kernel

end Verif.OwnerServer.Toy

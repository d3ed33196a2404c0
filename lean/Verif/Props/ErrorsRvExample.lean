import Verif.Props.ErrorsRv
import Verif.Props.RvExample
/-!
Cases of C95: requests to a rendezvous server that are refused, and the reasons.
-/
namespace Verif.RvServer.Toy
open Verif Verif.Voucher Verif.Store
open Verif.Errors (Rejection)

/-- A session with the nonce 1…1 for owners, and the nonce 4…4 for the device aa…aa. -/
def sess : Data := ⟨some (Types.hexEncode (List.replicate 16 1)), some (Types.hexEncode (List.replicate 16 4)), some (guidText guid)⟩

def orc : Oracle := ⟨5 * second, some (List.replicate 16 3), false⟩

/-- What is said to a registration whose nonce is `x…x`, whose blob is signed by `k` for a lifetime of `w`, with this configuration. -/
def saidTo (x k w : UInt8) (cf : Config rvEnv) (s : Data := sess) : Option (Option Rejection) :=
  match to0d 60 (List.replicate 16 x), (to0d w (List.replicate 16 x)).bind (to1d k) with
  | some d, some t => Errors.ownersignWhy rvEnv true dirB cf orc d t s dirB.empty
  | _, _ => none

/-- The same, for the directory after one registration has been stored. -/
def proved (key x : UInt8) (s : Data := sess) (w : Dir := (reached rvEnv true dirB cfg some aead encode (registration dirB ['o'] 12 60 1 5)).world) :
    Option (Option Rejection) :=
  Errors.proveToRvWhy rvEnv true dirB orc (token key (List.replicate 16 x)) s w

def own (code : Nat) (text : String) : Option (Option Rejection) := some (some (.own code .to0OwnerSign text))
def own1 (code : Nat) (text : String) : Option (Option Rejection) := some (some (.own code .to1ProveToRV text))

def chkReasons : Bool :=
  -- a good one, one with an old nonce, one without a session
  decide (saidTo 1 12 60 cfg = some none) && decide (saidTo 2 12 60 cfg = own 101 "Invalid nonce3") &&
  decide (saidTo 1 12 60 cfg ⟨none, none, none⟩ = own 101 "Request sequence failure") &&
  -- manufacturers and device certificates which are not trusted
  decide (saidTo 1 12 60 { cfg with mfgKeys := some [(8, 8)] } = own 2 "Ownership voucher manufacturer not trusted") &&
  decide (saidTo 1 12 60 { cfg with deviceKeys := some [(99, 99)] } = own 2 "Device certificate not trusted") &&
  -- a blob of a former owner, and one for other registration data
  decide (saidTo 1 11 60 cfg = own 2 "Invalid TO1D") && decide (saidTo 1 12 61 cfg = own 500 "Internal server error") &&
  -- the device, another device, an old nonce, a device that is not registered, a registration that cannot be read
  decide (proved 9 4 = some none) && decide (proved 10 4 = own1 101 "Token invalid") && decide (proved 9 5 = own1 101 "Nonce invalid") &&
  decide (proved 9 4 sess dirB.empty = own1 6 "Device not found") &&
  decide (Errors.helloRvWhy rvEnv dirB orc guid true [] dirB.empty = some (some (.own 6 .to1HelloRV "Device GUID not found"))) &&
  decide (Errors.helloRvWhy rvEnv dirB orc guid true [1] dirB.empty = some (some (.own 101 .to1HelloRV "Unsupported signature info")))

theorem chk_reasons : chkReasons = true := by decide +kernel

/-- A store that cannot be read. -/
def brokenB : Backend (Item rvEnv) := { dirB with load := fun _ d _ => (d, .err .unspecified) }

/-- The hypotheses of `C95_store_violated` are met. -/
example : sess.nonce4.bind parseNonce = some (List.replicate 16 4) ∧ sess.guid.bind parseGuid = some guid ∧
    (brokenB.load orc.now brokenB.empty (guidText guid)).2 = .err .unspecified := ⟨by decide +kernel, by decide +kernel, rfl⟩

example : Errors.proveToRvWhy rvEnv true brokenB orc (token 9 (List.replicate 16 4)) sess brokenB.empty =
    some (some (.own 101 .to1ProveToRV "Request sequence failure")) :=
  Errors.C95_store_violated (by decide +kernel : sess.nonce4.bind parseNonce = some (List.replicate 16 4))
    (by decide +kernel : sess.guid.bind parseGuid = some guid) rfl

/-- A request which the handler refuses: its session is that of the owner, its nonce is another one. -/
def refusedRq : Http.Request (srv dirB) := rq dirB .to0OwnerSign (some ['o']) (osBody 12 60 2) ['o'] 5 1
def waiting : Http.St (srv dirB) := reached rvEnv true dirB cfg some aead encode [.request (rq dirB .to0Hello none [0x80] ['o'] 5 1)]

def chkHandler : Bool :=
  match Http.accept waiting refusedRq with
  | some a => decide (Errors.rvWhy rvEnv true dirB cfg refusedRq.oracle a.req a.sess.data waiting.world = own 101 "Invalid nonce3")
  | none => false

/-- The hypotheses of `C95_answered_partial` are met. -/
example : chkHandler = true := by decide +kernel

/-- Requests which the filter refuses: out of order, not a message, for another server. -/
def chkFilter : Bool :=
  let r := Rejection.other
  decide (Errors.why waiting (rq dirB .to0OwnerSign none (osBody 12 60 1) ['p'] 5 1) r = some (.own 500 .to0OwnerSign "Message sequence error")) &&
  decide (Errors.why waiting (rq dirB .to0Hello none [0x81] ['p'] 5 1) r = some .parse) &&
  decide (Errors.why waiting (rq dirB .to2HelloDevice none [0x81] ['p'] 5 1) r = some .notFound) &&
  decide (Errors.why waiting { rq dirB .to0Hello none [0x80] ['p'] 5 1 with storeOk := false } r = some (.own 500 .to0Hello "Error storing session"))

example : chkFilter = true := by decide +kernel

end Verif.RvServer.Toy

import Verif.Props.ErrorsOrder
import Verif.Props.ErrorsRvExample
import Verif.Props.ErrorsOwnerExample
/-!
Cases of C95, messages out of order.
-/
namespace Verif.RvServer.Toy
open Verif Verif.Voucher Verif.Store

/-- A directory that cannot be read for a while: after 6 seconds. -/
abbrev lateB : Backend (Item rvEnv) := { dirB with load := fun now d k => if now < 6 * second then dirB.load now d k else (d, .err .unspecified) }

/-- A device is registered, and says hello; then the store fails. -/
def greeted : List (Http.Event (srv lateB) (Nat × List Name)) :=
  registration lateB ['o'] 12 60 1 5 ++ [.request (rq lateB .to1HelloRV none (Verif.Toy.encBytes guid) ['d'] 5 4)]

def lateRq : Http.Request (srv lateB) := rq lateB .to1ProveToRV (some ['d']) (token 9 (List.replicate 16 4)) ['d'] 7 4

def chkLate : Bool :=
  match Http.accept (reached rvEnv true lateB cfg some aead encode greeted) lateRq with
  | some a => decide (Errors.rvWhy rvEnv true lateB cfg lateRq.oracle a.req a.sess.data (reached rvEnv true lateB cfg some aead encode greeted).world =
      own1 101 "Request sequence failure")
  | none => false

/-- The hypotheses of `C95_rendezvous_order` are met. -/
example : chkLate = true := by decide +kernel

end Verif.RvServer.Toy

namespace Verif.OwnerServer.Toy
open Verif
open Verif.RvServer.Toy (aead)

/-- The hypothesis of `C95_owner_order` is met. -/
example : (Http.accept (reached env true dirB cfg some aead encode (imported dirB ++ [.request (rq dirB .to2HelloDevice none [1] ['s'])]))
    (rq dirB .to2GetOVNextEntry (some ['s']) [0] ['s'])).isSome = true := by decide +kernel

end Verif.OwnerServer.Toy

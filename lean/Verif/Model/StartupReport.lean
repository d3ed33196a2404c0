import Verif.Model.StartupSi
import Verif.Model.OwnerServer
/-!
Reporting vouchers to rendezvous servers and the setting for it: `report_to_rendezvous_endpoint_enabled`
(util/src/servers/configuration/owner_onboarding_server.rs:34), the route of the owner server (owner-onboarding-server/src/main.rs:588-594),
its handler (handlers.rs:671-682), and maintenance (main.rs:317-350).
-/
namespace Verif.Startup
open Verif Verif.Settings

/-- Reading the setting (owner_onboarding_server.rs:34, main.rs:588). -/
def reportEnabled (S : Reads) (v : Val) : Res Fail Bool := required (boolOf S) v "report_to_rendezvous_endpoint_enabled"

/-- What may make the owner server report: requests over HTTP (with the clock, the listing of the directory, and what rendezvous servers
say), and rounds of maintenance. -/
inductive Occasion (R : OwnerServer.OwnerEnv) where
  | request (post : Bool) (path : List (List Char)) (now : Nat) (ls : List Store.Name) (rv : OwnerServer.Outcome R)
  | round (now : Nat) (ls : List Store.Name) (rv : OwnerServer.Outcome R) (now' : Nat) (rv' : OwnerServer.Outcome R)

section
variable {R : OwnerServer.OwnerEnv} (B : OwnerServer.VStore (Voucher.Voucher R.E)) (cfg : OwnerServer.Config R)

/-- Whether a request gets to `report_to_rendezvous` (main.rs:590-597, handlers.rs:671-677): only the first segment of the path is looked
at. -/
def onDemand (enabled post : Bool) (path : List (List Char)) : Bool :=
  post && path.head? = some "report-to-rendezvous".toList && enabled

/-- What happens: the vouchers the server goes through to report them, and the store afterwards. Requests for other routes, which may change
the store as in `Model/OwnerServer`, do nothing here. -/
def occasion (enabled : Bool) : Occasion R → B.W → List (Voucher.Voucher R.E) × B.W
  | .request post path now ls rv, w =>
    if onDemand enabled post path then (OwnerServer.toReport B now ls w, OwnerServer.move B cfg (.report now ls rv) w) else ([], w)
  | .round now ls rv now' rv', w =>
    let w1 := B.maintain now ls w
    let l1 := OwnerServer.toReport B now ls w1
    (l1 ++ OwnerServer.toRenew B cfg now' (OwnerServer.reportLoop B rv w1 l1), OwnerServer.move B cfg (.round now ls rv now' rv') w)

/-- A history: the vouchers of each occasion, and the store at the end. -/
def occasions (enabled : Bool) : List (Occasion R) → B.W → List (List (Voucher.Voucher R.E)) × B.W
  | [], w => ([], w)
  | e :: l, w =>
    let (vs, w') := occasion B cfg enabled e w
    let (r, w'') := occasions enabled l w'
    (vs :: r, w'')

end

end Verif.Startup

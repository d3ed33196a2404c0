import Verif.Model.OwnerServer
import Verif.Model.Device
/-!
Model of TO0 from the owner's side: `report_ov_to_rendezvous` (owner-onboarding-server/src/main.rs:210-313) as a program over the
HTTP client. Errors are not told to the rendezvous server.
-/
namespace Verif.To0
open Verif Verif.Voucher Verif.OwnerServer

/-- serde for messages of TO0 (messages/v11/to0.rs:12-210): `Hello` (the empty array), `HelloAck` with its nonce, `AcceptOwner`
with its seconds. `OwnerSign` is written by `ownerSignMsg`. -/
structure Msgs where
  hello : Bytes
  decAck : Bytes → Option Bytes
  decAccept : Bytes → Option Nat

/-- The owner's effects besides the network: a client for a URL is made (`ServiceClient::new`, main.rs:265-266), requests after it
go there. -/
inductive Op where
  | connect (url : String)

/-- Signature of the effects, and of all effects. -/
abbrev ops : Sig := ⟨Op, fun _ => Unit⟩
abbrev sig : Sig := Http.netSig ops

/-- Why reporting fails. -/
inductive To0Err where
  | version
  | noChain
  | chain (e : Rendezvous.ChainErr)
  | data (e : Err)
  | http (e : Http.CErr)
  | notPerformed

variable (R : OwnerEnv) (cfg : Config R) (N : Msgs) (A : Http.Aead)

/-- Errors of data formats. -/
def liftD {α : Type} : Res Err α → Res To0Err α
  | .ok a => .ok a
  | .err e => .err (.data e)
  | .panic => .panic

/-- `OwnerSign::new` and writing it (messages/v11/to0.rs:118-141). -/
def ownerSignMsg (to0d to1d : Bytes) : Res Err Bytes := liftP (Cbor.serialize ⟨none, [R.E.encBytes to0d, to1d]⟩)

/-- What is done with a nonce (main.rs:283-311): registration data and redirect blob are made and sent. -/
def ownerSign (v : Voucher R.E) (cl : Http.Client) (nonce3 : Bytes) : Proc sig To0Err Nat := do
  let x ← Proc.lift (liftD (buildOwnerSign R cfg v nonce3))
  let b ← Proc.lift (liftD (ownerSignMsg R x.1 x.2))
  let y ← Proc.mapErr (fun x => .http x.2)
    (Http.sendQ (X := ops) A N.decAccept cl .to0OwnerSign .to0AcceptOwner b none)
  pure y.2

/-- The loop over the URLs (main.rs:252-311): an error of Hello goes on with the next URL, everything else that fails ends the
function. -/
def tryUrls (v : Voucher R.E) : List String → Proc sig To0Err Nat
  | [] => Proc.fail .notPerformed
  | u :: r => do
    Http.app (X := ops) (.connect u)
    let a ← Proc.attempt (Proc.mapErr (fun x => .http x.2)
      (Http.sendQ (X := ops) A N.decAck .new .to0Hello .to0HelloAck N.hello none))
    match a with
    | some x => ownerSign R cfg N A v x.1 x.2
    | none => tryUrls v r

/-- The URLs to which a voucher is reported (main.rs:241-263). -/
def reportUrls (v : Voucher R.E) : Res Err (List String) := do
  let l ← Rendezvous.toInterpreted R.D .owner (R.directives v.header.rv)
  pure (l.flatMap (Rendezvous.getUrls R.showIp))

/-- The checks on the voucher (main.rs:217-239). -/
def checkVoucher (v : Voucher R.E) : Res To0Err Unit :=
  if v.header.version ≠ 101 then .err .version
  else match v.chain with
    | none => .err .noChain
    | some ch =>
      match RvServer.verifyDevice R.toRvEnv ⟨0, none, cfg.deviceKeys⟩ ch with
      | .ok _ => .ok ()
      | .err e => .err (.chain e)
      | .panic => .panic

/-- `report_ov_to_rendezvous` (main.rs:210-313): the granted seconds. -/
def report (v : Voucher R.E) : Proc sig To0Err Nat := do
  Proc.lift (checkVoucher R cfg v)
  let us ← Proc.lift (liftD (reportUrls R v))
  tryUrls R cfg N A v us

end Verif.To0

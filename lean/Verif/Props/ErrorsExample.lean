import Verif.Props.Errors
import Verif.Props.OwnerExample
/-!
Cases of C94: requests to an owner server that are refused.
-/
namespace Verif.OwnerServer.Toy
open Verif Verif.Voucher Verif.Store Verif.Types Verif.ServiceInfo
open Verif.RvServer.Toy (aead)
open Verif.Errors (Rejection)

/-- A device that has done everything but TO2.Done. -/
def ready : Http.St (srv dirB) := reached env true dirB cfg some aead encode (proving dirB 9 ++ [asks dirB .to2DeviceServiceInfo (key ++ [1])])

/-- Why a request is refused then; the last argument is what the handler would refuse with. -/
def whyThen (t : MsgType) (auth : Option (List Char)) (b : Bytes) (handler : Rejection) : Option Rejection :=
  Errors.why ready (rq dirB t auth b ['s']) handler

/-- What the handler of TO2.Done says to a nonce. -/
def doneThen (n : Bytes) : Option (Option Rejection) :=
  match ready.sessions ['s'] with
  | some s => Errors.doneWhy env dirB (rq dirB .to2Done none [] []).oracle n s.data ready.world
  | none => none

def wrongNonce : Rejection := .own 101 .to2ProveDevice "Nonce6 invalid"

def chkWhy : Bool :=
  -- the right nonce, a wrong one
  decide (whyThen .to2Done (some ['s']) (key ++ List.replicate 16 6) wrongNonce = none) &&
  decide (doneThen (List.replicate 16 6) = some none) &&
  decide (whyThen .to2Done (some ['s']) (key ++ List.replicate 16 8) wrongNonce = some wrongNonce) &&
  decide (doneThen (List.replicate 16 8) = some (some wrongNonce)) &&
  -- no session, not encrypted, a message that is not due, not a message, a message for another server
  decide (whyThen .to2Done none (key ++ List.replicate 16 6) wrongNonce = some (.own 500 .to2Done "Message sequence error")) &&
  decide (whyThen .to2Done (some ['s']) (List.replicate 16 6) wrongNonce = some (.own 101 .to2Done "Error decrypting")) &&
  decide (whyThen .to2ProveDevice (some ['s']) (token 9 6) wrongNonce = some (.own 500 .to2ProveDevice "Message sequence error")) &&
  decide (whyThen .to2HelloDevice none [] wrongNonce = some .parse) &&
  decide (whyThen .to0Hello none [0x80] wrongNonce = some .notFound)

theorem chk_why : chkWhy = true := by decide +kernel

/-- The hypotheses of the theorems are met. -/
example : Errors.fromHandler .to2Done wrongNonce = true ∧ Errors.fromHandler .to2HelloDevice (Errors.fromError .to2HelloDevice) = true ∧
    .to2HelloDevice ∉ Errors.mixed := by decide

/-- What is sent to the device with the wrong nonce: it reads that the fault was in TO2.ProveDevice. -/
example : Errors.reply false 5 wrongNonce = ⟨false, .code 255, none, false,
    [0x85, 0x18, 101, 0x18, 64, 0x6e] ++ Wire.utf8 "Nonce6 invalid" ++ [0xf6, 5]⟩ := by decide +kernel

end Verif.OwnerServer.Toy

import Verif.Spec.Life
/-!
A device whose messages get lost: what is assumed of the parties in C79. The voucher's way to the owner and the registration are as in
`Spec/Life`.
-/
namespace Verif.Life
open Verif Verif.Voucher Verif.Store Verif.Types

variable {R : Whole}

/-- A message without an answer: it was lost, or the answer to it, or the server could not be reached. -/
def lost : (Device.sig R.toDevEnv).Deed → Bool
  | ⟨.net _, x⟩ => (show Option Http.NetReply from x).isNone
  | _ => false

/-- The number of messages without an answer. -/
def losses (T : Trace (Device.sig R.toDevEnv)) : Nat := (T.filter lost).length

section
variable (c : Bool) (A : Http.Aead)

/-- As `Runs`, but messages may get lost, and there may be several rounds. Replies, if there are any, have printable headers. -/
structure Tries (dev : R.E.Pub) (s' : Fs.Files) (w : Credential.Surroundings) (h : SiClient.Host) (l : Credential.Location) (n : Nat)
    (T : Trace (Device.sig R.toDevEnv)) (r : Res Device.DevErr Unit) : Prop where
  run : Prog.Ends (Device.main c A w h n) T r
  marker : w.exists? (Device.markerPath w) = false
  location : Credential.find w = some (.ok l)
  kept : ∀ (x : Option Bytes) t, T = ⟨.app (.fs (.read l.path)), x⟩ :: t → x = s' l.path
  small : ∀ s (o : Option Http.NetReply), (⟨.net s, o⟩ : (Device.sig R.toDevEnv).Deed) ∈ T → s.body.length ≤ 16384
  printable : ∀ s (q : Http.NetReply), (⟨.net s, some q⟩ : (Device.sig R.toDevEnv).Deed) ∈ T → q.auth ≠ some none
  fortunate : Device.Fortunate R.toDevEnv dev T
  signs : To0.DeviceSigns R.toDevEnv dev T
  announces : Device.Announces R.toDevEnv h T
  reboots : ∀ x : Option Bool, (⟨.app .reboot, x⟩ : (Device.sig R.toDevEnv).Deed) ∈ T → x = some true

section
variable (Br : RvServer.Backend (RvServer.Item R.toRvEnv)) (rcfg : RvServer.Config R.toRvEnv)
    {Id : Type} [DecidableEq Id] (idOf : List Char → Option Id) (encR : RvServer.Resp → Bytes)
    (kdf : Http.Request (RvServer.server R.toRvEnv c Br rcfg Id idOf A encR) → Bool)

local notation "Rv" => RvServer.server R.toRvEnv c Br rcfg Id idOf A encR

/-- Whenever in its run `T` the device talks to the server at `u`, this is the rendezvous server, where `hist'` happens after `p`: the
conversation takes place during some part of it. -/
structure AsksAt (u : String) (p hist' : RvServer.Hist R.toRvEnv c Br rcfg idOf A encR)
    (T : Trace (Device.sig R.toDevEnv)) : Prop where
  talk : ∀ a, Leg T u a → ∃ before after, hist' = before ++ after ∧
    Http.Talk (Sv := Rv) (RvServer.move R.toRvEnv Br) (Http.start Br.empty) kdf none
      (p ++ before) after a

end

section
variable (Bo : OwnerServer.VStore (Voucher R.E)) (cfg : OwnerServer.Config R.toOwnerEnv) {Id : Type} [DecidableEq Id]
    (idOf : List Char → Option Id) (encO : OwnerServer.Resp → Bytes) {M : Type} (mv : M → Bo.W → Bo.W)
    (σ0 : Http.St (OwnerServer.server R.toOwnerEnv c Bo cfg Id idOf A encO))
    (kdf : Http.Request (OwnerServer.server R.toOwnerEnv c Bo cfg Id idOf A encO) → Bool)

local notation "Own" => OwnerServer.server R.toOwnerEnv c Bo cfg Id idOf A encO

/-- Whenever in its run `T` the device talks to the server at `ou`, this is the owner's server, where `hist` happens: the conversation
takes place during some part of it. -/
structure MeetsAt (ou : String) (hist : List (Http.Event Own M)) (T : Trace (Device.sig R.toDevEnv)) : Prop where
  talk : ∀ b, Leg T ou b → ∃ before after, hist = before ++ after ∧ Http.Talk (Sv := Own) mv σ0 kdf none before after b

end

end

end Verif.Life

import Verif.Model.Errors
/-!
Why the handlers of the rendezvous server refuse: the error paths of `rendezvous-server/src/handlers_to0.rs` and `handlers_to1.rs`, which
`Model/RvServer` has as `none` only. `none` in the outer option is a panic: there is no reply.
-/
namespace Verif.Errors
open Verif Verif.RvServer

variable (R : RvEnv) (c : Bool) (B : Backend (Item R)) (cfg : Config R)

/-- A refusal by a handler. -/
abbrev refuse (code : Nat) (t : MsgType) (text : String) : Option (Option Rejection) := some (some (.own code t text))

/-- `Error::from_error` in a handler. -/
abbrev internal (t : MsgType) : Option (Option Rejection) := some (some (fromError t))

/-- Why `hello` refuses (handlers_to0.rs:13-33). -/
def helloWhy (o : Oracle) : Option (Option Rejection) :=
  match o.nonce with
  | none => internal .to0Hello
  | some _ => some none

/-- Why nothing is stored (handlers_to0.rs:198-220). -/
def registerWhy (o : Oracle) (r : Registration R) (w : B.W) : Option (Option Rejection) :=
  match guidKey r.guid with
  | none => none
  | some k =>
    match B.put w k r.item with
    | (_, .panic) => none
    | (_, .err _) => internal .to0OwnerSign
    | (w, .ok ()) =>
      if o.stopped then internal .to0OwnerSign
      else match B.setTtl o.now w k ((r.wait : Int) * (Store.second : Int)) with
        | (_, .panic) => none
        | (_, .err _) => internal .to0OwnerSign
        | (_, .ok ()) => some none

/-- Why the device's certificates are refused (handlers_to0.rs:154-188); otherwise the key. -/
def deviceWhy (chain : Option R.E.Chain) (next : R.E.Pub → Option (Option Rejection)) : Option (Option Rejection) :=
  match chain with
  | none => refuse 2 .to0OwnerSign "No device certificate"
  | some ch =>
    match verifyDevice R cfg ch with
    | .panic => none
    | .err _ => refuse 2 .to0OwnerSign "Device certificate not trusted"
    | .ok leaf =>
      match R.certPub leaf with
      | none => internal .to0OwnerSign
      | some k => next k

/-- Why the redirect blob is refused (handlers_to0.rs:124-150). -/
def blobWhy (owner : R.E.Pub) (to0d to1d : Bytes) (next : Option (Option Rejection)) : Option (Option Rejection) :=
  match to1Hash R c to1d owner with
  | .panic => none
  | .err _ => refuse 2 .to0OwnerSign "Invalid TO1D"
  | .ok h =>
    match checkTo0Hash R h to0d with
    | .panic => none
    | .err _ => internal .to0OwnerSign
    | .ok () => next

/-- Why `ownersign` refuses (handlers_to0.rs:35-221), the checks in their order. -/
def ownersignWhy (o : Oracle) (to0d to1d : Bytes) (s : Data) (w : B.W) : Option (Option Rejection) :=
  match s.nonce3 with
  | none => refuse 101 .to0OwnerSign "Request sequence failure"
  | some text =>
    match parseTo0d R c to0d with
    | .panic => none
    | .err _ => internal .to0OwnerSign
    | .ok t =>
      match parseNonce text with
      | none => none
      | some n =>
        if n ≠ t.nonce then refuse 101 .to0OwnerSign "Invalid nonce3"
        else match mfgTrusted R cfg t.voucher.header.mfgKey with
          | .panic => none
          | .err _ => refuse 2 .to0OwnerSign "Ownership voucher manufacturer not trusted"
          | .ok () =>
            match ownerOf c t.voucher with
            | .panic => none
            | .err _ => refuse 2 .to0OwnerSign "Invalid OV"
            | .ok owner =>
              blobWhy R c owner to0d to1d <| deviceWhy R cfg t.voucher.chain fun k =>
                registerWhy R B o ⟨t.voucher.header.guid, ⟨k, to1d⟩, if t.wait > cfg.maxWait then cfg.maxWait else t.wait⟩ w

/-- Why `hello_rv` refuses (handlers_to1.rs:10-77). -/
def helloRvWhy (o : Oracle) (g : Bytes) (sigOk : Bool) (info : Bytes) (w : B.W) : Option (Option Rejection) :=
  if !sigOk then refuse 101 .to1HelloRV "Unsupported signature scheme"
  else if !info.isEmpty then refuse 101 .to1HelloRV "Unsupported signature info"
  else match guidKey g with
    | none => none
    | some k =>
      match (B.load o.now w k).2 with
      | .panic => none
      | .err _ => internal .to1HelloRV
      | .ok none => refuse 6 .to1HelloRV "Device GUID not found"
      | .ok (some _) =>
        match o.nonce with
        | none => internal .to1HelloRV
        | some _ => some none

/-- Why `prove_to_rv` refuses (handlers_to1.rs:79-155). -/
def proveToRvWhy (o : Oracle) (token : Bytes) (s : Data) (w : B.W) : Option (Option Rejection) :=
  match s.nonce4 with
  | none => refuse 101 .to0OwnerSign "Request sequence failure"
  | some text =>
    match parseNonce text with
    | none => none
    | some n =>
      match s.guid with
      | none => refuse 101 .to1ProveToRV "Request sequence failure"
      | some g =>
        match parseGuid g with
        | none => none
        | some g =>
          match (B.load o.now w (Store.guidText g)).2 with
          | .panic => none
          | .err _ => refuse 101 .to1ProveToRV "Request sequence failure"
          | .ok none => refuse 6 .to1ProveToRV "Device not found"
          | .ok (some item) =>
            match getEat R c token item.key with
            | .panic => none
            | .err _ => refuse 101 .to1ProveToRV "Token invalid"
            | .ok eat => if n ≠ eat.nonce then refuse 101 .to1ProveToRV "Nonce invalid" else some none

/-- Why the rendezvous server's handlers refuse (main.rs:159-181). -/
def rvWhy (o : Oracle) (r : Req) (s : Data) (w : B.W) : Option (Option Rejection) :=
  match r with
  | .hello => helloWhy o
  | .ownerSign to0d to1d => ownersignWhy R c B cfg o to0d to1d s w
  | .helloRv g sigOk info => helloRvWhy R B o g sigOk info w
  | .prove token => proveToRvWhy R c B o token s w

end Verif.Errors

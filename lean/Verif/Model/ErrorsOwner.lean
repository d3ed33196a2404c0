import Verif.Model.ErrorsRv
/-!
Why the handlers of the owner onboarding server refuse: the error paths of `owner-onboarding-server/src/handlers.rs`, which
`Model/OwnerServer` has as `none` only. `none` in the outer option is a panic: there is no reply. TO2.Done is in `Model/Errors`.
-/
namespace Verif.Errors
open Verif Verif.Voucher Verif.Store Verif.Types Verif.OwnerServer

variable (R : OwnerEnv) (c : Bool) (B : VStore (Voucher R.E)) (cfg : Config R)

/-- Why `hello_device` refuses (handlers.rs:23-119). -/
def helloDeviceWhy (o : Oracle R) (m : Hello) (body : Bytes) (w : B.W) : Option (Option Rejection) :=
  match RvServer.guidKey m.guid with
  | none => none
  | some k =>
    match (B.load o.now w k).2 with
    | .panic => none
    | .err _ => internal .to2HelloDevice
    | .ok none => refuse 6 .to2HelloDevice "Device not found"
    | .ok (some v) =>
      if m.sigType = .other ∨ m.sigInfo ≠ [] then refuse 100 .to2HelloDevice "Invalid signature info"
      else match o.kex, o.nonce6 with
        | some (key, random), some n =>
          match proveHdrToken R cfg v m body n (newKex m.kex key random) with
          | .panic => none
          | .err _ => internal .to2HelloDevice
          | .ok _ => some none
        | _, _ => internal .to2HelloDevice

/-- Why `get_ov_next_entry` refuses (handlers.rs:121-162). An entry that does not exist is a panic. -/
def getEntryWhy (o : Oracle R) (n : Nat) (s : Data R) (w : B.W) : Option (Option Rejection) :=
  match s.guid with
  | none => refuse 101 .to2GetOVNextEntry "Request sequence failure"
  | some g =>
    match RvServer.parseGuid g with
    | none => none
    | some g =>
      match (B.load o.now w (guidText g)).2 with
      | .panic => none
      | .err _ => internal .to2GetOVNextEntry
      | .ok none => refuse 6 .to2GetOVNextEntry "Device not found"
      | .ok (some v) =>
        match entry c v n with
        | .ok _ => some none
        | _ => none

/-- Why a voucher's device key is refused (handlers.rs:221-260); otherwise the key. -/
def voucherKeyWhy (v : Voucher R.E) (next : R.E.Pub → Option (Option Rejection)) : Option (Option Rejection) :=
  match v.chain with
  | none => refuse 101 .to2ProveDevice "Device certificate chain not supported"
  | some ch =>
    match (R.certs ch).head? with
    | none => refuse 101 .to2ProveDevice "Device certificate not supported"
    | some leaf =>
      match R.leafKey leaf with
      | none => internal .to2ProveDevice
      | some k => next k

/-- Why a token is refused (handlers.rs:262-309); otherwise its nonce7 and key exchange value. -/
def checkTokenWhy (token : Bytes) (k : R.E.Pub) (n6 : Bytes) (next : Bytes × Bytes → Option (Option Rejection)) : Option (Option Rejection) :=
  match parseSign1 R.E c token with
  | .panic => none
  | .err _ => internal .to2ProveDevice
  | .ok s =>
    match R.euphNonce s.unprot with
    | none => internal .to2ProveDevice
    | some none => refuse 101 .to2ProveDevice "Missing nonce7"
    | some (some n7) =>
      match RvServer.getEat R.toRvEnv c token k with
      | .panic => none
      | .err _ => internal .to2ProveDevice
      | .ok eat =>
        match eat.payload with
        | none => refuse 101 .to2ProveDevice "Missing payload"
        | some p =>
          match R.decProve p with
          | none => internal .to2ProveDevice
          | some b => if eat.nonce ≠ n6 then refuse 101 .to2ProveDevice "Nonce invalid" else next (n7, b)

/-- Why `prove_device` refuses after its checks (handlers.rs:314-355). -/
def setupWhy (o : Oracle R) (kx : KeyExchange R.K) (cs : CipherSuite) (x : Bytes × Bytes) : Option (Option Rejection) :=
  match kx.deriveKey .owner cs o.nonInterop x.2 with
  | .panic => none
  | .err _ => internal .to2ProveDevice
  | .ok _ =>
    match o.newGuid with
    | none => none
    | some g2 =>
      match setupToken R cfg g2 x.1 with
      | .panic => none
      | .err _ => internal .to2ProveDevice
      | .ok _ => some none

/-- Why `prove_device` refuses (handlers.rs:164-355). -/
def proveDeviceWhy (o : Oracle R) (token : Bytes) (s : Data R) (w : B.W) : Option (Option Rejection) :=
  match s.guid with
  | none => refuse 101 .to2ProveDevice "Request sequence failure"
  | some g =>
    match RvServer.parseGuid g with
    | none => none
    | some g =>
      match s.nonce6 with
      | none => refuse 101 .to2ProveDevice "Request sequence failure"
      | some n6 =>
        match s.kex with
        | none => refuse 101 .to2ProveDevice "Request sequence failure"
        | some kx =>
          match s.cipher with
          | none => refuse 101 .to2GetOVNextEntry "Request sequence failure"
          | some cs =>
            match (B.load o.now w (guidText g)).2 with
            | .panic => none
            | .err _ => internal .to2ProveDevice
            | .ok none => refuse 6 .to2ProveDevice "Device not found"
            | .ok (some v) => voucherKeyWhy R v fun k => checkTokenWhy R c token k n6 (setupWhy R cfg o kx cs)

/-- Why `device_service_info_ready` refuses (handlers.rs:357-385). -/
def readyWhy (s : Data R) : Option (Option Rejection) :=
  if s.proven then some none else refuse 101 .to2GetOVNextEntry "Request sequence failure"

/-- Why `device_service_info` refuses (handlers.rs:389-474). -/
def deviceSiWhy (o : Oracle R) (si : Types.ServiceInfo) (s : Data R) : Option (Option Rejection) :=
  if !s.proven then refuse 101 .to2DeviceServiceInfo "Request sequence failure"
  else match s.guid with
    | none => refuse 101 .to2GetOVNextEntry "Request sequence failure"
    | some g =>
      match RvServer.parseGuid g with
      | none => none
      | some g =>
        if s.loops.getD 0 > maxLoops then refuse 101 .to2DeviceServiceInfo "Too many serviceinfo loops performed"
        else match Verif.ServiceInfo.perform R.encVal R.decVal o.api (guidText g) si (s.loops.getD 0) with
          | none => refuse 500 .to2DeviceServiceInfo "Error handling serviceinfo"
          | some _ => some none

/-- Why the owner server's handlers refuse (main.rs:560-600). -/
def ownerWhy (o : Oracle R) (r : Req) (s : Data R) (w : B.W) : Option (Option Rejection) :=
  match r with
  | .hello m body => helloDeviceWhy R B cfg o m body w
  | .getEntry n => getEntryWhy R c B o n s w
  | .prove token => proveDeviceWhy R c B cfg o token s w
  | .ready => readyWhy R s
  | .deviceSi si => deviceSiWhy R o si s
  | .done n => doneWhy R B o n s w

end Verif.Errors

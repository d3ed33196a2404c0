import Verif.Model.ErrorsRv
import Verif.Model.MfgServer
/-!
Why the handlers of the manufacturing server refuse: the error paths of `manufacturing-server/src/handlers/di.rs` and `diun.rs`, of
which `Model/MfgServer` does not tell the texts. `none` in the outer option is a panic: there is no reply.
-/
namespace Verif.Errors
open Verif Verif.Voucher Verif.Store Verif.Types Verif.MfgServer

variable (R : MfgEnv) (c : Bool) (B : MStore) (cfg : Config R)

/-- `x.map_err(Error::from_error::<T, _>)?`, and what follows. -/
def orInternal {α : Type} (t : MsgType) (x : Res Err α) (next : α → Option (Option Rejection)) : Option (Option Rejection) :=
  match x with
  | .panic => none
  | .err _ => internal t
  | .ok a => next a

/-- Why `connect` refuses (diun.rs:34-100). -/
def connectWhy (o : Oracle R) (m : Connect) : Option (Option Rejection) :=
  match cfg.diun with
  | none => refuse 500 .diunConnect "DIUN is disabled"
  | some d =>
    match o.kex with
    | none => internal .diunConnect
    | some (key, random) =>
      orInternal .diunConnect ((OwnerServer.newKex m.kex key random).deriveKey .owner m.cipher o.nonInterop m.keyExchange) fun _ =>
        orInternal .diunConnect (acceptToken R d m.nonce (OwnerServer.newKex m.kex key random).getPublic) fun _ => some none

/-- Why `request_key_parameters` refuses (diun.rs:102-157). -/
def requestKeyWhy (s : Data R) : Option (Option Rejection) :=
  match cfg.diun with
  | none => refuse 500 .diunRequestKeyParameters "DIUN is disabled"
  | some _ =>
    match s.diunKeys with
    | none => refuse 101 .diunRequestKeyParameters "Sequence error: no diun_keys"
    | some _ => some none

/-- Why `provide_key` refuses (diun.rs:159-189). -/
def provideKeyWhy : Option (Option Rejection) :=
  match cfg.diun with
  | none => refuse 500 .diunProvideKey "DIUN is disabled"
  | some _ => some none

/-- Why no public key is found (di.rs:75-93). -/
def deviceKeyWhy (o : Oracle R) (info : String) (s : Data R) (next : Bytes → Option (Option Rejection)) : Option (Option Rejection) :=
  match s.deviceKey with
  | some k => next k
  | none =>
    if cfg.keyStore then
      match o.keys info.toList with
      | .panic => none
      | .err _ => internal .diAppStart
      | .ok none => refuse 500 .diAppStart "No public key located"
      | .ok (some k) => next k
    else refuse 500 .diAppStart "No public key located"

/-- Why credentials are not made for a device with this key (di.rs:94-151). -/
def credentialsWhy (o : Oracle R) (info : String) (der : Bytes) : Option (Option Rejection) :=
  match R.keyFromDer der with
  | none => internal .diAppStart
  | some key =>
    orInternal .diAppStart (deviceCert R cfg o info key) fun cert =>
      match o.guid with
      | none => internal .diAppStart
      | some g =>
        if g.length ≠ 16 then internal .diAppStart
        else
          orInternal .diAppStart (newHeader R cfg g info (cert :: R.certs cfg.caChain)) fun header =>
            orInternal .diAppStart (Header.serialize R.E header) fun _ => some none

/-- Why `app_start` refuses (di.rs:51-158). -/
def appStartWhy (o : Oracle R) (raw : Bytes) (s : Data R) : Option (Option Rejection) :=
  if !cfg.enableDi && !s.performed then refuse 500 .diAppStart "Plain DI is disabled"
  else match R.decMfgInfo raw with
    | none => internal .diAppStart
    | some none => refuse 500 .diAppStart "MFG Info is not a string"
    | some (some info) => deviceKeyWhy R cfg o info s (credentialsWhy R cfg o info)

/-- Why `set_hmac` refuses (di.rs:200-265). -/
def setHmacWhy (hmac : Hash) (s : Data R) (w : B.W) : Option (Option Rejection) :=
  if !cfg.enableDi && !s.performed then refuse 500 .diSetHmac "Plain DI is disabled"
  else match s.header with
    | none => refuse 101 .diunRequestKeyParameters "Sequence error: no ownership voucher header"
    | some t =>
      match hexDecode t with
      | none => internal .diSetHmac
      | some hb =>
        orInternal .diSetHmac (Header.deserialize R.E c hb) fun header =>
          match s.chain with
          | none => refuse 101 .diunRequestKeyParameters "Sequence error: no device certificate"
          | some ch =>
            orInternal .diSetHmac (issue R c cfg header hmac ch) fun v =>
              orInternal .diSetHmac (Voucher.serialize v) fun b =>
                match (B.put w (guidText header.guid) b).2 with
                | .panic => none
                | .err _ => internal .diSetHmac
                | .ok () => some none

/-- Why the manufacturing server's handlers refuse (main.rs:371-402). -/
def mfgWhy (o : Oracle R) (r : Req) (s : Data R) (w : B.W) : Option (Option Rejection) :=
  match r with
  | .appStart info => appStartWhy R cfg o info s
  | .setHmac m => setHmacWhy R c B cfg m s w
  | .connect m => connectWhy R cfg o m
  | .requestKey => requestKeyWhy R cfg s
  | .provideKey _ _ => provideKeyWhy R cfg

end Verif.Errors

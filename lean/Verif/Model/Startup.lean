import Verif.Model.Settings
import Verif.Model.OwnerServer
/-!
Start-up of the rendezvous server (rendezvous-server/src/main.rs:62-134) and of the owner server
(owner-onboarding-server/src/main.rs:386-530) as far as keys, trusted certificates and times are concerned: from the merged settings
(`Model/Settings`) to the server's configuration. Everything else that can fail (the other settings, the stores, addresses, the
client of the service info API) is one condition, `rest`.
-/
namespace Verif.Startup
open Verif Verif.Settings

/-- How the `config` crate reads a value that is no table: is it null, as text (`Value::into_string`, which also takes numbers and
truth values, but no arrays), and as `u32`. -/
structure Scalars where
  isNull : String → Bool
  text : String → Option String
  u32 : String → Option Nat

inductive Fail where
  | settings (e : Settings.Fail)
  | missing
  | type
  | path
  | read
  | parse
  | times
  | rest
  deriving DecidableEq

variable (S : Scalars)

/-- `AbsolutePathBuf::deserialize` (util/src/servers/configuration/mod.rs:88-105); on Unix a path is absolute if it begins with a
slash. -/
def absolutePath (s : String) : Res Fail String :=
  if s = "" then .err .path
  else if s.toList.head? = some '/' then .ok s
  else .err .path

/-- A value that is read as a path. -/
def pathOf : Val → Res Fail String
  | .leaf s =>
    match S.text s with
    | some p => absolutePath p
    | none => .err .type
  | .table _ => .err .type

/-- A field of type `Option<_>` of settings (serde): missing and null are `None`. Fields that are not known are ignored. -/
def optional {α : Type} (f : Val → Res Fail α) (v : Val) (name : String) : Res Fail (Option α) :=
  match field v.fields name with
  | none => .ok none
  | some (.leaf s) =>
    if S.isNull s then .ok none
    else match f (.leaf s) with
      | .ok a => .ok (some a)
      | .err e => .err e
      | .panic => .panic
  | some (.table l) =>
    match f (.table l) with
    | .ok a => .ok (some a)
    | .err e => .err e
    | .panic => .panic

/-- A field that has to be there (serde). -/
def required {α : Type} (f : Val → Res Fail α) (v : Val) (name : String) : Res Fail α :=
  match field v.fields name with
  | none => .err .missing
  | some x => f x

/-- A value that is read as `u32`. -/
def u32Of : Val → Res Fail Nat
  | .leaf s =>
    match S.u32 s with
    | some n => .ok n
    | none => .err .type
  | .table _ => .err .type

/-- The files, and OpenSSL's readers: `X509::stack_from_pem` (a file without any certificate is an empty list), `X509::from_pem`,
`PKey::private_key_from_der`. -/
structure World (R : OwnerServer.OwnerEnv) where
  file : String → Option Bytes
  stackFromPem : Bytes → Option (List R.C.Cert)
  certFromPem : Bytes → Option R.C.Cert
  keyFromDer : Bytes → Option R.E.Priv

section
variable {R : OwnerServer.OwnerEnv} (W : World R)

/-- A file is read and parsed. -/
def load {α : Type} (parse : Bytes → Option α) (p : String) : Res Fail α :=
  match W.file p with
  | none => .err .read
  | some b =>
    match parse b with
    | none => .err .parse
    | some a => .ok a

/-- The trusted certificates of a file, if one is named (rendezvous-server/src/main.rs:91-124,
owner-onboarding-server/src/main.rs:404-420); `X5Bag::with_certs` (enhanced_types.rs:227-243). A bag is given by its certificates. -/
def trusted : Option String → Res Fail (Option (List R.C.Cert))
  | none => .ok none
  | some p =>
    match load W W.stackFromPem p with
    | .ok l => .ok (some l)
    | .err e => .err e
    | .panic => .panic

/-- The rendezvous server's settings (util/src/servers/configuration/rendezvous_server.rs) and what is made of them
(rendezvous-server/src/main.rs:67-134). -/
def rendezvous (rest : Bool) (v : Val) : Res Fail (RvServer.Config R.toRvEnv) := do
  let mfgPath ← optional S (pathOf S) v "trusted_manufacturer_keys_path"
  let devPath ← optional S (pathOf S) v "trusted_device_keys_path"
  let maxWait ← optional S (u32Of S) v "max_wait_seconds"
  if !rest then .err .rest
  else
    let mfg ← trusted W mfgPath
    let dev ← trusted W devPath
    pure ⟨maxWait.getD 2592000, mfg, dev⟩

/-- The owner's public key (owner-onboarding-server/src/main.rs:428-437). -/
def ownerPub (p : String) : Res Fail R.E.Pub := do
  let cert ← load W W.certFromPem p
  match R.certPub cert with
  | some k => pure k
  | none => .err .parse

/-- The owner server's settings (util/src/servers/configuration/owner_onboarding_server.rs) and what is made of them
(owner-onboarding-server/src/main.rs:397-530). The key pair Owner2 is generated anew (main.rs:353-384): a parameter. -/
def owner (rest : Bool) (owner2 : R.E.Priv × R.E.Pub) (v : Val) : Res Fail (OwnerServer.Config R) := do
  let devPath ← optional S (pathOf S) v "trusted_device_keys_path"
  let keyPath ← required (pathOf S) v "owner_private_key_path"
  let pubPath ← required (pathOf S) v "owner_public_key_path"
  let period ← optional S (u32Of S) v "ov_registration_period"
  let window ← optional S (u32Of S) v "ov_re_registration_window"
  let dev ← trusted W devPath
  let key ← load W W.keyFromDer keyPath
  let pub ← ownerPub W pubPath
  match OwnerServer.startupTimes period window with
  | none => .err .times
  | some (p, w) => if rest then pure ⟨key, pub, owner2.1, owner2.2, dev, p, w⟩ else .err .rest

/-- From the configuration files. -/
def fromFiles {α : Type} (y : Sys) (component : String) (f : Val → Res Fail α) : Res Fail α :=
  match settingsFor y component with
  | .ok v => f v
  | .err e => .err (.settings e)
  | .panic => .panic

end

end Verif.Startup

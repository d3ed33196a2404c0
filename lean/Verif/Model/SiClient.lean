import Verif.Model.Prog
import Verif.Model.ServiceInfo
import Verif.Model.Crypto
import Verif.Model.Text
/-!
Model of how a device carries out service info: `client-linuxapp/src/serviceinfo.rs`. What the device does to its host
are effects; each is marked with the module on whose behalf it is done (the mark has no counterpart in the code).
Nothing is assumed about their outcomes. Logging and error texts are left out.
-/
namespace Verif.SiClient
open Verif Verif.Types Verif.ServiceInfo

/-- Paths as written. -/
abbrev Path := List Char

/-- `std::process::Output`; there is no exit code if the process was killed by a signal. -/
structure Output where
  code : Option Int
  stdout : Bytes
  stderr : Bytes
  deriving DecidableEq

/-- `ExitStatus::success`. -/
def Output.success (o : Output) : Bool := o.code = some 0

/-- Changes to the host, which succeed or fail: `fs::create_dir`, `fs::create_dir_all`, `File::create`, `write_all`,
`set_permissions` (with the `metadata` call in front of it, if any), `nix::unistd::chown`, `sync_all`, and the calls of
libcryptsetup and clevis (`client-linuxapp/src/reencrypt`, not modelled further). -/
inductive Act where
  | mkdir (p : Path)
  | mkdirAll (p : Path)
  | create (p : Path)
  | append (p : Path) (b : Bytes)
  | setMode (p : Path) (mode : Nat)
  | chown (p : Path) (uid gid : Nat)
  | sync (p : Path)
  | cryptOpen (label : List Char)
  | cryptLoad
  | rebind (pin config : List Char)
  | reencrypt
  deriving DecidableEq

/-- What is asked of the host. `run` starts a program, feeds it the input if there is one, and waits for it; there is no
answer if any of this fails. `passwd` reads `/etc/passwd`, `readText` is `fs::read_to_string`, `osRelease` is
`sys_info::linux_os_release` with its pretty name. -/
inductive Op where
  | does (a : Act)
  | exists? (p : Path)
  | readText (p : Path)
  | passwd
  | run (prog : List Char) (args : List (List Char)) (input : Option (List Char))
  | osRelease
  deriving DecidableEq

/-- The answers. -/
def Op.Ans : Op → Type
  | .does _ => Bool
  | .exists? _ => Bool
  | .readText _ => Option (List Char)
  | .passwd => Option (List Char)
  | .run _ _ _ => Option Output
  | .osRelease => Option (Option (List Char))

/-- The effects: asking the host, and sending a `DeviceServiceInfo` (with `is_more` unset) to get an `OwnerServiceInfo`. -/
inductive Eff where
  | host (m : SiModule) (op : Op)
  | exchange (si : ServiceInfo)
  deriving DecidableEq

/-- Answers to all effects. -/
def Eff.Ans : Eff → Type
  | .host _ op => op.Ans
  | .exchange _ => Option OwnerSi

/-- Programs of the device. -/
abbrev sig : Sig := ⟨Eff, Eff.Ans⟩

/-- Why processing stops. -/
inductive Err where
  /-- a value of the wrong type -/
  | value
  /-- an instruction to a module that is not active -/
  | inactive
  /-- something is given twice -/
  | twice
  /-- something is missing -/
  | missing
  /-- an unknown digest algorithm or a digest of the wrong size -/
  | digestType
  /-- wrong length or digest -/
  | mismatch
  /-- a path that is not absolute -/
  | relative
  /-- an operation on the host failed -/
  | io
  /-- the user database could not be read or has no such entry -/
  | users
  /-- a program failed -/
  | failed
  /-- sending failed -/
  | net
  /-- the owner has more service info -/
  | more
  /-- too many rounds -/
  | loops
  deriving DecidableEq, Repr

/-- What the client depends on: the environment variables `BINARYFILE_PATH_PREFIX` and `SSH_KEY_PATH`, OpenSSL's
digests, `str::trim_end`, and the constants of `std::env::consts`. -/
structure Host where
  pathPrefix : Option Path
  sshPath : Option Path
  digest : HashType → Bytes → Bytes
  trimEnd : List Char → List Char
  os : List Char
  arch : List Char

/-! ### Values (data-formats/src/types.rs:475-541) -/

/-- `as_bool`. -/
def asBool : Val → Option Bool
  | .bool b => some b
  | _ => none

/-- `as_bytes`. -/
def asBytes : Val → Option Bytes
  | .bytes b => some b
  | _ => none

/-- `as_u32`: `as` keeps the low 32 bits. -/
def asU32 : Val → Option Nat
  | .int n => some (n % 2 ^ 32).toNat
  | _ => none

/-- `as_u64`: `as` keeps the low 64 bits. -/
def asU64 : Val → Option Nat
  | .int n => some (n % 2 ^ 64).toNat
  | _ => none

/-- `as_str`. -/
def asStr : Val → Option (List Char)
  | .text s => some s
  | _ => none

/-- The loop of `as_str_array`. -/
def strs : List Val → Option (List (List Char))
  | [] => some []
  | .text s :: r => (strs r).map (s :: ·)
  | _ :: _ => none

/-- `as_str_array`. -/
def asStrs : Val → Option (List (List Char))
  | .array l => strs l
  | _ => none

/-! ### Talking to the host -/

/-- Asking the host on behalf of a module. -/
def ask (m : SiModule) (op : Op) : Proc sig Err op.Ans := Proc.ask (S := sig) (.host m op)

/-- A change that must succeed (`?`). -/
def must (m : SiModule) (a : Act) : Proc sig Err Unit := do
  let ok ← ask m (.does a)
  Proc.check .io (ok : Bool)

/-- An `if` without `else`. -/
def when (b : Bool) (p : Proc sig Err Unit) : Proc sig Err Unit := if b then p else pure ()

/-- `Path::exists`. -/
def there (m : SiModule) (p : Path) : Proc sig Err Bool := ask m (.exists? p)

/-- Running a program that must be startable. -/
def run (m : SiModule) (prog : List Char) (args : List (List Char)) (input : Option (List Char)) : Proc sig Err Output := do
  let o ← ask m (.run prog args input)
  Proc.some? .io (o : Option Output)

/-- Errors of user database lookups. -/
def users {α : Type} : Res Text.PErr α → Res Err α
  | .ok a => .ok a
  | .err _ => .err .users
  | .panic => .panic

/-- `Path::join` for a path as written: an absolute second path replaces the first. -/
def joinPath (a b : Path) : Path :=
  match b with
  | '/' :: _ => b
  | _ =>
    match a.getLast? with
    | none => b
    | some '/' => a ++ b
    | some _ => a ++ '/' :: b

/-- Components dropped at the end of a path by `Path::components`. -/
def dropTail (l : List (List Char)) : List (List Char) :=
  (l.reverse.dropWhile fun c => c.isEmpty || c = ['.']).reverse

/-- `Path::parent` of an absolute path: `none` if there is nothing but the root. Only the spelling of `.` and repeated
slashes inside of the result is not followed exactly. -/
def parent (p : Path) : Option Path :=
  match dropTail (Text.splitAll '/' p) with
  | [] => none
  | l =>
    match dropTail l.dropLast with
    | [] => some ['/']
    | l' => some (joinWith ['/'] l')

/-! ### Users and keys -/

/-- `is_user_in_passwd` (util/src/passwd_shadow.rs:6-14). -/
def userExists (user : List Char) : Proc sig Err Bool := do
  let f ← ask .sshKey .passwd
  Proc.lift (users (Text.isUser (f : Option (List Char)) user))

/-- `create_user` (serviceinfo.rs:58-83). -/
def createUser (user : List Char) : Proc sig Err Unit := do
  if ← userExists user then pure ()
  else
    let o ← run .sshKey "useradd".toList ["-m".toList, user] none
    Proc.check .failed o.success

/-- `is_password_encrypted` (serviceinfo.rs:88-98). -/
def encrypted (s : List Char) : Bool :=
  "$2b$".toList.isPrefixOf s || "$6$".toList.isPrefixOf s || "$5$".toList.isPrefixOf s

/-- Encrypting a password (serviceinfo.rs:107-128): the exit status of `openssl` is not looked at; output that is not UTF-8
panics. -/
def encrypt (h : Host) (password : List Char) : Proc sig Err (List Char) := do
  if encrypted password then pure password
  else
    let o ← run .sshKey "openssl".toList ["passwd".toList, "-6".toList, "-stdin".toList] (some password)
    match String.fromUTF8? ⟨o.stdout.toArray⟩ with
    | none => Proc.lift .panic
    | some s => pure (h.trimEnd s.toList)

/-- `create_user_with_password` (serviceinfo.rs:100-148). -/
def createUserWithPassword (h : Host) (user password : List Char) : Proc sig Err Unit := do
  if ← userExists user then pure ()
  else
    let pw ← encrypt h password
    let o ← run .sshKey "useradd".toList ["-p".toList, pw, user] none
    Proc.check .failed o.success

/-- What is written for a key (serviceinfo.rs:186-188). -/
def keyBlock (contents key : List Char) : List Char :=
  contents ++ "\n# These keys are installed by FIDO Device Onboarding\n".toList ++ key ++
    "\n# End of FIDO Device Onboarding keys\n".toList

/-- `install_ssh_key` (serviceinfo.rs:150-198). -/
def installKey (h : Host) (user key : List Char) : Proc sig Err Unit := do
  let f ← ask .sshKey .passwd
  let (uid, gid, home) ← Proc.lift (users (Text.uidGidHome (f : Option (List Char)) user))
  let path ← (match h.sshPath with
    | some p => pure p
    | none => do
      let dir := joinPath home ".ssh".toList
      let b ← there .sshKey dir
      when (!b) do
        must .sshKey (.mkdir dir)
        must .sshKey (.setMode dir 0o700)
        must .sshKey (.chown dir uid gid)
      pure (joinPath dir "authorized_keys".toList) : Proc sig Err Path)
  let b ← there .sshKey path
  let contents ← (if b then do
      let c ← ask .sshKey (.readText path)
      Proc.some? .io (c : Option (List Char))
    else pure [] : Proc sig Err (List Char))
  must .sshKey (.create path)
  must .sshKey (.append path (String.ofList (keyBlock contents key)).toUTF8.toList)
  must .sshKey (.setMode path 0o600)
  must .sshKey (.chown path uid gid)

/-- Installing several keys (serviceinfo.rs:727-734). -/
def installKeys (h : Host) (user : List Char) : List (List Char) → Proc sig Err Unit
  | [] => pure ()
  | k :: r => do
    installKey h user k
    installKeys h user r

/-- The values of the `sshkey` module (serviceinfo.rs:452-454). -/
structure UserSt where
  user : Option (List Char) := none
  password : Option (List Char) := none
  keys : Option (List Char) := none

/-- One instruction of the `sshkey` module (serviceinfo.rs:485-498). -/
def userItem (k : List Char) (v : Val) (u : UserSt) : Proc sig Err UserSt :=
  if k = "username".toList then do
    let s ← Proc.some? .value (asStr v)
    pure { u with user := some s }
  else if k = "password".toList then do
    let s ← Proc.some? .value (asStr v)
    pure { u with password := some s }
  else if k = "sshkeys".toList then do
    let s ← Proc.some? .value (asStr v)
    pure { u with keys := some s }
  else pure u

/-- What is done at the end for the `sshkey` module (serviceinfo.rs:705-736). -/
def setUpUser (h : Host) (u : UserSt) : Proc sig Err Unit := do
  let user ← Proc.some? .missing u.user
  Proc.check .missing (u.keys.isSome || u.password.isSome)
  (match u.password with
    | some p => createUserWithPassword h user p
    | none => pure ())
  match u.keys with
  | some ks => do
    createUser user
    installKeys h user (Text.splitAll ';' ks)
  | none => pure ()

/-! ### Subscriptions -/

/-- The values of the subscription manager module (serviceinfo.rs:456-458). -/
structure RhsmSt where
  org : Option (List Char) := none
  key : Option (List Char) := none
  insights : Option Bool := none

/-- One instruction of that module (serviceinfo.rs:505-521). -/
def rhsmItem (k : List Char) (v : Val) (r : RhsmSt) : Proc sig Err RhsmSt :=
  if k = "organization_id".toList then do
    let s ← Proc.some? .value (asStr v)
    pure { r with org := some s }
  else if k = "activation_key".toList then do
    let s ← Proc.some? .value (asStr v)
    pure { r with key := some s }
  else if k = "perform_insights".toList then do
    let b ← Proc.some? .value (asBool v)
    pure { r with insights := some b }
  else pure r

/-- What is done at the end for it (serviceinfo.rs:201-223, 738-753): exit statuses are not looked at. -/
def rhsm (r : RhsmSt) : Proc sig Err Unit :=
  match r.org, r.key, r.insights with
  | some org, some key, some insights => do
    let _ ← run .subscriptionManager "subscription-manager".toList
      ["register".toList, "--org=".toList ++ org, "--activationkey=".toList ++ key] none
    when insights do
      let _ ← run .subscriptionManager "insights-client".toList ["--register".toList] none
  | _, _, _ => Proc.fail .missing

/-! ### Files -/

/-- `BinaryFileInProgress` (serviceinfo.rs:225-233). `length` and `contents` are only ever set together (:544-549), so they
are one field here; the digest is used at once (:569-618). -/
structure FileSt where
  path : Option Path := none
  body : Option (Nat × Bytes) := none
  mode : Option Nat := none

/-- `destination_path` (serviceinfo.rs:249-262). -/
def destination (h : Host) (p : Path) : Option Path :=
  match p with
  | '/' :: r =>
    match h.pathPrefix with
    | some d => some (joinPath d r)
    | none => some p
  | _ => none

/-- `deploy` (serviceinfo.rs:264-287). -/
def deploy (h : Host) (p : Path) (contents : Bytes) (mode : Option Nat) : Proc sig Err Unit := do
  let path ← Proc.some? .relative (destination h p)
  match parent path with
  | none => Proc.lift .panic
  | some dir => do
    must .binaryFile (.mkdirAll dir)
    must .binaryFile (.create path)
    must .binaryFile (.append path contents)
    must .binaryFile (.setMode path (mode.getD 0o600))
    must .binaryFile (.sync path)

/-- The digest algorithm named by a key: `key.split('-').nth(1)` (serviceinfo.rs:570, 574-580). -/
def shaType (k : List Char) : Option HashType :=
  match (Text.splitAll '-' k)[1]? with
  | some t =>
    if t = "256".toList then some .sha256
    else if t = "384".toList then some .sha384
    else none
  | none => none

/-- `Hash::from_digest` and `compare_data` (serviceinfo.rs:581-582, 601-612; types.rs:86-91, 131-140): lengths that differ
panic. -/
def checkDigest (h : Host) (t : HashType) (d contents : Bytes) : Res Err Unit :=
  match memcmpEq d (h.digest t contents) with
  | .ok true => .ok ()
  | .ok false => .err .mismatch
  | .err _ => .err .mismatch
  | .panic => .panic

/-- One instruction of the binary file module (serviceinfo.rs:522-618). `Vec::with_capacity` panics from 2^63 on; running
out of memory below that is not modelled. -/
def fileItem (h : Host) (k : List Char) (v : Val) (f : FileSt) : Proc sig Err FileSt :=
  if k = "name".toList then
    if f.path.isSome then Proc.fail .twice
    else do
      let s ← Proc.some? .value (asStr v)
      pure { f with path := some s }
  else if k = "length".toList then
    if f.body.isSome then Proc.fail .twice
    else do
      let n ← Proc.some? .value (asU64 v)
      if n < 2 ^ 63 then pure { f with body := some (n, []) } else Proc.lift .panic
  else if "data".toList.isPrefixOf k then
    match f.body with
    | none => Proc.fail .missing
    | some (n, c) => do
      let b ← Proc.some? .value (asBytes v)
      pure { f with body := some (n, c ++ b) }
  else if k = "mode".toList then
    if f.mode.isSome then Proc.fail .twice
    else do
      let n ← Proc.some? .value (asU32 v)
      pure { f with mode := some n }
  else if "sha-".toList.isPrefixOf k then do
    let d ← Proc.some? .value (asBytes v)
    let t ← Proc.some? .digestType (shaType k)
    Proc.check .digestType (d.length = t.digestSize)
    let p ← Proc.some? .missing f.path
    let (n, c) ← Proc.some? .missing f.body
    Proc.check .mismatch (c.length = n)
    Proc.lift (checkDigest h t d c)
    deploy h p c f.mode
    pure {}
  else pure f

/-! ### Commands -/

/-- `CommandInProgress` (serviceinfo.rs:383-390). -/
structure CmdSt where
  command : Option (List Char) := none
  args : List (List Char) := []
  mayFail : Bool := false
  returnStdout : Bool := false
  returnStderr : Bool := false

/-- Exit codes as values: `Option<i32>`. -/
def codeVal : Option Int → Val
  | some n => .int n
  | none => .null

/-- What is reported about a command that could be started (serviceinfo.rs:404-435). -/
def report (command : List Char) (c : CmdSt) (o : Output) : List Item :=
  [(.command, "command".toList, .text command), (.command, "args".toList, .array (c.args.map .text))] ++
    (if c.returnStdout then [(.command, "stdout".toList, .bytes o.stdout)] else []) ++
    (if c.returnStderr then [(.command, "stderr".toList, .bytes o.stderr)] else []) ++
    [(.command, "exit_code".toList, codeVal o.code)]

/-- `CommandInProgress::execute` (serviceinfo.rs:403-446): without a command, `unwrap` panics. What was added to the answer
before an error is never sent, as an error ends everything; so it is returned only after success. -/
def execute (c : CmdSt) (out : List Item) : Proc sig Err (List Item) :=
  match c.command with
  | none => Proc.lift .panic
  | some command => do
    let o ← run .command command c.args none
    Proc.check .failed (c.mayFail || o.success)
    pure (out ++ report command c o)

/-- One instruction of the command module (serviceinfo.rs:619-649). -/
def cmdItem (k : List Char) (v : Val) (c : CmdSt) (out : List Item) : Proc sig Err (CmdSt × List Item) :=
  if k = "command".toList then
    if c.command.isSome then Proc.fail .twice
    else do
      let s ← Proc.some? .value (asStr v)
      pure ({ c with command := some s }, out)
  else if k = "args".toList then do
    let l ← Proc.some? .value (asStrs v)
    pure ({ c with args := l }, out)
  else if k = "may_fail".toList then do
    let b ← Proc.some? .value (asBool v)
    pure ({ c with mayFail := b }, out)
  else if k = "return_stdout".toList then do
    let b ← Proc.some? .value (asBool v)
    pure ({ c with returnStdout := b }, out)
  else if k = "return_stderr".toList then do
    let b ← Proc.some? .value (asBool v)
    pure ({ c with returnStderr := b }, out)
  else if k = "execute".toList then do
    let out ← execute c out
    pure ({}, out)
  else pure (c, out)

/-! ### Disk encryption -/

/-- `DiskEncryptionInProgress` (serviceinfo.rs:290-296). -/
structure DiskSt where
  label : Option (List Char) := none
  pin : Option (List Char) := none
  config : Option (List Char) := none
  reencrypt : Bool := false

/-- `DiskEncryptionInProgress::execute` (serviceinfo.rs:308-379). -/
def diskExecute (d : DiskSt) (out : List Item) : Proc sig Err (List Item) := do
  let label ← Proc.some? .missing d.label
  let pin ← Proc.some? .missing d.pin
  let config ← Proc.some? .missing d.config
  must .diskEncryptionClevis (.cryptOpen label)
  must .diskEncryptionClevis .cryptLoad
  must .diskEncryptionClevis (.rebind pin config)
  when d.reencrypt (must .diskEncryptionClevis .reencrypt)
  pure (out ++ [(.diskEncryptionClevis, "disk-label".toList, .text label),
    (.diskEncryptionClevis, "bound".toList, .bool true),
    (.diskEncryptionClevis, "reencrypt-initiated".toList, .bool d.reencrypt)])

/-- One instruction of the disk encryption module (serviceinfo.rs:650-702). -/
def diskItem (k : List Char) (v : Val) (d : DiskSt) (out : List Item) : Proc sig Err (DiskSt × List Item) :=
  if k = "disk-label".toList then
    if d.label.isSome then Proc.fail .twice
    else do
      let s ← Proc.some? .value (asStr v)
      pure ({ d with label := some s }, out)
  else if k = "pin".toList then
    if d.pin.isSome then Proc.fail .twice
    else do
      let s ← Proc.some? .value (asStr v)
      pure ({ d with pin := some s }, out)
  else if k = "config".toList then
    if d.config.isSome then Proc.fail .twice
    else do
      let s ← Proc.some? .value (asStr v)
      pure ({ d with config := some s }, out)
  else if k = "reencrypt".toList then do
    let b ← Proc.some? .value (asBool v)
    pure ({ d with reencrypt := b }, out)
  else if k = "execute".toList then do
    let out ← diskExecute d out
    pure ({}, out)
  else pure (d, out)

/-! ### Processing a message -/

/-- The variables of `process_serviceinfo_in` (serviceinfo.rs:450-466); the set of active modules is a list. -/
structure St where
  active : List SiModule := []
  user : UserSt := {}
  rhsm : RhsmSt := {}
  file : FileSt := {}
  cmd : CmdSt := {}
  disk : DiskSt := {}
  reboot : Bool := false
  out : List Item := []

/-- The instruction of an active module (serviceinfo.rs:485-702). -/
def obey (h : Host) (s : St) (m : SiModule) (k : List Char) (v : Val) : Proc sig Err St :=
  match m with
  | .sshKey => do
    let u ← userItem k v s.user
    pure { s with user := u }
  | .reboot =>
    if k = "reboot".toList then do
      let b ← Proc.some? .value (asBool v)
      pure { s with reboot := b }
    else pure s
  | .subscriptionManager => do
    let r ← rhsmItem k v s.rhsm
    pure { s with rhsm := r }
  | .binaryFile => do
    let f ← fileItem h k v s.file
    pure { s with file := f }
  | .command => do
    let (c, out) ← cmdItem k v s.cmd s.out
    pure { s with cmd := c, out := out }
  | .diskEncryptionClevis => do
    let (d, out) ← diskItem k v s.disk s.out
    pure { s with disk := d, out := out }
  | _ => pure s

/-- One round of the loop (serviceinfo.rs:468-703). -/
def item (h : Host) (s : St) : Item → Proc sig Err St
  | (m, k, v) =>
    if k = "active".toList then do
      let b ← Proc.some? .value (asBool v)
      pure { s with active := if b then m :: s.active else s.active.filter (· ≠ m) }
    else if m ∈ s.active then obey h s m k v
    else Proc.fail .inactive

/-- The loop. -/
def items (h : Host) : St → List Item → Proc sig Err St
  | s, [] => pure s
  | s, x :: r => do
    let s ← item h s x
    items h s r

/-- What is done after the loop (serviceinfo.rs:705-756). -/
def finish (h : Host) (s : St) : Proc sig Err (Bool × List Item) := do
  when (s.active.contains .sshKey) (setUpUser h s.user)
  when (s.active.contains .subscriptionManager) (rhsm s.rhsm)
  pure (s.reboot, s.out)

/-- `process_serviceinfo_in` (serviceinfo.rs:449-756): whether a reboot was asked for, and the answer. -/
def process (h : Host) (l : List Item) : Proc sig Err (Bool × List Item) := do
  let s ← items h {} l
  finish h s

/-! ### All messages -/

/-- `find_available_modules` (serviceinfo.rs:27-48). -/
def findModules : Proc sig Err (List SiModule) := do
  let r ← there .devMod "/usr/sbin/subscription-manager".toList
  let c ← there .devMod "/usr/bin/clevis".toList
  pure ([.devMod, .sshKey, .binaryFile, .command, .reboot] ++
    (if r then [.subscriptionManager] else []) ++ (if c then [.diskEncryptionClevis] else []))

/-- The first answer (serviceinfo.rs:764-793) with `add_modules` (data-formats/src/types.rs:758-777). -/
def devmod (h : Host) (version : List Char) (ms : List SiModule) : List Item :=
  [(.devMod, "active".toList, .bool true), (.devMod, "os".toList, .text h.os), (.devMod, "arch".toList, .text h.arch),
   (.devMod, "version".toList, .text version), (.devMod, "device".toList, .text "unused".toList),
   (.devMod, "sep".toList, .text ":".toList), (.devMod, "bin".toList, .text h.arch),
   (.devMod, "nummodules".toList, .int ms.length),
   (.devMod, "modules".toList, .array (.int 0 :: .int ms.length :: ms.map fun m => .text m.display))]

/-- `MAX_SERVICE_INFO_LOOPS` (serviceinfo.rs:25). -/
def maxRounds : Nat := 1000

/-- The loop of `perform_to2_serviceinfos` (serviceinfo.rs:763-822) with the given number of rounds left; `enc` and `dec`
write and read values. -/
def rounds (h : Host) (enc : Val → Bytes) (dec : Bytes → Option Val) : Nat → Bool → List Item → Proc sig Err Bool
  | 0, _, _ => Proc.fail .loops
  | n + 1, reboot, out => do
    let r ← Proc.ask (S := sig) (.exchange (toSi enc out))
    let r ← Proc.some? .net (r : Option OwnerSi)
    if r.isDone then pure reboot
    else if r.isMore then Proc.fail .more
    else do
      let (b, out) ← process h (siItems dec r.si)
      rounds h enc dec n (if reboot then reboot else b) out

/-- `perform_to2_serviceinfos` (serviceinfo.rs:758-828). -/
def perform (h : Host) (enc : Val → Bytes) (dec : Bytes → Option Val) : Proc sig Err Bool := do
  let ms ← findModules
  let os ← ask .devMod .osRelease
  let os ← Proc.some? .io (os : Option (Option (List Char)))
  match os with
  | none => Proc.lift .panic
  | some version => rounds h enc dec maxRounds false (devmod h version ms)

end Verif.SiClient

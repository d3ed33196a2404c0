import Verif.Model.Prog
import Verif.Model.Text
/-!
Binding and re-encrypting the disk of a device (`client-linuxapp/src/reencrypt`): replacing the Clevis binding of a LUKS2
device, starting its re-encryption, and going on with pending re-encryptions at a later start. What libcryptsetup, the
device mapper and the commands `clevis` and `cryptsetup` do is not part of this model; they are effects with arbitrary
answers here, and `Verif/Spec/Disk.lean` says what is assumed of them.
-/
namespace Verif.Disk
open Verif

/-- `serde_json::Value`: numbers, booleans and null are only told apart from the rest. -/
inductive Json where
  | obj (o : List (List Char × Json))
  | arr (l : List Json)
  | str (s : List Char)
  | other

/-- `libcryptsetup_rs::CryptTokenInfo`. -/
inductive TokenInfo where
  | invalid
  | inactive
  | internal (name : List Char)
  | internalUnknown (name : List Char)
  | external (name : List Char)
  | externalUnknown (name : List Char)
  deriving DecidableEq

/-- What is asked of the surroundings. `Result`s of the library are answered by options (or Booleans, if there is no value).
`run` is a command with its arguments and what is written to its standard input (if anything): answered by its standard
output if it could be started, was given all of the input and ended with success. (Which of these went wrong otherwise
is only seen in the text of the error.) -/
inductive Op where
  | tokenStatus (i : Nat)
  | tokenJson (i : Nat)
  | path
  | load
  | removeToken (i : Nat)
  | destroySlot (s : Nat)
  | run (cmd : List Char) (args : List (List Char)) (input : Option Bytes)
  | reencryptStatus
  | openByName (name : List Char)
  | listDevices
  | deviceUuid (name : List Char)

/-- Answers. `reencryptStatus`: whether it is something else than `CryptReencryptInfo::None`. `deviceUuid`: a device may
have none. -/
def Op.Ans : Op → Type
  | .tokenStatus _ => Option TokenInfo
  | .tokenJson _ => Option Json
  | .path => Option (List Char)
  | .load => Bool
  | .removeToken _ => Bool
  | .destroySlot _ => Bool
  | .run _ _ _ => Option Bytes
  | .reencryptStatus => Option Bool
  | .openByName _ => Bool
  | .listDevices => Option (List (List Char))
  | .deviceUuid _ => Option (Option (List Char))

/-- Programs working on a disk. -/
abbrev sig : Sig := ⟨Op, Op.Ans⟩

/-- Failures. -/
inductive Err where
  | multiple
  | noToken
  | json
  | host
  deriving DecidableEq

/-- The name of tokens of Clevis (rebind.rs:13). -/
def clevis : List Char := "clevis".toList

/-- The loop of `get_clevis_token` (rebind.rs:11-34) over the remaining indices, with the token found so far. -/
def findToken : List Nat → Option Nat → Proc sig Err (Option Nat)
  | [], found => pure found
  | i :: l, found => do
    let a ← Proc.ask (S := sig) (.tokenStatus i)
    let info ← Proc.some? .host (a : Option TokenInfo)
    if info = .externalUnknown clevis then
      match found with
      | some _ => Proc.fail .multiple
      | none => findToken l (some i)
    else findToken l found

/-- `get_clevis_token` (rebind.rs:7-40). -/
def getClevisToken : Proc sig Err Nat := do
  let found ← findToken (List.range 10) none
  Proc.some? .noToken found

/-- `Value::get` on an object. -/
def Json.get (o : List (List Char × Json)) (k : List Char) : Option Json := (o.find? fun x => x.1 = k).map (·.2)

/-- What `get_clevis_keyslot` reads from the description of a token (rebind.rs:46-57). -/
def firstSlot (j : Json) : Option Nat :=
  match j with
  | .obj o =>
    match Json.get o "keyslots".toList with
    | some (.arr (.str s :: _)) => Text.parseU32 s
    | _ => none
  | _ => none

/-- `get_clevis_keyslot` (rebind.rs:42-58). -/
def getClevisKeyslot (token : Nat) : Proc sig Err Nat := do
  let a ← Proc.ask (S := sig) (.tokenJson token)
  let j ← Proc.some? .host (a : Option Json)
  Proc.some? .json (firstSlot j)

/-- `u32::to_string`. -/
def decimal (n : Nat) : List Char :=
  if h : n < 10 then [Char.ofNat (48 + n)] else decimal (n / 10) ++ [Char.ofNat (48 + n % 10)]
termination_by n
decreasing_by omega

/-- `get_device_path` (rebind.rs:69-73). -/
def devicePath : Proc sig Err (List Char) := do
  let a ← Proc.ask (S := sig) .path
  Proc.some? .host (a : Option (List Char))

/-- A command that must succeed. -/
def command (cmd : List Char) (args : List (List Char)) (input : Option Bytes) : Proc sig Err Bytes := do
  let a ← Proc.ask (S := sig) (.run cmd args input)
  Proc.some? .host (a : Option Bytes)

/-- `get_clevis_token_slot_pass` (rebind.rs:60-97). -/
def getClevisTokenSlotPass : Proc sig Err (Nat × Nat × Bytes) := do
  let token ← getClevisToken
  let slot ← getClevisKeyslot token
  let path ← devicePath
  let pass ← command clevis ["luks".toList, "pass".toList, "-d".toList, path, "-s".toList, decimal slot] none
  pure (token, slot, pass)

/-- A library call that must succeed. -/
def must (o : Op) (h : o.Ans = Bool) : Proc sig Err Unit := do
  let a ← Proc.ask (S := sig) o
  Proc.check .host (h ▸ a : Bool)

/-- `clevis_bind` (rebind.rs:99-160): the password is followed by a newline. -/
def clevisBind (pass : Bytes) (pin config : List Char) : Proc sig Err Unit := do
  let path ← devicePath
  let _ ← command clevis ["luks".toList, "bind".toList, "-d".toList, path, pin, config, "-y".toList, "-k".toList, "-".toList]
    (some (pass ++ [10]))
  must .load rfl

/-- `delete_clevis_token_and_slot` (rebind.rs:162-184). -/
def deleteTokenAndSlot (token slot : Nat) : Proc sig Err Unit := do
  must (.removeToken token) rfl
  must (.destroySlot slot) rfl

/-- `rebind_clevis` (rebind.rs:186-201). -/
def rebindClevis (pin config : List Char) : Proc sig Err Unit := do
  let (token, slot, pass) ← getClevisTokenSlotPass
  clevisBind pass pin config
  deleteTokenAndSlot token slot

/-- `initiate_reencrypt` (mod.rs:9-58). -/
def initiateReencrypt : Proc sig Err Unit := do
  let (_, slot, pass) ← getClevisTokenSlotPass
  let path ← devicePath
  let _ ← command "cryptsetup".toList ["reencrypt".toList, "--init-only".toList, path, "--key-file".toList, "-".toList,
    "--key-slot".toList, decimal slot] (some pass)
  pure ()

/-- `perform_reencrypt` (mod.rs:60-140). The parameters given to the status query are not modelled. -/
def performReencrypt (name : List Char) : Proc sig Err Unit := do
  must (.openByName name) rfl
  must .load rfl
  let a ← Proc.ask (S := sig) .reencryptStatus
  let pending : Bool ← Proc.some? .host (a : Option Bool)
  if pending then do
    let (_, _, pass) ← getClevisTokenSlotPass
    let _ ← command "cryptsetup".toList ["reencrypt".toList, "--resume-only".toList, "--active-name".toList, name,
      "--key-file".toList, "-".toList] (some pass)
    pure ()
  else pure ()

/-- The loop of `perform_required_reencrypts` (mod.rs:147-166). Names and UUIDs are taken to be UTF-8. -/
def performEach : List (List Char) → Proc sig Err Unit
  | [] => pure ()
  | name :: l => do
    let a ← Proc.ask (S := sig) (.deviceUuid name)
    let uuid ← Proc.some? .host (a : Option (Option (List Char)))
    match uuid with
    | some u =>
      if "CRYPT-LUKS2-".toList.isPrefixOf u then do
        performReencrypt name
        performEach l
      else performEach l
    | none => performEach l

/-- `perform_required_reencrypts` (mod.rs:142-169). -/
def performRequiredReencrypts : Proc sig Err Unit := do
  let a ← Proc.ask (S := sig) .listDevices
  let l ← Proc.some? .host (a : Option (List (List Char)))
  performEach l

end Verif.Disk

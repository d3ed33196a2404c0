import Verif.Basic
/-!
Rust string functions used by several programs, and `util/src/passwd_shadow.rs`.
-/
namespace Verif.Text
open Verif

/-- `str::split(c)`: always yields at least one (possibly empty) part. -/
def splitAll (c : Char) : List Char → List (List Char)
  | [] => [[]]
  | x :: r =>
    if x = c then [] :: splitAll c r
    else match splitAll c r with
      | [] => [[x]]
      | h :: t => (x :: h) :: t

/-- The line ending `\r` of a line that was ended by `\n`. -/
def stripCr (l : List Char) : List Char :=
  match l.getLast? with
  | some '\r' => l.dropLast
  | _ => l

/-- `str::lines`: split at `\n` or `\r\n`; the last line ending is optional. -/
def lines (s : List Char) : List (List Char) :=
  let parts := splitAll '\n' s
  parts.dropLast.map stripCr ++ (match parts.getLast? with
    | some [] => []
    | some l => [l]
    | none => [])

/-- `str::parse::<u32>`: an optional plus sign, then at least one digit, below 2^32. -/
def parseU32 (s : List Char) : Option Nat :=
  let digits := match s with
    | '+' :: r => r
    | _ => s
  if digits.isEmpty || !digits.all (fun ch => 48 ≤ ch.toNat && ch.toNat ≤ 57) then none
  else
    let n := digits.foldl (fun n ch => 10 * n + (ch.toNat - 48)) 0
    if n < 2 ^ 32 then some n else none

/-! ### User database -/

/-- Failures of the lookups. -/
inductive PErr where
  | read
  | parse
  | notFound
  deriving DecidableEq, Repr

/-- The fields of the first line for a user. -/
def entry (contents user : List Char) : Option (List (List Char)) :=
  ((lines contents).map (splitAll ':')).find? fun f => f.head? = some user

/-- `is_user_in_passwd` (passwd_shadow.rs:6-14); the file is `none` if it cannot be read. -/
def isUser (file : Option (List Char)) (user : List Char) : Res PErr Bool :=
  match file with
  | none => .err .read
  | some s => .ok (entry s user).isSome

/-- Indexing panics when out of range. -/
def index (l : List (List Char)) (n : Nat) : Res PErr (List Char) :=
  match l[n]? with
  | some x => .ok x
  | none => .panic

/-- A number in a field. -/
def field (l : List (List Char)) (n : Nat) : Res PErr Nat := do
  let x ← index l n
  match parseU32 x with
  | some v => .ok v
  | none => .err .parse

/-- `get_user_uid_gid_home` (passwd_shadow.rs:18-30). -/
def uidGidHome (file : Option (List Char)) (user : List Char) : Res PErr (Nat × Nat × List Char) :=
  match file with
  | none => .err .read
  | some s =>
    match entry s user with
    | none => .err .notFound
    | some f => do
      let u ← field f 2
      let g ← field f 3
      let h ← index f 5
      pure (u, g, h)

/-- `get_user_passwd` (passwd_shadow.rs:34-42). -/
def password (file : Option (List Char)) (user : List Char) : Res PErr (List Char) :=
  match file with
  | none => .err .read
  | some s =>
    match entry s user with
    | none => .err .notFound
    | some f => index f 1

end Verif.Text

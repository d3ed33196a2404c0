import Verif.Model.Voucher
import Verif.Model.Store
/-!
The C library (`libfdo-data/src`): its calls as steps on the last error and the objects handed out.
-/
namespace Verif.CApi
open Verif Verif.Voucher

variable {E : Env} (c : Bool)

/-- `deserialize_many_from_reader` of vouchers (data-formats/src/serializable.rs:33-64, ownershipvoucher.rs:95-104): reading
stops at the error "no data", also if it comes from inside a voucher. Fuel as in `Cbor.deserializeMany`. -/
def vouchersAux : Nat → Bytes → Res Err (List (Voucher E))
  | 0, _ => .err (.parse .io)
  | fuel + 1, inp =>
    match deserialize c inp with
    | .ok (v, rest) => do
      let vs ← vouchersAux fuel rest
      pure (v :: vs)
    | .err (.parse .noData) => .ok []
    | .err e => .err e
    | .panic => .panic

/-- See `vouchersAux`. -/
def vouchers (inp : Bytes) : Res Err (List (Voucher E)) := vouchersAux c (inp.length + 1) inp

/-- A pointer to a voucher: one from `fdo_ownershipvoucher_from_data`, or into a list. -/
inductive Ref where
  | null
  | own (n : Nat)
  | item (list i : Nat)
  deriving DecidableEq, Repr

/-- Calls (lib.rs:27-57, ownershipvoucher.rs:19-228). Pointers to lists and strings are numbers, `none` is NULL; a data
pointer comes with the bytes it points to. -/
inductive Call where
  | freeString (s : Option Nat)
  | lastError
  | listGet (l : Option Nat) (i : Nat)
  | listLen (l : Option Nat)
  | listFree (l : Option Nat)
  | manyFromData (d : Option Bytes)
  | fromData (d : Option Bytes)
  | free (v : Ref)
  | version (v : Ref)
  | guid (v : Ref)
  | deviceInfo (v : Ref)
  deriving DecidableEq, Repr

/-- Returned values. -/
inductive Ret where
  | void
  | str (s : Option Nat)
  | ref (v : Ref)
  | list (l : Option Nat)
  | len (n : Nat)
  | int (n : Int)
  deriving DecidableEq, Repr

variable (E) in
/-- `LAST_ERROR` (lib.rs:10) and the live allocations. -/
structure St where
  err : Option Bytes
  lists : Nat → Option (List (Voucher E))
  vouchers : Nat → Option (Voucher E)
  strings : Nat → Option Bytes
  next : Nat

/-- At the start of the process. -/
def init : St E := ⟨none, fun _ => none, fun _ => none, fun _ => none, 0⟩

variable (E) in
/-- What a call does: it returns, it aborts the process (a panic in an `extern "C"` function), or it uses freed memory. -/
inductive Out where
  | done (s : St E) (r : Ret)
  | abort
  | undefined

/-- A map changed at one place. -/
def upd {α : Type} (f : Nat → Option α) (n : Nat) (a : Option α) : Nat → Option α := fun m => if m = n then a else f m

/-- `clear_last_error`, `set_last_error` (lib.rs:12-25). -/
def St.clear (s : St E) : St E := { s with err := none }

/-- See `St.clear`. -/
def St.fail (s : St E) (m : Bytes) : St E := { s with err := some m }

/-- `CString::into_raw`. -/
def St.give (s : St E) (b : Bytes) : Out E :=
  .done { s with strings := upd s.strings s.next (some b), next := s.next + 1 } (.str (some s.next))

/-- The voucher behind a pointer other than NULL. -/
def St.at (s : St E) : Ref → Option (Voucher E)
  | .null => none
  | .own n => s.vouchers n
  | .item l i => match s.lists l with
    | some vs => vs[i]?
    | none => none

/-- Use a voucher pointer. -/
def St.with (s : St E) (r : Ref) (null : Out E) (f : Voucher E → Out E) : Out E :=
  if r = .null then null else match s.at r with
    | some v => f v
    | none => .undefined

/-- Use a list pointer. -/
def St.withList (s : St E) (l : Option Nat) (null : Out E) (f : Nat → List (Voucher E) → Out E) : Out E :=
  match l with
  | none => null
  | some n => match s.lists n with
    | some vs => f n vs
    | none => .undefined

/-- One call. `text` is `Error::to_string`, `msg` the messages about NULL arguments and about interior zero bytes.
`addr_of!` never gives NULL, so `fdo_get_last_error` unwraps the error even if there is none (lib.rs:45-56); `CString::new`
fails on interior zero bytes, which the text of a GUID does not have. -/
def call (text : Err → Bytes) (msg : Bytes) (s : St E) : Call → Out E
  | .freeString p =>
    match p with
    | none => .done s.clear .void
    | some n => if (s.strings n).isSome then .done { s.clear with strings := upd s.strings n none } .void else .undefined
  | .lastError =>
    match s.err with
    | none => .abort
    | some e => if (0 : UInt8) ∈ e then .abort else s.give e
  | .listGet l i =>
    s.withList l (.done (s.clear.fail msg) (.ref .null)) fun n vs =>
      .done s.clear (.ref (if i < vs.length then .item n i else .null))
  | .listLen l => s.withList l (.done (s.clear.fail msg) (.len 0)) fun _ vs => .done s.clear (.len vs.length)
  | .listFree l =>
    s.withList l (.done (s.clear.fail msg) .void) fun n _ => .done { s.clear with lists := upd s.lists n none } .void
  | .manyFromData d =>
    match d with
    | none => .done (s.clear.fail msg) (.list none)
    | some b => match vouchers c b with
      | .ok vs => .done { s.clear with lists := upd s.lists s.next (some vs), next := s.next + 1 } (.list (some s.next))
      | .err e => .done (s.clear.fail (text e)) (.list none)
      | .panic => .abort
  | .fromData d =>
    match d with
    | none => .done (s.clear.fail msg) (.ref .null)
    | some b => match deserialize c b with
      | .ok (v, _) => .done { s.clear with vouchers := upd s.vouchers s.next (some v), next := s.next + 1 } (.ref (.own s.next))
      | .err e => .done (s.clear.fail (text e)) (.ref .null)
      | .panic => .abort
  | .free r =>
    match r with
    | .null => .done s.clear .void
    | .own n => if (s.vouchers n).isSome then .done { s.clear with vouchers := upd s.vouchers n none } .void else .undefined
    | .item _ _ => .undefined
  | .version r => s.with r (.done s.clear (.int (-1))) fun v => .done s.clear (.int v.header.version)
  | .guid r => s.with r (.done s.clear (.str none)) fun v =>
      if v.header.guid.length ≠ 16 then .abort
      else s.clear.give ((String.ofList (Store.guidText v.header.guid)).toUTF8.toList)
  | .deviceInfo r => s.with r (.done s.clear (.str none)) fun v =>
      if (0 : UInt8) ∈ v.header.deviceInfo.toUTF8.toList then .done (s.clear.fail msg) (.str none)
      else s.clear.give v.header.deviceInfo.toUTF8.toList

/-- A sequence of calls with their results. -/
inductive History (text : Err → Bytes) (msg : Bytes) : List (Call × Ret) → St E → Prop
  | start : History text msg [] init
  | call {h : List (Call × Ret)} {s s' : St E} {k : Call} {r : Ret} (hs : History text msg h s)
      (hk : call c text msg s k = .done s' r) : History text msg (h ++ [(k, r)]) s'

end Verif.CApi

/-!
Shared vocabulary of the model.

Rust functions return `Result<T, E>` or abort the thread (panic). Both are kept
apart here: `Res.err` is a returned `Err`, `Res.panic` is a Rust panic
(`unwrap` on `Err`, index out of range, slice too short, `memcmp` on different lengths ...).
-/
namespace Verif

/-- Outcome of a Rust call: value, returned error, or panic. -/
inductive Res (ε α : Type) where
  | ok (a : α)
  | err (e : ε)
  | panic
  deriving DecidableEq, Repr

namespace Res
variable {ε α β : Type}

/-- Sequencing: the `?` operator (a panic propagates as a panic). -/
def bind (r : Res ε α) (f : α → Res ε β) : Res ε β :=
  match r with
  | .ok a => f a
  | .err e => .err e
  | .panic => .panic

instance : Monad (Res ε) where
  pure := .ok
  bind := bind

@[simp] theorem bind_ok (a : α) (f : α → Res ε β) : (Res.ok a : Res ε α) >>= f = f a := rfl
@[simp] theorem bind_err (e : ε) (f : α → Res ε β) : (Res.err e : Res ε α) >>= f = .err e := rfl
@[simp] theorem bind_panic (f : α → Res ε β) : (Res.panic : Res ε α) >>= f = .panic := rfl
@[simp] theorem pure_eq (a : α) : (pure a : Res ε α) = .ok a := rfl

theorem bind_eq_ok {r : Res ε α} {f : α → Res ε β} {b : β} :
    r >>= f = .ok b ↔ ∃ a, r = .ok a ∧ f a = .ok b := by
  cases r <;> simp

theorem bind_eq_panic {r : Res ε α} {f : α → Res ε β} :
    r >>= f = .panic ↔ r = .panic ∨ ∃ a, r = .ok a ∧ f a = .panic := by
  cases r <;> simp

theorem bind_eq_err {r : Res ε α} {f : α → Res ε β} {e : ε} :
    r >>= f = .err e ↔ r = .err e ∨ ∃ a, r = .ok a ∧ f a = .err e := by
  cases r <;> simp

/-- Did the call return a value? -/
def isOk : Res ε α → Bool
  | .ok _ => true
  | _ => false

end Res

/-- A byte string (`Vec<u8>`, `&[u8]`). -/
abbrev Bytes := List UInt8

/-- Big-endian value of a byte string (`u16::from_be_bytes` etc.). -/
def beNat (bs : Bytes) : Nat := bs.foldl (fun a b => a * 256 + b.toNat) 0

end Verif

import Verif.Model.Store
/-!
Specification of a store: per key an entry with a value, an optional expiry time and other metadata. The
model is used for the type of metadata values and the unit of the clock only.
-/
namespace Verif.Spec.Store
open Verif Verif.Store

/-- A metadata value: a flag or a point in time (seconds since 1970). -/
inductive Meta where
  | flag (b : Bool)
  | time (t : Int)
  deriving DecidableEq, Repr

/-- What is stored under a key. -/
structure Entry (V : Type) where
  value : V
  /-- expiry in seconds since 1970 -/
  expiry : Option Nat
  /-- other metadata -/
  attrs : Name → Option Meta

/-- Operations on a store. -/
inductive Op (V : Type) where
  | load (k : Name)
  | store (k : Name) (v : V)
  /-- a store operation during which the process stopped before its end -/
  | stopped (k : Name) (v : V)
  | delete (k : Name)
  | setExpiry (k : Name) (d : Nat)
  | setMeta (k : Name) (m : Name) (v : MValue)
  | clearExpiry (k : Name)
  | clearMeta (k : Name) (m : Name)
  | maintain

/-- The expiry time has passed. -/
def Entry.past {V : Type} (now : Nat) (e : Entry V) : Prop := ∃ s, e.expiry = some s ∧ s * second < now
/-- The expiry time has been reached. -/
def Entry.due {V : Type} (now : Nat) (e : Entry V) : Prop := ∃ s, e.expiry = some s ∧ s * second ≤ now

instance {V : Type} (now : Nat) (e : Entry V) : Decidable (e.past now) :=
  match h : e.expiry with
  | none => isFalse (by rintro ⟨s, h', _⟩; rw [h] at h'; cases h')
  | some s => if h' : s * second < now then isTrue ⟨s, h, h'⟩
    else isFalse (by rintro ⟨s', h1, h2⟩; rw [h] at h1; cases h1; exact h' h2)

instance {V : Type} (now : Nat) (e : Entry V) : Decidable (e.due now) :=
  match h : e.expiry with
  | none => isFalse (by rintro ⟨s, h', _⟩; rw [h] at h'; cases h')
  | some s => if h' : s * second ≤ now then isTrue ⟨s, h, h'⟩
    else isFalse (by rintro ⟨s', h1, h2⟩; rw [h] at h1; cases h1; exact h' h2)

/-- The metadata a value stands for at time `now`: a flag as it is, a duration as the second in which it
ends. -/
def metaOf (now : Nat) : MValue → Meta
  | .flag b => .flag b
  | .after d => .time (((now : Int) + d) / (second : Int))

/-- The entry under key `k` after an operation at time `now`: operations on other keys do not matter;
storing replaces value and metadata; a load of an expired entry and maintenance drop it. -/
def after {V : Type} (k : Name) (now : Nat) (op : Op V) (e : Option (Entry V)) : Option (Entry V) :=
  match op with
  | .load k' => if k' = k then e.filter (fun e => ¬ e.past now) else e
  | .store k' v => if k' = k then some ⟨v, none, fun _ => none⟩ else e
  | .stopped _ _ => e
  | .delete k' => if k' = k then none else e
  | .setExpiry k' d => if k' = k then e.map (fun e => { e with expiry := some ((now + d) / second) }) else e
  | .setMeta k' m v =>
    if k' = k then e.map (fun e => { e with attrs := fun m' => if m' = m then some (metaOf now v) else e.attrs m' })
    else e
  | .clearExpiry k' => if k' = k then e.map (fun e => { e with expiry := none }) else e
  | .clearMeta k' m =>
    if k' = k then e.map (fun e => { e with attrs := fun m' => if m' = m then none else e.attrs m' }) else e
  | .maintain => e.filter (fun e => ¬ e.due now)

/-- The entry under key `k` after a history of timed operations. -/
def view {V : Type} (k : Name) (e : Option (Entry V)) : List (Nat × Op V) → Option (Entry V)
  | [] => e
  | (t, op) :: h => view k (after k t op e) h

/-- What a load at time `now` should return. -/
def visible {V : Type} (now : Nat) (e : Option (Entry V)) : Option V :=
  (e.filter (fun e => ¬ e.past now)).map (·.value)

end Verif.Spec.Store

import Verif.Model.Disk
import Verif.Lemmas.Hoare
import Verif.Props.Text
/-!
What is assumed of LUKS2 devices, libcryptsetup, `clevis` and `cryptsetup` (none of it is code of this project).
-/
namespace Verif.Disk
open Verif

/-- A token of Clevis on a LUKS2 device: the keyslots it is for, the policy (pin and its configuration) it was made with, and
the passphrase sealed in it. -/
structure Binding where
  slots : List Nat
  pin : List Char
  config : List Char
  pass : Bytes

/-- The header of a LUKS2 device: the tokens of Clevis and the passphrases of the keyslots in use. Tokens of other kinds are not
looked at; indices they occupy are taken to be among the `others`. -/
structure Header where
  tokens : Nat → Option Binding
  others : Nat → Bool
  slots : Nat → Option Bytes

namespace Header
/-- With another token. -/
def setToken (h : Header) (i : Nat) (b : Option Binding) : Header := { h with tokens := fun j => if j = i then b else h.tokens j }
/-- With another keyslot. -/
def setSlot (h : Header) (s : Nat) (p : Option Bytes) : Header := { h with slots := fun j => if j = s then p else h.slots j }
end Header

/-- A token by which the device is opened without anybody's help: one of its keyslots has the passphrase sealed in it. -/
def Works (h : Header) (i : Nat) : Prop := ∃ b s, h.tokens i = some b ∧ s ∈ b.slots ∧ h.slots s = some b.pass

/-- The device can be opened without anybody's help. -/
def Opens (h : Header) : Prop := ∃ i, Works h i

/-- Tokens are for keyslots in use (libcryptsetup validates this). -/
def Valid (h : Header) : Prop := ∀ i b, h.tokens i = some b → (∀ s ∈ b.slots, (h.slots s).isSome) ∧ h.others i = false

/-- Everything in one header is in another one, too. -/
def Extends (h h' : Header) : Prop :=
  (∀ i b, h.tokens i = some b → h'.tokens i = some b) ∧ (∀ s p, h.slots s = some p → h'.slots s = some p) ∧ h'.others = h.others

/-- A device with its path, what is on it, and what of it the program has loaded. -/
structure World where
  path : List Char
  disk : Header
  mem : Header

/-- A list of numbers as texts. -/
inductive Numbers : List Json → List Nat → Prop
  | nil : Numbers [] []
  | cons {s : List Char} {n : Nat} {js : List Json} {ns : List Nat} (h : Text.NumberOf s n) (hs : Numbers js ns) :
      Numbers (.str s :: js) (n :: ns)

/-- A description of a token, as far as its keyslots are concerned: an object with a list of numbers as texts. (What it has
besides is not looked at; names in it occur once.) -/
def Describes (j : Json) (b : Binding) : Prop :=
  ∃ o1 o2 ks, j = .obj (o1 ++ ("keyslots".toList, .arr ks) :: o2) ∧ (∀ x ∈ o1 ++ o2, x.1 ≠ "keyslots".toList) ∧ Numbers ks b.slots

/-- What an operation with a given answer may do to the device and to what is loaded of it.

Queries change nothing; a token of Clevis is reported under that name, and nothing else is. `clevis luks pass` gives the
passphrase sealed in a token for the keyslot. `clevis luks bind`, given the passphrase of some keyslot in a line, adds a keyslot
and a token for it with the policy; if it fails, part of this may have been done. Loading brings what is loaded up to date.
Removing a token or a keyslot is refused unless what is loaded is up to date; a failed removal of a keyslot may have destroyed it.
Of the other commands and of those for another device nothing is said except that they are not among the ones above. -/
inductive Step : World → sig.Deed → World → Prop
  | status {w : World} {i : Nat} {info : TokenInfo} (h : info = .externalUnknown clevis ↔ (w.mem.tokens i).isSome) :
      Step w ⟨.tokenStatus i, (some info : Option TokenInfo)⟩ w
  | statusFails {w : World} {i : Nat} : Step w ⟨.tokenStatus i, (none : Option TokenInfo)⟩ w
  | json {w : World} {i : Nat} {j : Json} {b : Binding} (hb : w.mem.tokens i = some b) (h : Describes j b) :
      Step w ⟨.tokenJson i, (some j : Option Json)⟩ w
  | jsonOther {w : World} {i : Nat} {j : Option Json} (hb : w.mem.tokens i = none) : Step w ⟨.tokenJson i, j⟩ w
  | jsonFails {w : World} {i : Nat} : Step w ⟨.tokenJson i, (none : Option Json)⟩ w
  | path {w : World} : Step w ⟨.path, (some w.path : Option (List Char))⟩ w
  | pathFails {w : World} : Step w ⟨.path, (none : Option (List Char))⟩ w
  | load {w : World} : Step w ⟨.load, true⟩ { w with mem := w.disk }
  | loadFails {w : World} : Step w ⟨.load, false⟩ w
  | removeToken {w : World} {i : Nat} (h : w.mem = w.disk) :
      Step w ⟨.removeToken i, true⟩ { w with disk := w.disk.setToken i none, mem := w.disk.setToken i none }
  | removeTokenFails {w : World} {i : Nat} : Step w ⟨.removeToken i, false⟩ w
  | destroySlot {w : World} {s : Nat} (h : w.mem = w.disk) :
      Step w ⟨.destroySlot s, true⟩ { w with disk := w.disk.setSlot s none, mem := w.disk.setSlot s none }
  | destroySlotFails {w : World} {s : Nat} : Step w ⟨.destroySlot s, false⟩ w
  | destroySlotHalf {w : World} {s : Nat} (h : w.mem = w.disk) :
      Step w ⟨.destroySlot s, false⟩ { w with disk := w.disk.setSlot s none }
  | pass {w : World} {i s : Nat} {b : Binding} {txt : List Char} (hb : w.disk.tokens i = some b) (hs : s ∈ b.slots)
      (ht : Text.NumberOf txt s) :
      Step w ⟨.run clevis ["luks".toList, "pass".toList, "-d".toList, w.path, "-s".toList, txt] none, (some b.pass : Option Bytes)⟩ w
  | passFails {w : World} {txt : List Char} :
      Step w ⟨.run clevis ["luks".toList, "pass".toList, "-d".toList, w.path, "-s".toList, txt] none, (none : Option Bytes)⟩ w
  | bind {w : World} {i s k : Nat} {pin config : List Char} {p q o : Bytes} (hi : w.disk.tokens i = none) (ho : w.disk.others i = false)
      (hs : w.disk.slots s = none) (hk : w.disk.slots k = some p) :
      Step w ⟨.run clevis ["luks".toList, "bind".toList, "-d".toList, w.path, pin, config, "-y".toList, "-k".toList, "-".toList]
        (some (p ++ [10])), (some o : Option Bytes)⟩
        { w with disk := (w.disk.setToken i (some ⟨[s], pin, config, q⟩)).setSlot s (some q) }
  | bindFails {w : World} {pin config : List Char} {input : Bytes} {d : Header} (h : Extends w.disk d) (hv : Valid d) :
      Step w ⟨.run clevis ["luks".toList, "bind".toList, "-d".toList, w.path, pin, config, "-y".toList, "-k".toList, "-".toList]
        (some input), (none : Option Bytes)⟩ { w with disk := d }

end Verif.Disk

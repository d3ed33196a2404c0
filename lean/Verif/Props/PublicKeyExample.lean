import Verif.Props.PublicKey
import Verif.Props.WireExample
/-!
An environment whose public keys are those of data-formats: example for C87.
-/
namespace Verif.PublicKey.Toy
open Verif

/-- The numbers which are the keys of the environment, as keys on the curve P-256. -/
def toKey (p : UInt8) : Given ssl := ⟨⟨.ecdsa256, .x509, [1, p], [1, p], none⟩, .cert (c := (7, [1, p])) rfl, by simp⟩

def ofKey (k : Given ssl) : UInt8 := k.1.data.getLast?.getD 0

def toChain (c : UInt8) : List (UInt8 × Bytes) := [(c, [1, 1]), (100, [1, 2])]

def ofChain (l : List (UInt8 × Bytes)) : UInt8 := (l.head?.map (·.1)).getD 0

/-- It is as C87 and, with it, as C83 ask. -/
theorem forms_laws : (forms (E := Device.Toy.env.E) ssl Wire.toyForms toKey ofKey toChain ofChain).Laws :=
  C87_forms laws _ (fun _ => rfl) (fun _ => rfl) Wire.toyForms_laws.rv Wire.toyForms_laws.vars Wire.toyForms_laws.extra
    Wire.toyForms_laws.small

example : Voucher.CodecLaws (Wire.spoken Device.Toy.env.E (forms ssl Wire.toyForms toKey ofKey toChain ofChain)) :=
  (Wire.C83_voucher_partial Wire.spoken_speaks forms_laws.on).1

end Verif.PublicKey.Toy

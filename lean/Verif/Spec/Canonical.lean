import Verif.Lemmas.Voucher
/-!
Ownership vouchers as this implementation writes them.
-/
namespace Verif.Voucher
open Verif Verif.Cbor Verif.Cbor.Spec

/-- A voucher in the form in which it is made by the manufacturing server and by `extend`: what is written of it reads back to it;
it has version 1.1 and a GUID of 16 bytes; the manufacturer's key and the HMAC are in it as their codecs write them; and each entry is
a COSE_Sign1 in shortest form. -/
structure Canonical {E : Env} (c : Bool) (v : Voucher E) : Prop where
  written : Rewritable c v
  version : v.version = 101
  headerVersion : v.header.version = 101
  guid : v.header.guid.length = 16
  key : v.header.contents.contents[4]? = some (E.encPub v.header.mfgKey)
  hmac : v.contents.contents[2]? = some (E.encHash v.hmac)
  untagged : v.entries.tag = none
  form : ∀ e ∈ v.entries.contents, ∃ l : List Bytes, l.length = 4 ∧ (∀ i ∈ l, IsItem i) ∧ e = [0xd2, 0x84] ++ l.flatten

end Verif.Voucher

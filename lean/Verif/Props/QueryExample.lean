import Verif.Props.Query
import Verif.Lemmas.Utf8
import Verif.Lemmas.Wire
/-!
A device that tries to get the service info of another one (C92).
-/
namespace Verif.Url
open Verif Verif.Types Verif.ServiceInfo Verif.SiPipeline
open Verif.Store (guidText)

/-- UTF-8; what is not valid becomes a replacement character. -/
def lossy (b : Bytes) : List Char :=
  match String.fromUTF8? ⟨b.toArray⟩ with
  | some s => s.toList
  | none => [Char.ofNat 0xfffd]

theorem lossy_utf8 (s : List Char) : lossy (s.flatMap String.utf8EncodeChar) = s := by
  have h := Verif.Wire.ofUtf8_utf8 (String.ofList s)
  have e : Verif.Wire.utf8 (String.ofList s) = s.flatMap String.utf8EncodeChar := by
    have := Verif.Utf8.utf8_toList (String.ofList s)
    rw [String.toList_ofList, Verif.Utf8.toList_eq] at this
    exact this
  rw [e] at h
  have h : String.fromUTF8? ⟨(s.flatMap String.utf8EncodeChar).toArray⟩ = some (String.ofList s) := h
  unfold lossy
  rw [h]
  exact String.toList_ofList

/-- The device's own GUID, and that of another device. -/
def own : Bytes := List.replicate 16 0x01
def other : Bytes := List.replicate 16 0x02

/-- A service info server with an initial user for each of the two devices. -/
def oracle : SiApi.Oracle where
  perDevice g := if g = own then some (some ⟨"own".toList, none, none⟩) else if g = other then some (some ⟨"other".toList, none, none⟩) else none
  unescape := unescape lossy
  storeOk := true

/-- What the device is told, by the name of the initial user, if it announces the names `l`. -/
def told (l : List String) : Option (Option (List Char)) :=
  (ask oracle SiApi.Toy.server (some "s".toList) (apiQuery (guidText own) (l.map String.toList))).map fun r => r.user.map (·.username)

/-- Honest names, additional fields, another GUID, and that with an escaped name. -/
example : told ["sshkey", "command"] = some none ∧ told ["org.fedoraiot.sshkey"] = some (some "own".toList) ∧
    told ["org.fedoraiot.sshkey", "x&y=z"] = some (some "own".toList) ∧
    told ["org.fedoraiot.sshkey", "x&device_guid=02020202-0202-0202-0202-020202020202"] = none ∧
    told ["org.fedoraiot.sshkey", "x&device%5Fguid=02020202-0202-0202-0202-020202020202"] = none ∧
    told ["org.fedoraiot%2Esshkey"] = some (some "own".toList) ∧
    told ["org.fedora\tiot.sshkey"] = some (some "own".toList) ∧
    setQuery "ä#b c".toList = "%C3%A4%23b%20c".toList ∧ unescape lossy "%C3%A4%23b%20c+%".toList = "ä#b c %".toList := by
  decide +kernel

/-- The hypotheses of the theorems are met by this server. -/
example : Unescapes oracle.unescape := unescapes lossy_utf8

end Verif.Url

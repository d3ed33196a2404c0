import Verif.Props.StartupAddr
import Verif.Props.StartupSiExample
/-!
Cases of C100: the addresses of HOWTO.md, some that are none, and some that lead nowhere.
-/
namespace Verif.Startup.AddrToy
open Verif Verif.Settings

/-- One connection, of this transport, to this list of addresses. -/
def connection (transport addresses : String) : Val :=
  .table [("transport", .leaf transport), ("port", .leaf "8081"), ("addresses", .leaf addresses)]

def name : Val := .table [("dns_name", .leaf "fdo.example.com")]

def ip (t : String) : Val := .table [("ip_address", .leaf t)]

def S : AddrReads := { SiToy.S with
  items := fun s =>
    if s = "[HTTP both]" then some [connection "HTTP" "[name, ip]"]
    else if s = "[two]" then some [connection "https" "[name]", connection "Http" "[ip]"]
    else if s = "[CoAP]" then some [connection "CoAP" "[name, ip]"]
    else if s = "[udp]" then some [connection "udp" "[name]"]
    else if s = "[name, ip]" then some [name, ip "192.168.122.1"]
    else if s = "[name]" then some [name]
    else if s = "[ip]" then some [ip "192.168.122.1"]
    else none
  u16 := fun s => if s = "8081" then some 8081 else none
  str := some }

def parseIp (s : String) : Option Bytes := if s = "192.168.122.1" then some [192, 168, 122, 1] else none

def settings (l : String) : Val := .table [("owner_addresses", .leaf l)]

abbrev Shown := Option Bytes × Option String × Nat × Device.Transport

def addresses (l : String) : Option (List Shown) :=
  match ownerAddressesOf S parseIp (settings l) with
  | .ok es => some (es.map fun a => (a.ip, a.dns, a.port, a.protocol))
  | _ => none

/-- The hypotheses of `C100_starts`, `C100_urls_partial` and `C100_transports_violated` are met; other transports are refused, and so are
settings without addresses. -/
example : addresses "[HTTP both]" = some [(none, some "fdo.example.com", 8081, .http), (some [192, 168, 122, 1], none, 8081, .http)] := by
  decide +kernel

example : addresses "[two]" = some [(none, some "fdo.example.com", 8081, .https), (some [192, 168, 122, 1], none, 8081, .http)] := by
  decide +kernel

example : (addresses "[CoAP]").isSome = true ∧ (addresses "[udp]").isNone = true ∧ (addresses "none").isNone = true := by decide +kernel

theorem started {l : String} {r : List Shown} (h : addresses l = some r) :
    ∃ es, ownerAddressesOf S parseIp (settings l) = .ok es := by
  unfold addresses at h
  split at h
  · rename_i es hes
    exact ⟨es, hes⟩
  · cases h

/-- The case of `C100_transports_violated`. -/
example (R : Device.DevEnv) : ∃ es, ownerAddressesOf S parseIp (settings "[CoAP]") = .ok es ∧ es.length = 2 ∧ Device.to2Urls (R := R) es = [] := by
  refine ⟨[⟨none, some "fdo.example.com", 8081, .other⟩, ⟨some [192, 168, 122, 1], none, 8081, .other⟩], ?_, rfl, rfl⟩
  rw [C100_starts]
  refine ⟨[⟨.other, [.dns "fdo.example.com", .ip "192.168.122.1"], 8081⟩], [[_, _]], ?_, .cons (.cons .dns (.cons (.ip rfl) .nil)) .nil, rfl⟩
  refine ⟨_, rfl, "[CoAP]", [connection "CoAP" "[name, ip]"], rfl, by rfl, .cons ?_ .nil⟩
  refine ⟨⟨_, rfl⟩, ⟨"CoAP".toList, ⟨_, rfl, _, _, rfl, rfl, rfl⟩, .other (by decide)⟩, ?_, _, rfl, rfl⟩
  refine ⟨_, rfl, "[name, ip]", [name, ip "192.168.122.1"], rfl, by rfl, .cons (.dns ?_ ⟨_, rfl, rfl⟩) (.cons (.ip ⟨_, rfl, rfl⟩) .nil)⟩
  rintro ⟨t, s, h, -⟩
  cases h

/-- The case of `C100_both_violated`. -/
example : remoteOf S (.table [("dns_name", .leaf "fdo.example.com"), ("ip_address", .leaf "192.168.122.1")]) = .ok (.ip "192.168.122.1") :=
  C100_both_violated (n := "fdo.example.com") ⟨_, rfl, rfl⟩ ⟨_, rfl, rfl⟩

/-- The case of `C100_malformed`: an address with a digit too much. -/
def Sbad : AddrReads := { S with items := fun s => if s = "[bad]" then some [connection "HTTP" "[b]"] else if s = "[b]" then some [ip "192.168.122.1000"] else none }

example : (∃ cs c, Entry (settings "[bad]") "owner_addresses" (IsList Sbad.toReads (IsConnection Sbad)) cs ∧ c ∈ cs ∧
    Aio.Remote.ip "192.168.122.1000" ∈ c.addresses) ∧ parseIp "192.168.122.1000" = none := by
  refine ⟨⟨[⟨.http, [.ip "192.168.122.1000"], 8081⟩], _, ?_, List.mem_singleton.2 rfl, List.mem_singleton.2 rfl⟩, by decide⟩
  refine ⟨_, rfl, "[bad]", [connection "HTTP" "[b]"], rfl, by rfl, .cons ?_ .nil⟩
  refine ⟨⟨_, rfl⟩, ⟨"HTTP".toList, ⟨_, rfl, _, _, rfl, rfl, rfl⟩, .http (by decide)⟩, ?_, _, rfl, rfl⟩
  exact ⟨_, rfl, "[b]", [ip "192.168.122.1000"], rfl, by rfl, .cons (.ip ⟨_, rfl, rfl⟩) .nil⟩

end Verif.Startup.AddrToy

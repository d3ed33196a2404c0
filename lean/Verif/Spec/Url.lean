import Verif.Model.Rendezvous
/-!
Specification for C80: the URLs of servers (RFC 3986, section 3.2), and how the standard library writes addresses.
-/
namespace Verif.Url
open Verif

/-- A character that may be in a host name (RFC 3986: not one of the general delimiters). -/
def Plain (c : Char) : Prop := c ∉ [':', '/', '?', '#', '[', ']', '@']

instance (c : Char) : Decidable (Plain c) := inferInstanceAs (Decidable (c ∉ _))

/-- The host of a URL: a name or an IPv4 address, or an IPv6 address in brackets. -/
inductive Host : List Char → Prop
  | name (h : List Char) : h ≠ [] → (∀ c ∈ h, Plain c) → Host h
  | bracketed (h : List Char) : (∀ c ∈ h, c = ':' ∨ Plain c) → Host ('[' :: h ++ [']'])

/-- `s` is the URL of the server `host` with this port. -/
def Names (s : String) (scheme host : List Char) (port : Nat) : Prop :=
  (scheme = "http".toList ∨ scheme = "https".toList) ∧ Host host ∧
    s.toList = scheme ++ "://".toList ++ host ++ ':' :: (toString port).toList

/-- How `Display` writes addresses (`std::net::IpAddr`): four octets as decimal numbers with dots between them, sixteen
octets with at least two colons, starting with a hexadecimal digit or a colon. -/
structure Shows (showIp : Bytes → String) : Prop where
  v4 : ∀ a b c d : UInt8, (showIp [a, b, c, d]).toList =
    (toString a.toNat).toList ++ '.' :: (toString b.toNat).toList ++ '.' :: (toString c.toNat).toList ++ '.' :: (toString d.toNat).toList
  v6 : ∀ b : Bytes, b.length = 16 → 2 ≤ (showIp b).toList.count ':' ∧ '[' ∉ (showIp b).toList

end Verif.Url

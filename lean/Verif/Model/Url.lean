import Verif.Model.SiApi
/-!
The query of the request from the owner onboarding server to the service info server on its way: `Url::set_query` of the `url` crate
(called in http-wrapper/src/client.rs:110) and `serde_urlencoded::from_str` (called by `warp::query` in
serviceinfo-api-server/src/main.rs:454-459). The sources of these crates are not in the repository; they are modelled by the URL standard
they implement.
-/
namespace Verif.Url
open Verif

/-- The hexadecimal digits of percent-encoding. -/
def digit (n : Nat) : Char := if n < 10 then Char.ofNat (48 + n) else Char.ofNat (55 + n)

/-- A byte, percent-encoded. -/
def escByte (b : UInt8) : List Char := ['%', digit (b.toNat / 16), digit (b.toNat % 16)]

/-- The characters that are encoded in the query of an http or https URL: controls, those outside of ASCII, and some more.
In particular not `&`, `=`, `+`, `,` and `%`. -/
def encoded (c : Char) : Bool := c.toNat < 0x20 || 0x7f ≤ c.toNat || c = ' ' || c = '"' || c = '#' || c = '<' || c = '>' || c = '\''

/-- One character of the text given to `Url::set_query`: tabs and line ends are dropped. -/
def setChar (c : Char) : List Char :=
  if c = '\t' ∨ c = '\n' ∨ c = '\r' then []
  else if encoded c then (String.utf8EncodeChar c).flatMap escByte
  else [c]

/-- `url.set_query(Some(&query_str))` (http-wrapper/src/client.rs:110): the query of the URL. -/
def setQuery (q : List Char) : List Char := q.flatMap setChar

/-- The value of a hexadecimal digit. -/
def hexVal (c : Char) : Option Nat :=
  if '0' ≤ c ∧ c ≤ '9' then some (c.toNat - 48)
  else if 'a' ≤ c ∧ c ≤ 'f' then some (c.toNat - 87)
  else if 'A' ≤ c ∧ c ≤ 'F' then some (c.toNat - 55)
  else none

/-- The bytes of a name or value of a query: `+` is a space; percent signs that are not followed by two digits stay. -/
def decode : List Char → Bytes
  | [] => []
  | c :: r =>
    if c = '+' then 0x20 :: decode r
    else if c = '%' then
      match r with
      | a :: b :: r' =>
        match hexVal a, hexVal b with
        | some x, some y => UInt8.ofNat (16 * x + y) :: decode r'
        | _, _ => 0x25 :: decode (a :: b :: r')
      | [a] => 0x25 :: decode [a]
      | [] => [0x25]
    else String.utf8EncodeChar c ++ decode r

/-- A name or value of a query (`form_urlencoded::parse`); `lossy` is `String::from_utf8_lossy`. -/
def unescape (lossy : Bytes → List Char) (s : List Char) : List Char := lossy (decode s)

/-- What the service info server `s` answers the owner server for a query (`JsonClient::send_get`, client.rs:96-138). -/
def ask (o : SiApi.Oracle) (s : SiApi.Server) (token : Option (List Char)) (query : List Char) : Option ServiceInfo.ApiReply :=
  SiApi.answer o s token (setQuery query)

end Verif.Url

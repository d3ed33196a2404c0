import Verif.Model.PerDevice
import Verif.Model.Url
/-!
The owner server's way to the service info server, from its settings: `service_info_api_url` and `service_info_api_authentication`
(util/src/servers/configuration/owner_onboarding_server.rs:27-30), `JsonClient::new` and `JsonClient::send_get`
(http-wrapper/src/client.rs:50-137), called in owner-onboarding-server/src/main.rs:509-514 and handlers.rs:521-528.
-/
namespace Verif.Startup
open Verif Verif.Settings

variable (S : Reads)

/-- `JsonAuthentication` (client.rs:50-60). -/
inductive Auth where
  | none
  | token (t : List Char)
  | certificate (der : Bytes) (password : List Char)

/-- The names of the variants (client.rs:51-60). -/
def authNames : List String := ["None", "BearerToken", "ClientCertificate"]

/-- A value that is read as `u8`; how the `config` crate does this is a parameter. -/
def byteOf (u8 : String → Option UInt8) : Val → Res Fail UInt8
  | .leaf s =>
    match u8 s with
    | some b => .ok b
    | none => .err .type
  | .table _ => .err .type

/-- The fields of `ClientCertificate` (client.rs:56-59). -/
def certificateOf (u8 : String → Option UInt8) (v : Val) : Res Fail Auth := do
  let der ← required (listOf S (byteOf u8)) v "client_certificate"
  let password ← required (textOf S) v "password"
  pure (.certificate der password)

/-- The field of `BearerToken` (client.rs:53-55). -/
def tokenOf (v : Val) : Res Fail Auth := do
  let t ← required (textOf S) v "token"
  pure (.token t)

/-- Reading `JsonAuthentication` by `serde_yaml::with::singleton_map` (owner_onboarding_server.rs:29-30): a name, or a map of one
entry. -/
def authOf (u8 : String → Option UInt8) : Val → Res Fail Auth
  | .leaf s => if S.variant authNames (.leaf s) = some "None" then .ok .none else .err .type
  | .table [(k, w)] =>
    match S.variant authNames (.leaf k) with
    | some n =>
      if n = "BearerToken" then structOf (tokenOf S) w
      else if n = "ClientCertificate" then structOf (certificateOf S u8) w
      else match w with
        | .leaf s => if S.isNull s then .ok .none else .err .type
        | .table _ => .err .type
    | none => .err .type
  | .table _ => .err .type

/-- A URL with a host: where it leads to, the segments of its path, and its query. -/
structure Base where
  origin : String
  path : List (List Char)
  query : Option (List Char)

/-- `reqwest::Url::parse` with `cannot_be_a_base` (client.rs:86-92; `none` if either refuses), `Identity::from_pkcs12_der` (client.rs:78),
whether the HTTP client can be made (client.rs:96), and how numbers are read as `u8`. -/
structure ApiWorld where
  Id : Type
  url : List Char → Option Base
  identity : Bytes → List Char → Option Id
  build : Option Id → Bool
  u8 : String → Option UInt8

variable (A : ApiWorld)

/-- `JsonClient` (client.rs:62-67). After `new`, the authentication is none or a token. -/
structure ApiClient where
  base : Base
  identity : Option A.Id
  token : Option (List Char)

/-- What becomes of the authentication (client.rs:73-83): a certificate goes to the HTTP client. -/
def keepAuth : Auth → Res Fail (Option A.Id × Option (List Char))
  | .none => .ok (none, none)
  | .token t => .ok (none, some t)
  | .certificate der password =>
    match A.identity der password with
    | none => .err .parse
    | some i => .ok (some i, none)

/-- `JsonClient::new` (client.rs:70-99). -/
def newClient (url : List Char) (auth : Auth) : Res Fail (ApiClient A) := do
  let x ← keepAuth A auth
  match A.url url with
  | none => .err .parse
  | some b => if A.build x.1 then pure ⟨b, x.1, x.2⟩ else .err .rest

/-- The client of the owner server (owner-onboarding-server/src/main.rs:509-514), from its settings. The other settings are in
`Startup.owner`. -/
def apiClient (v : Val) : Res Fail (ApiClient A) := do
  let url ← required (textOf S) v "service_info_api_url"
  let auth ← required (authOf S A.u8) v "service_info_api_authentication"
  newClient A url auth

/-- Characters that may be in the value of a header (`HeaderValue::try_from` of the `http` crate; the bytes of characters outside of
ASCII are all allowed). -/
def headerChar (c : Char) : Bool := c = '\t' || (32 ≤ c.toNat && c.toNat ≠ 127)

/-- Characters that may be in a header that is read as text (`HeaderValue::to_str`, called by `warp::header`). -/
def readableChar (c : Char) : Bool := c = '\t' || (32 ≤ c.toNat && c.toNat < 127)

variable {A}

/-- `JsonClient::send_get` (client.rs:101-137): where the request goes, and what arrives there. `none` if no request can be made. The
header of a request is as `warp::header` reads it: one it cannot read is like none, as both are refused
(serviceinfo-api-server/src/main.rs:458-463). -/
def sendGet (c : ApiClient A) (query : List Char) : Option (String × SiApi.Request) :=
  match c.token with
  | none => some (c.base.origin, ⟨.get, c.base.path, none, Url.setQuery query, none⟩)
  | some t =>
    let a := "Bearer ".toList ++ t
    if a.all headerChar then
      some (c.base.origin, ⟨.get, c.base.path, if a.all readableChar then some a else none, Url.setQuery query, none⟩)
    else none

/-- What the owner server gets from a service info server at the place its URL leads to (client.rs:136): anything but a reply is a
failure. -/
def apiAnswer (o : SiApi.Oracle) (s : SiApi.Server) (c : ApiClient A) (query : List Char) : Option ServiceInfo.ApiReply :=
  match sendGet c query with
  | none => none
  | some r =>
    match (SiApi.step o s r.2).2 with
    | .info x => some x
    | _ => none

end Verif.Startup

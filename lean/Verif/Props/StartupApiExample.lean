import Verif.Props.StartupApi
import Verif.Props.PerDeviceExample
/-!
Cases of C99: owner servers with the right token, with another one, without any, and with one that cannot be in a header.
-/
namespace Verif.Startup.ApiToy
open Verif Verif.Settings

/-- As in the other examples, and numbers and a certificate of two bytes. -/
def S : Reads := { DevToy.S with
  items := fun s => if s = "[7, 7]" then some [.leaf "7", .leaf "7"] else DevToy.S.items s }

/-- One URL of a service info server, with a query; the certificate of two bytes has a password. -/
def A : ApiWorld where
  Id := Nat
  url u := if u = "http://localhost:8083/device_info?a=b".toList then some ⟨"localhost:8083", ["device_info".toList], some "a=b".toList⟩ else none
  identity d p := if d = [7, 7] ∧ p = "p".toList then some 1 else none
  build _ := true
  u8 s := if s = "7" then some 7 else none

def owner (auth : Val) : Val :=
  .table [("service_info_api_url", .leaf "http://localhost:8083/device_info?a=b"), ("service_info_api_authentication", auth)]

def bearer (t : String) : Val := .table [("BearerToken", .table [("token", .leaf t)])]

def certificate (password : String) : Val :=
  .table [("ClientCertificate", .table [("client_certificate", .leaf "[7, 7]"), ("password", .leaf password)])]

def client (auth : Val) : Option (ApiClient A) :=
  match apiClient S A (owner auth) with
  | .ok c => some c
  | _ => none

/-- They start with a token, without, and with a certificate, but not with another name, or another password. -/
example : (client (bearer "s")).map (·.token) = some (some "s".toList) ∧ (client (.leaf "None")).map (·.token) = some none ∧
    (client (certificate "p")).map (fun c => (c.identity.isSome, c.token)) = some (true, none) ∧
    (client (certificate "q")).isNone = true ∧ (client (.leaf "Nobody")).isNone = true ∧ (client (.table [("Token", .leaf "s")])).isNone = true := by
  decide +kernel

/-- The hypotheses of `C99_served` and `C99_request_partial` about the settings. -/
example : TokenAuth S (owner (bearer "s")) "s".toList ∧ Plain "s".toList ∧
    Entry (owner (bearer "s")) "service_info_api_url" (IsText S) "http://localhost:8083/device_info?a=b".toList ∧
    (∀ t', Token SiToy.S (SiToy.whole (SiToy.section' "[motd 644]" []) SiToy.tokens) "service_info_auth_token" t' → t' = "s".toList) := by
  refine ⟨⟨_, _, rfl, by decide +kernel, _, rfl, _, _, rfl, rfl, rfl⟩, ?_, ⟨_, rfl, _, _, rfl, rfl, rfl⟩, ?_⟩
  · intro c hc
    rw [show "s".toList = ['s'] from rfl, List.mem_singleton] at hc
    subst hc
    exact .inr (by decide)
  · rintro t' ⟨s, u, h1, h2, h3, h4⟩
    cases h1
    cases h3
    exact h4

def query : List Char :=
  ServiceInfo.apiQuery "00000000-0000-0000-0000-000000000001".toList ["org.fedoraiot.command".toList, "org.fedoraiot.binaryfile".toList]

/-- What they get from the server of C97, whose token is `s`: a reply only with this token. -/
example : let got := fun auth => (client auth).map fun c => (apiAnswer SiApi.Toy.oracle SiToy.server c query).isSome
    got (bearer "s") = some true ∧ got (bearer "t") = some false ∧ got (.leaf "None") = some false ∧ got (certificate "p") = some false := by
  decide +kernel

/-- The hypotheses of `C99_refused` are met. -/
example : Has SiToy.S.toScalars (SiToy.whole (SiToy.section' "[motd 644]" []) SiToy.tokens) "service_info_auth_token" ∧
    ∀ t, Token SiToy.S (SiToy.whole (SiToy.section' "[motd 644]" []) SiToy.tokens) "service_info_auth_token" t →
      ¬ TokenAuth S (owner (bearer "t")) t := by
  refine ⟨⟨_, rfl, by rintro s ⟨⟩; decide⟩, ?_⟩
  rintro t ⟨s, u, h1, h2, h3, h4⟩ ⟨k, l, g1, g2, x, g3, s', u', g4, g5, g6⟩
  cases h1
  cases h3
  cases g1
  cases g3
  cases g4
  cases g5
  rw [h4] at g6
  exact absurd g6 (by decide)

/-- Without a token in the settings of the service info server, any token is served, but no owner server without one
(`C99_tokenless_violated`). -/
example : (SiToy.started "[motd 644]" [] []).map (fun s => let got := fun auth => (client auth).map fun c =>
    (apiAnswer SiApi.Toy.oracle s c query).isSome
    (got (bearer "t"), got (.leaf "None"), got (certificate "p"))) = some (some true, some false, some false) := by decide +kernel

example : NoAuth S (owner (.leaf "None")) ∧ CertAuth S A.u8 (owner (certificate "p")) [7, 7] "p".toList := by
  refine ⟨⟨_, rfl, .inl ⟨_, rfl, by decide +kernel⟩⟩, _, _, rfl, by decide +kernel, ⟨_, rfl, _, _, rfl, rfl, ?_⟩, _, rfl, _, _, rfl, rfl, rfl⟩
  exact .cons ⟨_, rfl, rfl⟩ (.cons ⟨_, rfl, rfl⟩ .nil)

/-- A token with a letter outside of ASCII, and one with a line end, in the settings of both servers (`C99_characters_violated`). -/
example : let got := fun t => (SiToy.started "[motd 644]" [] [("service_info_auth_token", .leaf t)]).bind fun s =>
      (client (bearer t)).map fun c => (apiAnswer SiApi.Toy.oracle s c query).isSome
    got "s t" = some true ∧ got "ä" = some false ∧ got "s\n" = some false := by decide +kernel

example : ¬ Plain "ä".toList := by
  intro h
  rcases h 'ä' (by decide) with h | h
  · exact absurd h (by decide)
  · exact absurd h (by decide)

end Verif.Startup.ApiToy

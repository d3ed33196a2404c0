import Verif.Props.Url
import Verif.Props.LifeExample
/-!
Cases of C80: a directive with a name and an IPv4 address, the addresses of a redirect, and a device that was made with the IPv6
address of its rendezvous server.
-/
namespace Verif.Url.Toy
open Verif Verif.Rendezvous Verif.Life
open Verif.Life.Toy (cred loc place encCred decCred_enc)
open Verif.RvServer.Toy (aead)

/-- Hexadecimal digits of an octet. -/
def hex (x : UInt8) : List Char := [Nat.digitChar (x.toNat / 16), Nat.digitChar (x.toNat % 16)]

/-- Addresses as they are written, those with sixteen octets without leaving out zeros. -/
def show_ : Bytes → String
  | [a, b, c, d] => String.ofList ((toString a.toNat).toList ++ '.' :: (toString b.toNat).toList ++ '.' :: (toString c.toNat).toList ++ '.' :: (toString d.toNat).toList)
  | l => String.ofList (pairs l)
where
  pairs : Bytes → List Char
    | x :: y :: r => hex x ++ hex y ++ (if r = [] then [] else ':' :: pairs r)
    | _ => []

theorem hex_digit (x : UInt8) : ∀ c ∈ hex x, c ≠ '[' ∧ c ≠ ':' := by
  have h : ∀ n < 16, Nat.digitChar n ≠ '[' ∧ Nat.digitChar n ≠ ':' := by decide
  intro c hc
  have := x.toNat_lt
  simp only [hex, List.mem_cons, List.not_mem_nil, or_false] at hc
  rcases hc with rfl | rfl
  · exact h _ (by omega)
  · exact h _ (by omega)

theorem shows : Shows show_ where
  v4 a b c d := by simp [show_]
  v6 b hb := by
    match b, hb with
    | [a0, a1, a2, a3, a4, a5, a6, a7, a8, a9, b0, b1, b2, b3, b4, b5], _ =>
      have hc : ∀ (x : UInt8), '[' ∉ hex x := fun x h => (hex_digit x _ h).1 rfl
      refine ⟨?_, ?_⟩
      · simp [show_, show_.pairs, List.count_append, List.count_cons]
        omega
      · simp [show_, show_.pairs, hc]

/-- A directive with a name and an IPv4 address. -/
def directive : Interp :=
  { ipAddresses := [[192, 168, 7, 1]], dnsName := some "rv.example.org", port := some 8082, serverCertHash := none, caCertHash := none, userInput := false,
    wifiSsid := none, wifiPassword := none, medium := none, protocol := .https, delay := 0, bypass := false }

example : getUrls show_ directive = ["https://rv.example.org:8082", "https://192.168.7.1:8082"] := by decide +kernel

example : List.Forall₂ (fun u h => Names u "https".toList h 8082) (getUrls show_ directive) ["rv.example.org".toList, "192.168.7.1".toList] := by
  have := C80_rendezvous_urls_partial shows directive 8082 rfl "https" (.inr ⟨rfl, rfl⟩)
    (by intro n h; cases h; decide +kernel) (by intro a h; rw [List.mem_singleton.1 h]; rfl)
  rwa [show (directive.dnsName.toList.map String.toList ++ directive.ipAddresses.map fun a => (show_ a).toList) =
    ["rv.example.org".toList, "192.168.7.1".toList] from by decide +kernel] at this

/-- The loopback address. -/
def loopback : Bytes := List.replicate 15 0 ++ [1]

example : getUrls show_ { directive with dnsName := none, ipAddresses := [loopback] } = ["https://0000:0000:0000:0000:0000:0000:0000:0001:8082"] := by
  decide +kernel

example : ∀ sc h p, ¬ Names "https://0000:0000:0000:0000:0000:0000:0000:0001:8082" sc h p :=
  C80_ipv6_violated shows { directive with dnsName := none, ipAddresses := [loopback] } rfl
    (by intro a h; rw [List.mem_singleton.1 h]; rfl) _ (by decide +kernel)

/-- With brackets it would be a URL. -/
example : Names "https://[0000:0000:0000:0000:0000:0000:0000:0001]:8082" "https".toList "[0000:0000:0000:0000:0000:0000:0000:0001]".toList 8082 := by
  refine ⟨.inr rfl, ?_, by decide +kernel⟩
  exact Host.bracketed "0000:0000:0000:0000:0000:0000:0000:0001".toList (by decide +kernel)

/-- The parties of `LifeToy`, but the rendezvous server has an IPv6 address. -/
@[reducible] def env : Whole :=
  { Life.Toy.env with
    toDevEnv := { Life.Toy.env.toDevEnv with
      D := ⟨Bytes, some, fun _ => some loopback, fun _ => none, fun _ => none, fun _ => none, fun _ => none, fun _ => some .http⟩
      directives := fun _ => [[(.ipAddress, []), (.protocol, [])]]
      showIp := show_ } }

/-- Nothing is ever heard from the network; the credential file is there. -/
def deaf (_ : Unit) : (e : (Device.sig env.toDevEnv).Eff) → Unit × (Device.sig env.toDevEnv).Ans e
  | .iv => ((), [])
  | .net _ => ((), none)
  | .app o => ((), Life.Toy.answers o)

theorem deaf_silent {α : Type} (p : Prog (Device.sig env.toDevEnv) α) (s : Http.Sent) (o : Option Http.NetReply)
    (h : (⟨.net s, o⟩ : (Device.sig env.toDevEnv).Deed) ∈ Prog.doings deaf () p) : o = none := by
  induction p with
  | ret a => cases h
  | act e k ih =>
    rcases List.mem_cons.1 h with h | h
    · cases e with
      | net q =>
        cases h
        rfl
      | iv => cases h
      | app o => cases h
    · exact ih _ h

theorem leg_sub {T : Trace (Device.sig env.toDevEnv)} {u : String} {a : Trace (Device.sig env.toDevEnv)} (h : Leg (R := env) T u a) : ∀ d ∈ a, d ∈ T := by
  obtain ⟨pre, post, rfl, -⟩ := h
  intro d hd
  exact List.mem_append_right _ (List.mem_cons_of_mem _ (List.mem_append_left _ hd))

/-- The directive as the device reads it. -/
theorem read_rv : ∃ rv, Device.rvEntries (R := env.toDevEnv) cred = .ok rv ∧ ∀ i ∈ rv, i.dnsName = none ∧ ∀ a ∈ i.ipAddresses, a.length = 16 := by
  have h : (match Device.rvEntries (R := env.toDevEnv) cred with
    | .ok rv => rv.all fun i => decide (i.dnsName = none ∧ ∀ a ∈ i.ipAddresses, a.length = 16)
    | _ => false) = true := by decide +kernel
  split at h
  · refine ⟨_, by assumption, fun i hi => ?_⟩
    exact of_decide_eq_true (List.all_eq_true.1 h i hi)
  · cases h

/-- The hypotheses of `C80_ipv6_device_violated` are met, for every number of rounds. -/
theorem C80_example (n : Nat) :
    (Prog.exec deaf () (Device.main true aead place SiClient.Toy.host n)).2 = .err .rounds := by
  obtain ⟨rv, h1, h2⟩ := read_rv
  refine C80_ipv6_device_violated (R := env) (l := loc) (cr := cred) (cb := encCred cred) shows (by decide +kernel) (by decide +kernel) ?_ (decCred_enc cred) rfl rfl h1 h2 ?_
    (Prog.exec_ends deaf () _)
  · intro o t h
    have : (Prog.doings deaf () (Device.main (R := env.toDevEnv) true aead place SiClient.Toy.host n)).head? = some ⟨.app (.fs (.read loc.path)), o⟩ := by rw [h]; rfl
    unfold Device.main at this
    rw [if_neg (by decide +kernel), show Credential.find place = some (.ok loc) from by decide +kernel] at this
    cases this
    rfl
  · exact fun u a ha _ s o h => deaf_silent _ s o (leg_sub ha _ h)

end Verif.Url.Toy

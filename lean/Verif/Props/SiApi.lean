import Verif.Model.SiApi
/-!
The service info API server: tokens (C57), an owner server without credentials (C68), device-specific service info (C69).
-/
namespace Verif.SiApi
open Verif Verif.Types Verif.ServiceInfo

/-- Several requests one after the other, each with its surroundings. -/
def steps (s : Server) : List (Oracle × Request) → Server
  | [] => s
  | x :: r => steps (step x.1 s x.2).1 r

theorem step_server (o : Oracle) (s : Server) (r : Request) : (step o s r).1 = s ∨
    ∃ b tok, r.body = some b ∧ s.adminToken = some tok ∧ r.auth = some ("Bearer ".toList ++ tok) ∧ r.method = .post ∧
      (step o s r).1 = { s with stored := b :: s.stored } ∧ (step o s r).2 = .admin true := by
  unfold step
  split
  · split <;> exact .inl rfl
  · next hm hp =>
    split
    · exact .inl rfl
    · split
      · split
        · split
          · unfold adminV0
            split
            · exact .inl rfl
            · next a ha =>
              split
              · next hauth =>
                split
                · exact .inl rfl
                · next b hb =>
                  split
                  · right
                    unfold adminAuth at hauth
                    split at hauth
                    · cases hauth
                    · next tok htok =>
                      refine ⟨b, tok, hb, htok, ?_, hm, rfl, rfl⟩
                      rw [ha, ← of_decide_eq_true hauth]
                      rfl
                  · exact .inl rfl
              · exact .inl rfl
          · exact .inl rfl
        · exact .inl rfl
      · exact .inl rfl
  · exact .inl rfl

/-- **C57**, admin requests: a request is only carried out (or even answered by the admin interface) if an admin token is
configured and its header is exactly this token; otherwise nothing changes. -/
theorem C57_admin (o : Oracle) (s s' : Server) (r : Request) (resp : Response) (hs : step o s r = (s', resp)) :
    ((∃ b, resp = .admin b) → ∃ tok, s.adminToken = some tok ∧ r.auth = some ("Bearer ".toList ++ tok)) ∧
    (s' ≠ s → ∃ tok, s.adminToken = some tok ∧ r.auth = some ("Bearer ".toList ++ tok)) := by
  constructor
  · rintro ⟨b, rfl⟩
    unfold step at hs
    split at hs
    · exfalso
      split at hs
      · have := congrArg Prod.snd hs
        simp only [deviceInfo] at this
        split at this
        · cases this
        · split at this
          · split at this
            · cases this
            · split at this <;> cases this
          · cases this
      · cases hs
    · split at hs
      · cases hs
      · split at hs
        · split at hs
          · split at hs
            · unfold adminV0 at hs
              split at hs
              · cases hs
              · next a ha =>
                split at hs
                · next hauth =>
                  unfold adminAuth at hauth
                  split at hauth
                  · cases hauth
                  · next tok htok =>
                    refine ⟨tok, htok, ?_⟩
                    rw [ha, ← of_decide_eq_true hauth]
                    rfl
                · cases hs
            · cases hs
          · cases hs
        · cases hs
    · cases hs
  · intro hne
    rcases step_server o s r with h | ⟨b, tok, -, h1, h2, -, -, -⟩
    · rw [hs] at h
      exact absurd h hne
    · exact ⟨tok, h1, h2⟩

/-- **C57**, over time: whatever is in the store after any sequence of requests was there before or was sent with the
token; without a configured token nothing is ever stored. -/
theorem C57_stored (s : Server) (l : List (Oracle × Request)) : ∀ b ∈ (steps s l).stored, b ∈ s.stored ∨
    ∃ x ∈ l, ∃ tok, x.2.body = some b ∧ s.adminToken = some tok ∧ x.2.auth = some ("Bearer ".toList ++ tok) := by
  induction l generalizing s with
  | nil => exact fun b hb => .inl hb
  | cons x l ih =>
    intro b hb
    have htok : (step x.1 s x.2).1.adminToken = s.adminToken := by
      rcases step_server x.1 s x.2 with h | ⟨_, _, _, _, _, _, h, _⟩ <;> rw [h]
    rcases ih (step x.1 s x.2).1 b hb with h | ⟨y, hy, tok, h1, h2, h3⟩
    · rcases step_server x.1 s x.2 with h' | ⟨b', tok, g1, g2, g3, _, g4, _⟩
      · rw [h'] at h
        exact .inl h
      · rw [g4] at h
        rcases List.mem_cons.1 h with rfl | h
        · exact .inr ⟨x, by simp, tok, g1, g2, g3⟩
        · exact .inl h
    · exact .inr ⟨y, by simp [hy], tok, h1, htok ▸ h2, h3⟩

/-- **C57**: the rightful admin request is carried out. -/
theorem C57_admin_accepted (o : Oracle) (s : Server) (tok : List Char) (b : AdminRequest) (q : List Char) (rest : List (List Char))
    (ht : s.adminToken = some tok) (ho : o.storeOk = true) :
    step o s ⟨.post, "admin".toList :: "v0".toList :: rest, some ("Bearer ".toList ++ tok), q, some b⟩ =
      ({ s with stored := b :: s.stored }, .admin true) := by
  have h : adminAuth s ("Bearer ".toList ++ tok) = true := by
    unfold adminAuth bearer
    rw [ht]
    exact decide_eq_true rfl
  have h1 : ¬ "admin".toList = "ping".toList := by decide
  simp only [step, h1, if_false, if_true, adminV0, h, ho]

/-- **C57**, requests for devices: with a token configured, device info is only returned to requests carrying exactly it. -/
theorem C57_info (o : Oracle) (s s' : Server) (r : Request) (x : ApiReply) (tok : List Char)
    (hs : step o s r = (s', .info x)) (ht : s.siToken = some tok) : r.auth = some ("Bearer ".toList ++ tok) := by
  unfold step at hs
  split at hs
  · split at hs
    · have := congrArg Prod.snd hs
      simp only [deviceInfo] at this
      split at this
      · cases this
      · next a ha =>
        split at this
        · next hauth =>
          unfold siAuth at hauth
          rw [ht] at hauth
          rw [ha, ← of_decide_eq_true hauth]
          rfl
        · cases this
    · cases hs
  · split at hs
    · cases hs
    · split at hs
      · split at hs
        · split at hs
          · unfold adminV0 at hs
            split at hs
            · cases hs
            · split at hs
              · split at hs
                · cases hs
                · split at hs <;> cases hs
              · cases hs
          · cases hs
        · cases hs
      · cases hs
  · cases hs

/-- **C57**, converse: a request carrying the token (or any header, if there is no token) gets the reply for its query. -/
theorem C57_info_accepted (o : Oracle) (s : Server) (a q : List Char) (rest : List (List Char)) (body : Option AdminRequest)
    (query : Query) (x : ApiReply) (ht : ∀ tok, s.siToken = some tok → a = "Bearer ".toList ++ tok)
    (hq : parseQuery o.unescape q = some query) (hx : handler s.config (o.perDevice query.guid) query = some x) :
    step o s ⟨.get, "device_info".toList :: rest, some a, q, body⟩ = (s, .info x) := by
  have h : siAuth s a = true := by
    unfold siAuth
    cases hs : s.siToken with
    | none => rfl
    | some tok => exact decide_eq_true (ht tok hs).symm
  simp only [step, if_true, deviceInfo, h, hq, hx]

/-- The statement of C68 is false: without the header nothing is answered, also if no token is configured; and an owner
server without credentials does not send it. So these two, each set up without a token, never work together. -/
theorem C68_tokenless_violated (o : Oracle) (s : Server) (query : List Char) : answer o s none query = none := rfl

/-- **C68**, what does hold: any token of the owner server will do if none is configured at the service info server. -/
theorem C68_any_token_partial (o : Oracle) (s : Server) (token q : List Char) (query : Query) (x : ApiReply) (hs : s.siToken = none)
    (hq : parseQuery o.unescape q = some query) (hx : handler s.config (o.perDevice query.guid) query = some x) :
    answer o s (some token) q = some x := by
  unfold answer ownerRequest
  rw [Option.map_some, C57_info_accepted (query := query) (x := x) (ht := fun tok h => by rw [hs] at h; cases h) (hq := hq) (hx := hx)]

/-- The statement of C69 is false in the strongest sense: nothing that was stored for a device ever has an influence on any
answer. -/
theorem C69_device_specific_violated (o : Oracle) (s : Server) (r : Request) (stored : List AdminRequest) :
    (step o { s with stored := stored } r).2 = (step o s r).2 := by
  unfold step
  split
  · split <;> rfl
  · split
    · rfl
    · split
      · split
        · split
          · unfold adminV0
            split
            · rfl
            · show (if adminAuth s _ then _ else _ : Server × Response).2 = _
              split
              · split
                · rfl
                · split <;> rfl
              · rfl
          · rfl
        · rfl
      · rfl
  · rfl

namespace Toy

/-- A server with both tokens and one command. -/
def server : Server :=
  ⟨⟨some ⟨"admin".toList, none, some ["ssh-rsa a".toList]⟩, none, some [⟨"ls".toList, ["-l".toList], false, true, false⟩], none, none,
    some true⟩, some "s".toList, some "t".toList, []⟩

/-- Surroundings without escapes and settings for single devices. -/
def oracle : Oracle := ⟨fun _ => none, id, true⟩

/-- A query as the owner server makes it. -/
def query : List Char := apiQuery "00000000-0000-0000-0000-000000000001".toList ["org.fedoraiot.command".toList, "org.fedoraiot.sshkey".toList]

/-- The number of extra commands answered. -/
def extras (r : Option ApiReply) : Option Nat := r.map fun x => (x.extra.getD []).length

end Toy

/-- Requests as in the theorems: with the token there is a reply with the command, its switch and the user; without, none. -/
example : Toy.extras (answer Toy.oracle Toy.server (some "s".toList) Toy.query) = some 7 ∧
    Toy.extras (answer Toy.oracle Toy.server (some "t".toList) Toy.query) = none ∧
    (answer Toy.oracle Toy.server (some "s".toList) Toy.query).bind (fun x => x.user.map (·.username)) = some "admin".toList := by
  decide +kernel

example : (step Toy.oracle Toy.server ⟨.post, ["admin".toList, "v0".toList], some "Bearer t".toList, [], some ⟨[], []⟩⟩).1.stored.length = 1 ∧
    (step Toy.oracle Toy.server ⟨.post, ["admin".toList, "v0".toList], some "Bearer s".toList, [], some ⟨[], []⟩⟩).1.stored.length = 0 := by
  decide +kernel

end Verif.SiApi

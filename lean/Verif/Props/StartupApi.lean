import Verif.Model.StartupApi
import Verif.Props.StartupSi
import Verif.Props.Query
/-!
C99: an owner server gets at the service info server its settings name, and shows the credentials in its settings.
-/
namespace Verif.Startup
open Verif Verif.Settings

/-! ### Specification -/

/-- The settings say that there is no authentication. -/
def NoAuth (S : Reads) (v : Val) : Prop := ∃ x, field v.fields "service_info_api_authentication" = some x ∧
  ((∃ s, x = .leaf s ∧ S.variant ["None", "BearerToken", "ClientCertificate"] x = some "None") ∨
   ∃ k s, x = .table [(k, .leaf s)] ∧ (∃ n, S.variant ["None", "BearerToken", "ClientCertificate"] (.leaf k) = some n ∧
     n ≠ "BearerToken" ∧ n ≠ "ClientCertificate") ∧ S.isNull s = true)

/-- The settings name a token. -/
def TokenAuth (S : Reads) (v : Val) (t : List Char) : Prop := ∃ k l,
  field v.fields "service_info_api_authentication" = some (.table [(k, .table l)]) ∧
  S.variant ["None", "BearerToken", "ClientCertificate"] (.leaf k) = some "BearerToken" ∧ Entry (.table l) "token" (IsText S) t

/-- A byte. -/
def IsByte (u8 : String → Option UInt8) (x : Val) (b : UInt8) : Prop := ∃ s, x = .leaf s ∧ u8 s = some b

/-- The settings name a certificate and its password. -/
def CertAuth (S : Reads) (u8 : String → Option UInt8) (v : Val) (der : Bytes) (password : List Char) : Prop := ∃ k l,
  field v.fields "service_info_api_authentication" = some (.table [(k, .table l)]) ∧
  S.variant ["None", "BearerToken", "ClientCertificate"] (.leaf k) = some "ClientCertificate" ∧
  Entry (.table l) "client_certificate" (IsList S (IsByte u8)) der ∧ Entry (.table l) "password" (IsText S) password

/-- What the settings say about credentials: the certificate and the token to show. -/
inductive Shows (S : Reads) (A : ApiWorld) (v : Val) : Option A.Id → Option (List Char) → Prop
  | none : NoAuth S v → Shows S A v .none .none
  | token {t : List Char} : TokenAuth S v t → Shows S A v .none (some t)
  | certificate {der : Bytes} {password : List Char} {i : A.Id} : CertAuth S A.u8 v der password → A.identity der password = some i →
      Shows S A v (some i) .none

/-- Printable characters of ASCII, and the tab. -/
def Plain (t : List Char) : Prop := ∀ c ∈ t, c = '\t' ∨ 32 ≤ c.toNat ∧ c.toNat ≤ 126

/-! ### Proofs -/

section
variable {S : Reads} {A : ApiWorld} {v : Val} {u8 : String → Option UInt8}

theorem byteOf_iff {x : Val} {b : UInt8} : byteOf u8 x = .ok b ↔ IsByte u8 x b := by
  unfold IsByte
  cases x with
  | table l =>
    constructor
    · intro h; cases h
    · rintro ⟨s, h, -⟩; cases h
  | leaf s =>
    constructor
    · intro h
      unfold byteOf at h
      simp only at h
      split at h
      · rename_i c hc
        cases h
        exact ⟨s, rfl, hc⟩
      · cases h
    · rintro ⟨s', h, h'⟩
      cases h
      unfold byteOf
      simp only [h']

theorem tokenOf_iff {x : Val} {a : Auth} : tokenOf S x = .ok a ↔ ∃ t, a = .token t ∧ Entry x "token" (IsText S) t := by
  constructor
  · intro h
    obtain ⟨t, h1, h2⟩ := Res.bind_eq_ok.1 h
    cases h2
    exact ⟨t, rfl, (required_iff fun _ _ => textOf_iff).1 h1⟩
  · rintro ⟨t, rfl, h⟩
    exact Res.bind_eq_ok.2 ⟨t, (required_iff fun _ _ => textOf_iff).2 h, rfl⟩

theorem certificateOf_iff {x : Val} {a : Auth} : certificateOf S u8 x = .ok a ↔ ∃ d p, a = .certificate d p ∧
    Entry x "client_certificate" (IsList S (IsByte u8)) d ∧ Entry x "password" (IsText S) p := by
  constructor
  · intro h
    obtain ⟨d, h1, h2⟩ := Res.bind_eq_ok.1 h
    obtain ⟨p, h3, h4⟩ := Res.bind_eq_ok.1 h2
    cases h4
    exact ⟨d, p, rfl, (required_iff fun _ _ => listOf_iff fun _ _ => byteOf_iff).1 h1, (required_iff fun _ _ => textOf_iff).1 h3⟩
  · rintro ⟨d, p, rfl, h1, h2⟩
    exact Res.bind_eq_ok.2 ⟨d, (required_iff fun _ _ => listOf_iff fun _ _ => byteOf_iff).2 h1,
      Res.bind_eq_ok.2 ⟨p, (required_iff fun _ _ => textOf_iff).2 h2, rfl⟩⟩

theorem authOf_none : required (authOf S u8) v "service_info_api_authentication" = .ok .none ↔ NoAuth S v := by
  rw [required_iff (P := fun x a => authOf S u8 x = .ok a) fun _ _ => Iff.rfl]
  unfold NoAuth Entry
  refine exists_congr fun x => and_congr_right fun _ => ?_
  constructor
  · intro h
    replace h : authOf S u8 x = .ok .none := h
    unfold authOf at h
    split at h
    · split at h
      · exact .inl ⟨_, rfl, by assumption⟩
      · cases h
    · split at h
      · rename_i n hn
        split at h
        · obtain ⟨-, h⟩ := structOf_iff.1 h
          obtain ⟨t, h, -⟩ := tokenOf_iff.1 h
          cases h
        · rename_i h1
          split at h
          · obtain ⟨-, h⟩ := structOf_iff.1 h
            obtain ⟨d, p, h, -⟩ := certificateOf_iff.1 h
            cases h
          · rename_i h2
            split at h
            · split at h
              · rename_i hs
                exact .inr ⟨_, _, rfl, ⟨n, hn, h1, h2⟩, hs⟩
              · cases h
            · cases h
      · cases h
    · cases h
  · rintro (⟨s, rfl, h⟩ | ⟨k, s, rfl, ⟨n, h1, h2, h3⟩, h4⟩)
    · unfold authOf
      simp only [authNames, h, if_true]
    · unfold authOf
      simp only [authNames, h1, h2, h3, h4, if_true, if_false]

theorem authOf_token {t : List Char} : required (authOf S u8) v "service_info_api_authentication" = .ok (.token t) ↔ TokenAuth S v t := by
  rw [required_iff (P := fun x a => authOf S u8 x = .ok a) fun _ _ => Iff.rfl]
  unfold TokenAuth
  constructor
  · rintro ⟨x, hx, h⟩
    unfold authOf at h
    split at h
    · split at h <;> cases h
    · rename_i k w
      split at h
      · rename_i n hn
        split at h
        · rename_i h1
          obtain ⟨⟨l, rfl⟩, h⟩ := structOf_iff.1 h
          obtain ⟨t', h, h2⟩ := tokenOf_iff.1 h
          cases h
          exact ⟨k, l, hx, hn.trans (congrArg some h1), h2⟩
        · split at h
          · obtain ⟨-, h⟩ := structOf_iff.1 h
            obtain ⟨d, p, h, -⟩ := certificateOf_iff.1 h
            cases h
          · split at h
            · split at h <;> cases h
            · cases h
      · cases h
    · cases h
  · rintro ⟨k, l, h1, h2, h3⟩
    refine ⟨_, h1, ?_⟩
    unfold authOf
    simp only [authNames, h2, if_true]
    exact structOf_iff.2 ⟨⟨l, rfl⟩, tokenOf_iff.2 ⟨t, rfl, h3⟩⟩

theorem authOf_certificate {d : Bytes} {p : List Char} :
    required (authOf S u8) v "service_info_api_authentication" = .ok (.certificate d p) ↔ CertAuth S u8 v d p := by
  rw [required_iff (P := fun x a => authOf S u8 x = .ok a) fun _ _ => Iff.rfl]
  unfold CertAuth
  constructor
  · rintro ⟨x, hx, h⟩
    unfold authOf at h
    split at h
    · split at h <;> cases h
    · rename_i k w
      split at h
      · rename_i n hn
        split at h
        · obtain ⟨-, h⟩ := structOf_iff.1 h
          obtain ⟨t', h, -⟩ := tokenOf_iff.1 h
          cases h
        · split at h
          · rename_i h1
            obtain ⟨⟨l, rfl⟩, h⟩ := structOf_iff.1 h
            obtain ⟨d', p', h, h2⟩ := certificateOf_iff.1 h
            cases h
            exact ⟨k, l, hx, hn.trans (congrArg some h1), h2⟩
          · split at h
            · split at h <;> cases h
            · cases h
      · cases h
    · cases h
  · rintro ⟨k, l, h1, h2, h3⟩
    refine ⟨_, h1, ?_⟩
    unfold authOf
    have hne : ¬ "ClientCertificate" = "BearerToken" := by decide
    simp only [authNames, h2, if_true, if_neg hne]
    exact structOf_iff.2 ⟨⟨l, rfl⟩, certificateOf_iff.2 ⟨d, p, rfl, h3⟩⟩

/-- **C99**, start-up: the owner server gets at the URL in its settings, and has the credentials in its settings; and with a URL and
credentials that can be used, it starts. -/
theorem C99_starts (c : ApiClient A) : apiClient S A v = .ok c ↔
    ∃ u, Entry v "service_info_api_url" (IsText S) u ∧ A.url u = some c.base ∧ Shows S A v c.identity c.token ∧ A.build c.identity = true := by
  constructor
  · intro h
    obtain ⟨u, h1, h⟩ := Res.bind_eq_ok.1 h
    obtain ⟨a, h2, h⟩ := Res.bind_eq_ok.1 h
    unfold newClient at h
    obtain ⟨⟨i, t⟩, h3, h⟩ := Res.bind_eq_ok.1 h
    simp only at h
    split at h
    · cases h
    · rename_i b hb
      split at h
      · rename_i hi
        cases h
        refine ⟨u, (required_iff fun _ _ => textOf_iff).1 h1, hb, ?_, hi⟩
        cases a with
        | none => cases h3; exact .none (authOf_none.1 h2)
        | token t => cases h3; exact .token (authOf_token.1 h2)
        | certificate d p =>
          unfold keepAuth at h3
          simp only at h3
          split at h3
          · cases h3
          · rename_i hj
            cases h3
            exact .certificate (authOf_certificate.1 h2) hj
      · cases h
  · rintro ⟨u, h1, h2, h3, h4⟩
    obtain ⟨b, i, t⟩ := c
    refine Res.bind_eq_ok.2 ⟨u, (required_iff fun _ _ => textOf_iff).2 h1, ?_⟩
    simp only at h2 h3 h4
    cases h3 with
    | none h3 =>
      refine Res.bind_eq_ok.2 ⟨_, authOf_none.2 h3, ?_⟩
      refine Res.bind_eq_ok.2 ⟨(none, none), rfl, ?_⟩
      simp only [h2, h4, if_true]
      rfl
    | token h3 =>
      refine Res.bind_eq_ok.2 ⟨_, authOf_token.2 h3, ?_⟩
      refine Res.bind_eq_ok.2 ⟨(none, some _), rfl, ?_⟩
      simp only [h2, h4, if_true]
      rfl
    | @certificate _ _ i h3 h5 =>
      refine Res.bind_eq_ok.2 ⟨_, authOf_certificate.2 h3, ?_⟩
      unfold newClient
      refine Res.bind_eq_ok.2 ⟨(some i, none), ?_, ?_⟩
      · unfold keepAuth
        simp only [h5]
      · simp only [h2, h4, if_true]
        rfl

theorem entry_inj {n : String} {a b : List Char} {t : Val} (h : Entry t n (IsText S) a) (h' : Entry t n (IsText S) b) : a = b := by
  obtain ⟨x, h1, s, u, rfl, h2, rfl⟩ := h
  obtain ⟨y, g1, s', u', rfl, g2, rfl⟩ := h'
  rw [h1] at g1
  cases g1
  rw [h2] at g2
  cases g2
  rfl

/-- A token in the settings is the one that is shown. -/
theorem shows_token {i : Option A.Id} {t : List Char} {t' : Option (List Char)} (h : TokenAuth S v t) (hs : Shows S A v i t') : t' = some t := by
  have h1 := (authOf_token (u8 := A.u8)).2 h
  cases hs with
  | none g => rw [authOf_none.2 g] at h1; cases h1
  | token g => rw [authOf_token.2 g] at h1; cases h1; rfl
  | certificate g _ => rw [authOf_certificate.2 g] at h1; cases h1

theorem shows_no_token {i : Option A.Id} {t' : Option (List Char)} (h : ¬ ∃ t, TokenAuth S v t) (hs : Shows S A v i t') : t' = none := by
  cases hs with
  | none g => rfl
  | token g => exact absurd ⟨_, g⟩ h
  | certificate g _ => rfl

theorem plain_readable {t : List Char} (h : Plain t) : ("Bearer ".toList ++ t).all readableChar = true := by
  rw [List.all_append, Bool.and_eq_true]
  refine ⟨by decide, List.all_eq_true.2 fun c hc => ?_⟩
  unfold readableChar
  rcases h c hc with rfl | ⟨h1, h2⟩
  · rfl
  · simp only [Bool.or_eq_true, Bool.and_eq_true, decide_eq_true_eq]
    omega

theorem readable_header {a : List Char} (h : a.all readableChar = true) : a.all headerChar = true := by
  refine List.all_eq_true.2 fun c hc => ?_
  have := List.all_eq_true.1 h c hc
  unfold readableChar at this
  unfold headerChar
  simp only [Bool.or_eq_true, Bool.and_eq_true, decide_eq_true_eq] at this ⊢
  exact this.imp id fun h => ⟨h.1, by omega⟩

/-- **C99**, every request of the owner server goes to the host and path of the URL in its settings, and the credentials in it are the
token in its settings, or none. -/
theorem C99_request_partial {c : ApiClient A} (h : apiClient S A v = .ok c) {q : List Char} {origin : String} {r : SiApi.Request}
    (hr : sendGet c q = some (origin, r)) : ∃ u b, Entry v "service_info_api_url" (IsText S) u ∧ A.url u = some b ∧ origin = b.origin ∧
    r.path = b.path ∧ r.method = .get ∧ r.query = Url.setQuery q ∧
    ∀ a, r.auth = some a → ∃ t, TokenAuth S v t ∧ a = "Bearer ".toList ++ t := by
  obtain ⟨u, h1, h2, h3, -⟩ := (C99_starts c).1 h
  refine ⟨u, c.base, h1, h2, ?_⟩
  unfold sendGet at hr
  split at hr
  · cases hr
    exact ⟨rfl, rfl, rfl, rfl, fun _ h => nomatch h⟩
  · rename_i t ht
    simp only at hr
    split at hr
    · cases hr
      refine ⟨rfl, rfl, rfl, rfl, fun a ha => ⟨t, ?_, ?_⟩⟩
      · rw [ht] at h3
        generalize c.identity = i at h3
        cases h3 with
        | token g => exact g
      · simp only at ha
        split at ha
        · cases ha; rfl
        · cases ha
    · cases hr

/-- **C99**, the two servers together: both were started from their settings, which name the same token, or the one of the service info
server names none; the URL leads to the route of the latter. Then the owner server gets the reply, after any requests of others. -/
theorem C99_served {c : ApiClient A} (h : apiClient S A v = .ok c) {t : List Char} (ht : TokenAuth S v t) (hp : Plain t) {u : List Char}
    {b : Base} {rest' : List (List Char)} (hu : Entry v "service_info_api_url" (IsText S) u) (hb : A.url u = some b)
    (hd : b.path = "device_info".toList :: rest')
    {S' : Reads} {W : SiWorld} {rest : Bool} {stored : List SiApi.AdminRequest} {v' : Val} {s : SiApi.Server}
    (hs : serviceInfo S' W rest stored v' = .ok s) (htok : ∀ t', Token S' v' "service_info_auth_token" t' → t' = t)
    (l : List (SiApi.Oracle × SiApi.Request)) {o : SiApi.Oracle} {q : List Char} {query : SiApi.Query} {x : ServiceInfo.ApiReply}
    (hq : SiApi.parseQuery o.unescape (Url.setQuery q) = some query)
    (hx : SiApi.handler s.config (o.perDevice query.guid) query = some x) : apiAnswer o (SiApi.steps s l) c q = some x := by
  obtain ⟨u', h1, h2, h3, -⟩ := (C99_starts c).1 h
  rw [entry_inj h1 hu, hb] at h2
  have hc := shows_token ht h3
  have hr := plain_readable hp
  unfold apiAnswer sendGet
  simp only [hc, hr, readable_header hr, if_true]
  rw [← Option.some.inj h2, hd]
  obtain ⟨_, _, -, -, -, -, h4, -, -, -, -⟩ := serviceInfo_iff.1 hs
  obtain ⟨e1, e2, -⟩ := steps_kept s l
  rw [SiApi.C57_info_accepted o _ _ _ rest' none query x (fun t' ht' => by rw [htok t' (token_of h4 (e2.symm.trans ht'))]) hq
    (by rw [e1]; exact hx)]

/-- **C99**, for whatever else is known about the two servers: with a token from its settings, the owner server asks as in `Url.ask`, and
with the path of the route. -/
theorem C99_asks {c : ApiClient A} (h : apiClient S A v = .ok c) {t : List Char} (ht : TokenAuth S v t) (hp : Plain t) {u : List Char}
    {b : Base} (hu : Entry v "service_info_api_url" (IsText S) u) (hb : A.url u = some b) (hd : b.path = ["device_info".toList])
    (o : SiApi.Oracle) (s : SiApi.Server) (q : List Char) : apiAnswer o s c q = Url.ask o s (some t) q := by
  obtain ⟨u', h1, h2, h3, -⟩ := (C99_starts c).1 h
  rw [entry_inj h1 hu, hb] at h2
  have hr := plain_readable hp
  unfold apiAnswer sendGet Url.ask SiApi.answer SiApi.ownerRequest
  simp only [shows_token ht h3, hr, readable_header hr, if_true]
  rw [← Option.some.inj h2, hd]
  rfl

/-- **C99**, an owner server whose settings do not name the token in those of the service info server never gets a reply. -/
theorem C99_refused {c : ApiClient A} (h : apiClient S A v = .ok c) {S' : Reads} {W : SiWorld} {rest : Bool}
    {stored : List SiApi.AdminRequest} {v' : Val} {s : SiApi.Server} (hs : serviceInfo S' W rest stored v' = .ok s)
    (hh : Has S'.toScalars v' "service_info_auth_token") (hne : ∀ t, Token S' v' "service_info_auth_token" t → ¬ TokenAuth S v t)
    (l : List (SiApi.Oracle × SiApi.Request)) (o : SiApi.Oracle) (q : List Char) : apiAnswer o (SiApi.steps s l) c q = none := by
  unfold apiAnswer
  split
  · rfl
  · rename_i r hr
    split
    · rename_i x hx
      obtain ⟨t, h1, h2⟩ := C97_token_partial (s' := (SiApi.step o (SiApi.steps s l) r.2).1) hs hh l (Prod.ext rfl hx)
      obtain ⟨_, _, -, -, -, -, -, -, h3⟩ := C99_request_partial (origin := r.1) (r := r.2) h hr
      obtain ⟨t', h4, h5⟩ := h3 _ h2
      rw [List.append_cancel_left h5] at h1
      exact absurd h4 (hne _ h1)
    · rfl

/-- Without a header that can be read there is no reply. -/
theorem no_header {o : SiApi.Oracle} {s : SiApi.Server} {p : List (List Char)} {q : List Char} {x : ServiceInfo.ApiReply} :
    (SiApi.step o s ⟨.get, p, none, q, none⟩).2 ≠ .info x := by
  intro h
  unfold SiApi.step at h
  cases p with
  | nil => cases h
  | cons a p =>
    simp only at h
    split at h
    · cases h
    · cases h

/-- **C99** is violated: an owner server whose settings say `None`, or name a certificate, never gets a reply from any service info server,
even if its settings name no token. By the documentation (HOWTO.md:504-507, 632-633), it should. -/
theorem C99_tokenless_violated {c : ApiClient A} (h : apiClient S A v = .ok c) (hn : NoAuth S v ∨ ∃ d p, CertAuth S A.u8 v d p) (o : SiApi.Oracle)
    (s : SiApi.Server) (q : List Char) : apiAnswer o s c q = none := by
  obtain ⟨-, -, -, h3, -⟩ := (C99_starts c).1 h
  have ht : ¬ ∃ t, TokenAuth S v t := by
    rintro ⟨t, ht⟩
    have h1 := (authOf_token (u8 := A.u8)).2 ht
    rcases hn with hn | ⟨d, p, hn⟩
    · rw [authOf_none.2 hn] at h1; cases h1
    · rw [authOf_certificate.2 hn] at h1; cases h1
  unfold apiAnswer sendGet
  simp only [shows_no_token ht h3]
  split
  · rename_i x hx
    exact absurd hx no_header
  · rfl

/-- **C99** is violated: with a token that has other characters, both servers start, but the owner server never gets a reply. -/
theorem C99_characters_violated {c : ApiClient A} (h : apiClient S A v = .ok c) {t : List Char} (ht : TokenAuth S v t) (hp : ¬ Plain t)
    (o : SiApi.Oracle) (s : SiApi.Server) (q : List Char) : apiAnswer o s c q = none := by
  obtain ⟨-, -, -, h3, -⟩ := (C99_starts c).1 h
  have hr : ("Bearer ".toList ++ t).all readableChar ≠ true := by
    intro hr
    refine hp fun c hc => ?_
    have := List.all_eq_true.1 hr c (List.mem_append.2 (.inr hc))
    unfold readableChar at this
    simp only [Bool.or_eq_true, Bool.and_eq_true, decide_eq_true_eq] at this
    exact this.imp id fun h => ⟨h.1, by omega⟩
  unfold apiAnswer sendGet
  simp only [shows_token ht h3]
  split
  · rfl
  · rename_i r hr'
    split at hr'
    · cases hr'
      split
      · rename_i x hx
        exact absurd hx no_header
      · rfl
    · cases hr'

/-- **C99** is violated: a query in the URL of the settings is dropped. Requests are the same with any other, or with none. -/
theorem C99_query_violated (c : ApiClient A) (b : Option (List Char)) (q : List Char) :
    sendGet { c with base := { c.base with query := b } } q = sendGet c q := rfl

end

end Verif.Startup

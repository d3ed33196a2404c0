import Verif.Model.StartupAddr
import Verif.Props.StartupSi
/-!
C100: devices are sent to the addresses in the settings of the owner server, in their order.
-/
namespace Verif.Startup
open Verif Verif.Settings

/-! ### Specification -/

/-- The transport with this name, in any case. -/
inductive Named : List Char → Device.Transport → Prop
  | http {t : List Char} : t.map Char.toLower = ['h', 't', 't', 'p'] → Named t .http
  | https {t : List Char} : t.map Char.toLower = ['h', 't', 't', 'p', 's'] → Named t .https
  | other {t : List Char} : t.map Char.toLower ∈ [['t', 'c', 'p'], ['t', 'l', 's'], ['c', 'o', 'a', 'p'], ['c', 'o', 'a', 'p', 's']] →
      Named t .other

/-- A field that is a text. -/
def TextField (S : AddrReads) (x : Val) (name t : String) : Prop := ∃ s, field x.fields name = some (.leaf s) ∧ S.str s = some t

/-- An address: an IP address, or a name if there is none. -/
inductive IsAddress (S : AddrReads) : Val → Aio.Remote → Prop
  | ip {l : List (String × Val)} {t : String} : TextField S (.table l) "ip_address" t → IsAddress S (.table l) (.ip t)
  | dns {l : List (String × Val)} {n : String} : (¬ ∃ t, TextField S (.table l) "ip_address" t) → TextField S (.table l) "dns_name" n →
      IsAddress S (.table l) (.dns n)

/-- A connection. -/
structure IsConnection (S : AddrReads) (x : Val) (c : Aio.Connection) : Prop where
  table : IsTable x
  transport : ∃ t, Entry x "transport" (IsText S.toReads) t ∧ Named t c.transport
  addresses : Entry x "addresses" (IsList S.toReads (IsAddress S)) c.addresses
  port : ∃ s, field x.fields "port" = some (.leaf s) ∧ S.u16 s = some c.port

/-- What devices are told about an address. -/
inductive Told (parseIp : String → Option Bytes) (c : Aio.Connection) : Aio.Remote → Device.Addr → Prop
  | ip {t : String} {b : Bytes} : parseIp t = some b → Told parseIp c (.ip t) ⟨some b, none, c.port, c.transport⟩
  | dns {n : String} : Told parseIp c (.dns n) ⟨none, some n, c.port, c.transport⟩

/-- The place a device goes to for an address: `http` and `https` only. -/
inductive Leads (R : Device.DevEnv) (parseIp : String → Option Bytes) (c : Aio.Connection) : Aio.Remote → List String → Prop
  | httpIp {t : String} {b : Bytes} : c.transport = .http → parseIp t = some b →
      Leads R parseIp c (.ip t) ["http" ++ "://" ++ R.showIp b ++ ":" ++ toString c.port]
  | httpDns {n : String} : c.transport = .http → Leads R parseIp c (.dns n) ["http" ++ "://" ++ n ++ ":" ++ toString c.port]
  | httpsIp {t : String} {b : Bytes} : c.transport = .https → parseIp t = some b →
      Leads R parseIp c (.ip t) ["https" ++ "://" ++ R.showIp b ++ ":" ++ toString c.port]
  | httpsDns {n : String} : c.transport = .https → Leads R parseIp c (.dns n) ["https" ++ "://" ++ n ++ ":" ++ toString c.port]
  | other {a : Aio.Remote} : c.transport = .other → Leads R parseIp c a []

/-! ### Proofs -/

section
variable {S : AddrReads} {parseIp : String → Option Bytes} {v : Val}

theorem transportNamed_iff {t : List Char} {r : Device.Transport} : transportNamed t = some r ↔ Named t r := by
  unfold transportNamed
  have e1 : "http".toList = ['h', 't', 't', 'p'] := rfl
  have e2 : "https".toList = ['h', 't', 't', 'p', 's'] := rfl
  have e3 : ["tcp".toList, "tls".toList, "coap".toList, "coaps".toList] =
    [['t', 'c', 'p'], ['t', 'l', 's'], ['c', 'o', 'a', 'p'], ['c', 'o', 'a', 'p', 's']] := rfl
  simp only [e1, e2, e3]
  constructor
  · intro h
    split at h
    · rename_i g; cases h; exact .http g
    · split at h
      · rename_i g; cases h; exact .https g
      · split at h
        · rename_i g; cases h; exact .other g
        · cases h
  · intro h
    cases h with
    | http g => simp [g]
    | https g => simp [g]
    | other g =>
      rw [if_neg, if_neg, if_pos g]
      · intro e; rw [e] at g; exact absurd g (by decide)
      · intro e; rw [e] at g; exact absurd g (by decide)

theorem transportOf_iff {x : Val} {r : Device.Transport} : transportOf S x = .ok r ↔ ∃ t, IsText S.toReads x t ∧ Named t r := by
  constructor
  · intro h
    obtain ⟨t, h1, h2⟩ := Res.bind_eq_ok.1 h
    split at h2
    · rename_i r' hr
      cases h2
      exact ⟨t, textOf_iff.1 h1, transportNamed_iff.1 hr⟩
    · cases h2
  · rintro ⟨t, h1, h2⟩
    refine Res.bind_eq_ok.2 ⟨t, textOf_iff.2 h1, ?_⟩
    simp only [transportNamed_iff.2 h2]
    rfl

theorem strOf_iff {x : Val} {name t : String} : strOf S x name = some t ↔ TextField S x name t := by
  unfold strOf TextField
  constructor
  · intro h
    split at h
    · rename_i s hs
      exact ⟨s, hs, h⟩
    · cases h
  · rintro ⟨s, h1, h2⟩
    simp only [h1, h2]

theorem remoteOf_iff {x : Val} {a : Aio.Remote} : remoteOf S x = .ok a ↔ IsAddress S x a := by
  constructor
  · intro h
    unfold remoteOf at h
    split at h
    · cases h
    · split at h
      · rename_i t ht
        cases h
        exact .ip (strOf_iff.1 ht)
      · rename_i hn
        split at h
        · rename_i n hd
          cases h
          refine .dns ?_ (strOf_iff.1 hd)
          rintro ⟨t, ht⟩
          rw [strOf_iff.2 ht] at hn
          cases hn
        · cases h
  · intro h
    cases h with
    | ip h =>
      unfold remoteOf
      simp only [strOf_iff.2 h]
    | dns h1 h2 =>
      unfold remoteOf
      have : ∀ l, (¬ ∃ t, TextField S (.table l) "ip_address" t) → strOf S (.table l) "ip_address" = none := by
        intro l hl
        cases hs : strOf S (.table l) "ip_address" with
        | none => rfl
        | some t => exact absurd ⟨t, strOf_iff.1 hs⟩ hl
      simp only [this _ h1, strOf_iff.2 h2]

theorem portOf_iff {x : Val} {n : Nat} : portOf S x = .ok n ↔ ∃ s, x = .leaf s ∧ S.u16 s = some n := by
  cases x with
  | table l =>
    constructor
    · intro h; cases h
    · rintro ⟨s, h, -⟩; cases h
  | leaf s =>
    constructor
    · intro h
      unfold portOf at h
      simp only at h
      split at h
      · rename_i m hm
        cases h
        exact ⟨s, rfl, hm⟩
      · cases h
    · rintro ⟨s', h, h'⟩
      cases h
      unfold portOf
      simp only [h']

theorem connectionOf_iff {x : Val} {c : Aio.Connection} : structOf (connectionOf S) x = .ok c ↔ IsConnection S x c := by
  rw [structOf_iff]
  constructor
  · rintro ⟨h0, h⟩
    obtain ⟨t, h1, h⟩ := Res.bind_eq_ok.1 h
    obtain ⟨l, h2, h⟩ := Res.bind_eq_ok.1 h
    obtain ⟨p, h3, h⟩ := Res.bind_eq_ok.1 h
    cases h
    obtain ⟨y, g1, u, g2, g3⟩ := (required_iff fun _ _ => transportOf_iff).1 h1
    obtain ⟨z, k1, s, rfl, k2⟩ := (required_iff fun _ _ => portOf_iff).1 h3
    exact ⟨h0, ⟨u, ⟨y, g1, g2⟩, g3⟩, (required_iff fun _ _ => listOf_iff fun _ _ => remoteOf_iff).1 h2, s, k1, k2⟩
  · rintro ⟨h0, ⟨u, ⟨y, g1, g2⟩, g3⟩, h2, s, k1, k2⟩
    obtain ⟨t, l, p⟩ := c
    exact ⟨h0, Res.bind_eq_ok.2 ⟨t, (required_iff fun _ _ => transportOf_iff).2 ⟨y, g1, u, g2, g3⟩, Res.bind_eq_ok.2
      ⟨l, (required_iff fun _ _ => listOf_iff fun _ _ => remoteOf_iff).2 h2, Res.bind_eq_ok.2
        ⟨p, (required_iff fun _ _ => portOf_iff).2 ⟨_, k1, s, rfl, k2⟩, rfl⟩⟩⟩⟩

theorem mapM_iff {α β : Type} {f : α → Option β} {P : α → β → Prop} (hf : ∀ a b, f a = some b ↔ P a b) {l : List α} {r : List β} :
    l.mapM f = some r ↔ List.Forall₂ P l r := by
  induction l generalizing r with
  | nil =>
    constructor
    · intro h; cases h; exact .nil
    · intro h; cases h; rfl
  | cons a l ih =>
    rw [List.mapM_cons]
    constructor
    · intro h
      obtain ⟨b, h1, h⟩ := Option.bind_eq_some_iff.1 h
      obtain ⟨r', h2, h⟩ := Option.bind_eq_some_iff.1 h
      cases h
      exact .cons ((hf _ _).1 h1) (ih.1 h2)
    · intro h
      cases h with
      | cons h1 h2 => exact Option.bind_eq_some_iff.2 ⟨_, (hf _ _).2 h1, Option.bind_eq_some_iff.2 ⟨_, ih.2 h2, rfl⟩⟩

theorem entries_iff {c : Aio.Connection} {es : List Device.Addr} : Aio.entries parseIp c = some es ↔
    List.Forall₂ (Told parseIp c) c.addresses es := by
  unfold Aio.entries
  refine mapM_iff fun a e => ?_
  cases a with
  | ip t =>
    constructor
    · intro h
      obtain ⟨b, h1, h⟩ := Option.map_eq_some_iff.1 h
      rw [← h]
      exact .ip h1
    · intro h
      cases h with
      | ip h => exact Option.map_eq_some_iff.2 ⟨_, h, rfl⟩
  | dns n =>
    constructor
    · intro h
      rw [← Option.some.inj h]
      exact .dns
    · intro h
      cases h
      rfl

/-- **C100**, start-up: the addresses of the owner server are exactly those in its settings, in their order; and if these can be read, it
starts. -/
theorem C100_starts (es : List Device.Addr) : ownerAddressesOf S parseIp v = .ok es ↔
    ∃ cs ls, Entry v "owner_addresses" (IsList S.toReads (IsConnection S)) cs ∧
      List.Forall₂ (fun c l => List.Forall₂ (Told parseIp c) c.addresses l) cs ls ∧ es = ls.flatten := by
  constructor
  · intro h
    obtain ⟨cs, h1, h⟩ := Res.bind_eq_ok.1 h
    split at h
    · rename_i es' he
      cases h
      obtain ⟨ls, h2, h3⟩ := Option.map_eq_some_iff.1 he
      exact ⟨cs, ls, (required_iff fun _ _ => listOf_iff fun _ _ => connectionOf_iff).1 h1, (mapM_iff fun _ _ => entries_iff).1 h2, h3.symm⟩
    · cases h
  · rintro ⟨cs, ls, h1, h2, rfl⟩
    refine Res.bind_eq_ok.2 ⟨cs, (required_iff fun _ _ => listOf_iff fun _ _ => connectionOf_iff).2 h1, ?_⟩
    have : Aio.allEntries parseIp cs = some ls.flatten := by
      unfold Aio.allEntries
      rw [(mapM_iff fun _ _ => entries_iff).2 h2]
      rfl
    simp only [this]
    rfl

theorem to2Urls_append {R : Device.DevEnv} (a b : List Device.Addr) :
    Device.to2Urls (R := R) (a ++ b) = Device.to2Urls (R := R) a ++ Device.to2Urls (R := R) b := by
  unfold Device.to2Urls
  exact List.flatMap_append

theorem told_leads {R : Device.DevEnv} {c : Aio.Connection} {l : List Aio.Remote} {es : List Device.Addr}
    (h : List.Forall₂ (Told parseIp c) l es) : ∃ us, List.Forall₂ (Leads R parseIp c) l us ∧ Device.to2Urls (R := R) es = us.flatten := by
  induction h with
  | nil => exact ⟨[], .nil, rfl⟩
  | @cons a e l es h1 _ ih =>
    obtain ⟨us, g1, g2⟩ := ih
    have : ∃ u, Leads R parseIp c a u ∧ Device.to2Urls (R := R) [e] = u := by
      obtain ⟨t, as, p⟩ := c
      cases h1 with
      | ip hb =>
        cases t with
        | http => exact ⟨_, .httpIp rfl hb, rfl⟩
        | https => exact ⟨_, .httpsIp rfl hb, rfl⟩
        | other => exact ⟨_, .other rfl, rfl⟩
      | dns =>
        cases t with
        | http => exact ⟨_, .httpDns rfl, rfl⟩
        | https => exact ⟨_, .httpsDns rfl, rfl⟩
        | other => exact ⟨_, .other rfl, rfl⟩
    obtain ⟨u, k1, k2⟩ := this
    refine ⟨u :: us, .cons k1 g1, ?_⟩
    rw [show e :: es = [e] ++ es from rfl, to2Urls_append, k2, g2, List.flatten_cons]

/-- **C100**, through to the device: the URLs at which a device that was told these addresses tries onboarding are those of the addresses in
the settings, in their order, each once. (That it is told these addresses is up to serde and the registration; which servers the URLs name is C80.) -/
theorem C100_urls_partial (R : Device.DevEnv) {es : List Device.Addr} (h : ownerAddressesOf S parseIp v = .ok es) :
    ∃ cs us, Entry v "owner_addresses" (IsList S.toReads (IsConnection S)) cs ∧
      List.Forall₂ (fun c l => ∃ ul, List.Forall₂ (Leads R parseIp c) c.addresses ul ∧ l = ul.flatten) cs us ∧
      Device.to2Urls (R := R) es = us.flatten := by
  obtain ⟨cs, ls, h1, h2, rfl⟩ := (C100_starts es).1 h
  refine ⟨cs, ?_⟩
  clear h
  have key : ∃ us : List (List String), List.Forall₂ (fun c l => ∃ ul, List.Forall₂ (Leads R parseIp c) c.addresses ul ∧ l = ul.flatten) cs us ∧
      Device.to2Urls (R := R) ls.flatten = us.flatten := by
    clear h1
    induction h2 with
    | nil => exact ⟨[], .nil, rfl⟩
    | cons h3 _ ih =>
      obtain ⟨us, g1, g2⟩ := ih
      obtain ⟨ul, k1, k2⟩ := told_leads (R := R) h3
      refine ⟨ul.flatten :: us, .cons ⟨ul, k1, rfl⟩ g1, ?_⟩
      rw [List.flatten_cons, to2Urls_append, k2, g2, List.flatten_cons]
  obtain ⟨us, g1, g2⟩ := key
  exact ⟨us, h1, g1, g2⟩

/-- **C100**, an address that is none: with one, the server does not start. -/
theorem C100_malformed {cs : List Aio.Connection} (hv : Entry v "owner_addresses" (IsList S.toReads (IsConnection S)) cs) {c : Aio.Connection}
    (hc : c ∈ cs) {t : String} (ht : Aio.Remote.ip t ∈ c.addresses) (hn : parseIp t = none) (es : List Device.Addr) :
    ownerAddressesOf S parseIp v ≠ .ok es := by
  intro h
  obtain ⟨cs', h1, h2⟩ := Res.bind_eq_ok.1 h
  rw [(required_iff fun _ _ => listOf_iff fun _ _ => connectionOf_iff).2 hv] at h1
  cases h1
  split at h2
  · rename_i es' he
    obtain ⟨ls, h3, -⟩ := Option.map_eq_some_iff.1 he
    have h4 := (mapM_iff fun _ _ => entries_iff).1 h3
    clear he h h2 h3
    have : ∀ {α β : Type} {P : α → β → Prop} {l : List α} {r : List β}, List.Forall₂ P l r → ∀ a ∈ l, ∃ b, P a b := by
      intro α β P l r hf
      induction hf with
      | nil => intro a ha; cases ha
      | cons h1 _ ih =>
        intro a ha
        rcases List.mem_cons.1 ha with rfl | ha
        · exact ⟨_, h1⟩
        · exact ih a ha
    obtain ⟨l, hl⟩ := this h4 c hc
    obtain ⟨e, he⟩ := this hl _ ht
    cases he with
    | ip hb => rw [hn] at hb; cases hb
  · cases h2

/-- **C100** is violated: servers whose connections are all of the other transports, which the documentation offers (HOWTO.md:514-515), start,
but devices that are told their addresses have nowhere to go. -/
theorem C100_transports_violated (R : Device.DevEnv) {es : List Device.Addr} (h : ownerAddressesOf S parseIp v = .ok es)
    (hv : ∀ cs, Entry v "owner_addresses" (IsList S.toReads (IsConnection S)) cs → ∀ c ∈ cs, c.transport = .other) :
    Device.to2Urls (R := R) es = [] := by
  obtain ⟨cs, us, h1, h2, h3⟩ := C100_urls_partial R h
  rw [h3]
  have hc := hv cs h1
  clear h1 h3 hv h
  induction h2 with
  | nil => rfl
  | cons h4 _ ih =>
    obtain ⟨ul, k1, rfl⟩ := h4
    rw [List.flatten_cons, ih fun c h => hc c (List.mem_cons_of_mem _ h), List.append_nil]
    have ho := hc _ List.mem_cons_self
    clear ih
    generalize Aio.Connection.addresses _ = as at k1
    induction k1 with
    | nil => rfl
    | cons g1 _ ih =>
      rw [List.flatten_cons, ih, List.append_nil]
      cases g1 with
      | httpIp e _ => rw [ho] at e; cases e
      | httpDns e => rw [ho] at e; cases e
      | httpsIp e _ => rw [ho] at e; cases e
      | httpsDns e => rw [ho] at e; cases e
      | other _ => rfl

/-- **C100** is violated: if an address in the settings has both an IP address and a name, the name is overlooked. -/
theorem C100_both_violated {l : List (String × Val)} {t n : String} (h : TextField S (.table l) "ip_address" t)
    (_ : TextField S (.table l) "dns_name" n) : remoteOf S (.table l) = .ok (.ip t) := remoteOf_iff.2 (.ip h)

end

end Verif.Startup

import Verif.Spec.Url
import Verif.Spec.Life
import Verif.Lemmas.Retry
import Mathlib.Data.List.Forall2
import Std.Data.String.ToNat
/-!
C80: the URLs at which devices and owners look for servers.
-/
namespace Verif.Url
open Verif Verif.Rendezvous

/-! ### Reading a URL -/

theorem digits_digit {n : Nat} {c : Char} (h : c ∈ (toString n).toList) : c.isDigit = true := by
  have : (toString n).toList = Nat.toDigits 10 n := by
    show (Nat.repr n).toList = _
    simp [Nat.repr]
  rw [this] at h
  exact Nat.isDigit_of_mem_toDigits (by omega) (by omega) h

theorem digit_plain {c : Char} (h : c.isDigit = true) : Plain c := by
  intro hm
  simp only [List.mem_cons, List.not_mem_nil, or_false] at hm
  rcases hm with rfl | rfl | rfl | rfl | rfl | rfl | rfl <;> revert h <;> decide

theorem digits_colon {n : Nat} : ':' ∉ (toString n).toList := fun h => digit_plain (digits_digit h) (by simp)

theorem last_colon {x y d e : List Char} (hd : ':' ∉ d) (he : ':' ∉ e) (h : x ++ ':' :: d = y ++ ':' :: e) : x = y ∧ d = e := by
  rcases List.append_eq_append_iff.1 h with ⟨a, h1, h2⟩ | ⟨a, h1, h2⟩
  · cases a with
    | nil => exact ⟨by simpa using h1.symm, by simpa using h2⟩
    | cons z a =>
      simp only [List.cons_append, List.cons.injEq] at h2
      exact absurd (by rw [h2.2]; simp) hd
  · cases a with
    | nil => exact ⟨by simpa using h1, by simpa using h2.symm⟩
    | cons z a =>
      simp only [List.cons_append, List.cons.injEq] at h2
      exact absurd (by rw [h2.2]; simp) he

/-- A URL in one way only is scheme, host and port. -/
theorem parts {sc sc' x x' : List Char} {p p' : Nat} (hs : sc = "http".toList ∨ sc = "https".toList) (hs' : sc' = "http".toList ∨ sc' = "https".toList)
    (h : sc ++ "://".toList ++ x ++ ':' :: (toString p).toList = sc' ++ "://".toList ++ x' ++ ':' :: (toString p').toList) :
    sc = sc' ∧ x = x' ∧ p = p' := by
  have key : ∀ {a b : List Char}, a ++ ':' :: (toString p).toList = b ++ ':' :: (toString p').toList → a = b ∧ p = p' := by
    intro a b h
    obtain ⟨h1, h2⟩ := last_colon digits_colon digits_colon h
    exact ⟨h1, Nat.repr_injective (String.toList_inj.1 h2)⟩
  rcases hs with rfl | rfl <;> rcases hs' with rfl | rfl
  · obtain ⟨h1, h2⟩ := key h
    exact ⟨rfl, by simpa using h1, h2⟩
  · simp at h
  · simp at h
  · obtain ⟨h1, h2⟩ := key h
    exact ⟨rfl, by simpa using h1, h2⟩

/-- A URL names one server. -/
theorem Names.unique {s : String} {sc sc' h h' : List Char} {p p' : Nat} (a : Names s sc h p) (b : Names s sc' h' p') : sc = sc' ∧ h = h' ∧ p = p' :=
  parts a.1 b.1 (a.2.2.symm.trans b.2.2)

/-! ### Addresses as they are written -/

theorem shown4 {showIp : Bytes → String} (hs : Shows showIp) {a : Bytes} (ha : a.length = 4) : Host (showIp a).toList := by
  match a, ha with
  | [a, b, c, d], _ =>
    rw [hs.v4]
    refine .name _ ?_ ?_
    · simp
    · intro x hx
      simp only [List.mem_append, List.mem_cons, List.append_assoc, List.cons_append] at hx
      rcases hx with h | rfl | h | rfl | h | rfl | h
      · exact digit_plain (digits_digit h)
      · decide
      · exact digit_plain (digits_digit h)
      · decide
      · exact digit_plain (digits_digit h)
      · decide
      · exact digit_plain (digits_digit h)

/-- Colons, and no brackets: no host. -/
theorem colons_no_host {h : List Char} (hc : ':' ∈ h) (hb : '[' ∉ h) : ¬ Host h := by
  intro hh
  cases hh with
  | name _ _ hp => exact hp _ hc (by simp)
  | bracketed h' _ => exact hb (by simp)

theorem url_toList {p n : String} {k : Nat} :
    (p ++ "://" ++ n ++ ":" ++ toString k).toList = p.toList ++ "://".toList ++ n.toList ++ ':' :: (toString k).toList := by
  simp

theorem names_url {p n : String} {k : Nat} (hp : p.toList = "http".toList ∨ p.toList = "https".toList) (hn : Host n.toList) :
    Names (p ++ "://" ++ n ++ ":" ++ toString k) p.toList n.toList k := ⟨hp, hn, url_toList⟩

theorem unnamed_url {showIp : Bytes → String} (hs : Shows showIp) {p : String} {a : Bytes} {k : Nat} (hp : p.toList = "http".toList ∨ p.toList = "https".toList)
    (ha : a.length = 16) {sc h : List Char} {q : Nat} : ¬ Names (p ++ "://" ++ showIp a ++ ":" ++ toString k) sc h q := by
  intro ⟨h1, h2, h3⟩
  rw [url_toList] at h3
  obtain ⟨-, rfl, -⟩ := parts hp h1 h3
  obtain ⟨c, b⟩ := hs.v6 a ha
  exact colons_no_host (List.count_pos_iff.1 (by omega)) b h2

/-! ### C80 -/

/-- **C80 (rendezvous servers), partial.** If the name in a directive is a host name and the addresses have four octets, then
the URLs made from it name exactly these servers, in this order, with the scheme and the port of the directive. Devices
(`get_client_list`) and owners (`report_to_rendezvous_endpoint`) use these URLs. Missing: addresses with sixteen octets. -/
theorem C80_rendezvous_urls_partial {showIp : Bytes → String} (hs : Shows showIp) (i : Interp) (port : Nat) (hport : i.port = some port)
    (scheme : String) (hsch : i.protocol = .http ∧ scheme = "http" ∨ i.protocol = .https ∧ scheme = "https")
    (hdns : ∀ n, i.dnsName = some n → n ≠ "" ∧ ∀ c ∈ n.toList, Plain c) (hip : ∀ a ∈ i.ipAddresses, a.length = 4) :
    List.Forall₂ (fun u h => Names u scheme.toList h port) (getUrls showIp i)
      (i.dnsName.toList.map String.toList ++ i.ipAddresses.map fun a => (showIp a).toList) := by
  have hp : scheme.toList = "http".toList ∨ scheme.toList = "https".toList := by
    rcases hsch with ⟨-, rfl⟩ | ⟨-, rfl⟩
    · exact .inl rfl
    · exact .inr rfl
  have : getUrls showIp i = getUrls.urls showIp scheme i := by
    unfold getUrls
    rcases hsch with ⟨h, rfl⟩ | ⟨h, rfl⟩ <;> rw [h]
  rw [this]
  unfold getUrls.urls
  rw [hport]
  refine List.rel_append ?_ ?_
  · cases hd : i.dnsName with
    | none => exact .nil
    | some n =>
      obtain ⟨h1, h2⟩ := hdns n hd
      exact .cons (names_url hp (.name _ (by simpa using h1) h2)) .nil
  · rw [List.forall₂_map_left_iff, List.forall₂_map_right_iff, List.forall₂_same]
    exact fun a ha => names_url hp (shown4 hs (hip a ha))

/-- **C80 (owners' servers), partial.** The same for the addresses a redirect gives: each makes one URL for its name and one
for its address. Missing: addresses with sixteen octets. -/
theorem C80_owner_urls_partial {R : Device.DevEnv} (hs : Shows R.showIp) (l : List Device.Addr)
    (hdns : ∀ a ∈ l, ∀ n, a.dns = some n → n ≠ "" ∧ ∀ c ∈ n.toList, Plain c) (hip : ∀ a ∈ l, ∀ b, a.ip = some b → b.length = 4) :
    List.Forall₂ (fun u (x : String × List Char × Nat) => Names u x.1.toList x.2.1 x.2.2) (Device.to2Urls (R := R) l)
      (l.flatMap fun a => match a.protocol with
        | .http => (a.dns.toList.map String.toList ++ a.ip.toList.map fun b => (R.showIp b).toList).map fun h => ("http", h, a.port)
        | .https => (a.dns.toList.map String.toList ++ a.ip.toList.map fun b => (R.showIp b).toList).map fun h => ("https", h, a.port)
        | .other => []) := by
  have key : ∀ p : String, p.toList = "http".toList ∨ p.toList = "https".toList → ∀ a ∈ l,
      List.Forall₂ (fun u (x : String × List Char × Nat) => Names u x.1.toList x.2.1 x.2.2) (Device.to2Urls.urls (R := R) p a)
        ((a.dns.toList.map String.toList ++ a.ip.toList.map fun b => (R.showIp b).toList).map fun h => (p, h, a.port)) := by
    intro p hp a ha
    unfold Device.to2Urls.urls
    rw [List.map_append]
    refine List.rel_append ?_ ?_
    · cases hd : a.dns with
      | none => exact .nil
      | some n =>
        obtain ⟨h1, h2⟩ := hdns a ha n hd
        exact .cons (names_url hp (.name _ (by simpa using h1) h2)) .nil
    · cases hd : a.ip with
      | none => exact .nil
      | some b => exact .cons (names_url hp (shown4 hs (hip a ha b hd))) .nil
  unfold Device.to2Urls
  refine List.rel_flatMap (R := fun a b => a ∈ l ∧ b = a) ?_ ?_
  · rw [List.forall₂_same]
    exact fun a ha => ⟨ha, rfl⟩
  · rintro _ a ⟨ha, rfl⟩
    dsimp only
    cases a.protocol with
    | http => exact key "http" (.inl rfl) a ha
    | https => exact key "https" (.inr rfl) a ha
    | other => exact .nil

/-- **C80 is violated for IPv6.** The URL that is made for a rendezvous server with an address of sixteen octets is none:
it names no server with any scheme, host and port, since the address is written without brackets. -/
theorem C80_ipv6_violated {showIp : Bytes → String} (hs : Shows showIp) (i : Interp) (hd : i.dnsName = none)
    (hip : ∀ a ∈ i.ipAddresses, a.length = 16) : ∀ u ∈ getUrls showIp i, ∀ sc h p, ¬ Names u sc h p := by
  have key : ∀ s : String, s.toList = "http".toList ∨ s.toList = "https".toList → ∀ u ∈ getUrls.urls showIp s i, ∀ sc h p, ¬ Names u sc h p := by
    intro s hs' u hu sc h p
    unfold getUrls.urls at hu
    rw [hd] at hu
    obtain ⟨a, ha, rfl⟩ := List.mem_map.1 (show u ∈ List.map _ _ from hu)
    exact unnamed_url hs hs' (hip a ha)
  intro u hu
  unfold getUrls at hu
  cases hp : i.protocol <;> rw [hp] at hu
  case http => exact key _ (.inl rfl) u hu
  case https => exact key _ (.inr rfl) u hu
  all_goals cases hu

/-- The same for an owner's server. -/
theorem C80_owner_ipv6_violated {R : Device.DevEnv} (hs : Shows R.showIp) (l : List Device.Addr) (hd : ∀ a ∈ l, a.dns = none)
    (hip : ∀ a ∈ l, ∀ b, a.ip = some b → b.length = 16) : ∀ u ∈ Device.to2Urls (R := R) l, ∀ sc h p, ¬ Names u sc h p := by
  have key : ∀ a ∈ l, ∀ s : String, s.toList = "http".toList ∨ s.toList = "https".toList → ∀ u ∈ Device.to2Urls.urls (R := R) s a,
      ∀ sc h p, ¬ Names u sc h p := by
    intro a ha s hs' u hu sc h p
    unfold Device.to2Urls.urls at hu
    rw [hd a ha] at hu
    cases hb : a.ip with
    | none =>
      rw [hb] at hu
      cases hu
    | some b =>
      rw [hb] at hu
      rw [List.mem_singleton.1 (show u ∈ [_] from hu)]
      exact unnamed_url hs hs' (hip a ha b hb)
  intro u hu
  unfold Device.to2Urls at hu
  obtain ⟨a, ha, hu⟩ := List.mem_flatMap.1 hu
  cases hp : a.protocol <;> rw [hp] at hu
  case http => exact key a ha _ (.inl rfl) u hu
  case https => exact key a ha _ (.inr rfl) u hu
  all_goals cases hu

/-! ### Consequence for devices -/

section
open Verif.Life Verif.Device

variable {R : Whole} {c : Bool} {A : Http.Aead} {T : Trace (Device.sig R.toDevEnv)} {cr : Credential.Cred}

/-- Nothing came back. -/
def Silent (t : Trace (Device.sig R.toDevEnv)) : Prop := ∀ s (o : Option Http.NetReply), (⟨.net s, o⟩ : (Device.sig R.toDevEnv).Deed) ∈ t → o = none

theorem silent_sendQ {α : Type} {dec : Bytes → Option α} {cl : Http.Client} {om sm : MsgType} {plain : Bytes}
    {nk : Option (Option Http.Keys)} {t : Trace (Device.sig R.toDevEnv)} {r : Res (Http.Client × Http.CErr) (Http.Client × α)}
    (he : Prog.Ends (Http.sendQ (X := Device.ops R.toDevEnv) A dec cl om sm plain nk) t r) (hs : Silent t) : ∃ e, r = .err e := by
  unfold Http.sendQ at he
  split at he
  · exact ⟨_, (Prog.ends_ret he).2.symm⟩
  · obtain ⟨iv, t1, rfl, h1⟩ := Prog.ends_act he
    dsimp only [Prog.bind] at h1
    cases hb : Http.encryptWith A cl.keys iv plain with
    | none =>
      rw [hb] at h1
      exact ⟨_, (Prog.ends_ret h1).2.symm⟩
    | some body =>
      rw [hb] at h1
      obtain ⟨x, t2, rfl, h2⟩ := Prog.ends_act (S := Device.sig R.toDevEnv) (e := .net ⟨om, cl.token, body⟩) h1
      have hx : x = none := hs ⟨om, cl.token, body⟩ x (List.mem_cons_of_mem _ List.mem_cons_self)
      subst hx
      exact ⟨_, (Prog.ends_ret h2).2.symm⟩

theorem silent_to1 {t : Trace (Device.sig R.toDevEnv)} {cl : Http.Client} {r : Res (Http.Client × DevErr) Voucher.Sign1}
    (he : Prog.Ends (to1 c A cr cl : Device.Step R.toDevEnv _) t r) (hs : Silent t) : ∃ e, r = .err e := by
  obtain ⟨x1, t1, t2, rfl, h1, h2⟩ := Prog.ends_bind he
  obtain ⟨x2, t3, t4, rfl, h3, h4⟩ := Prog.ends_bind h1
  obtain ⟨x3, t5, t6, rfl, h5, h6⟩ := Prog.ends_bind h3
  obtain ⟨e, rfl⟩ := silent_sendQ h5 fun s o h => hs s o (by simp [h])
  rw [← (Prog.ends_ret h6).2] at h4
  rw [← (Prog.ends_ret h4).2] at h2
  exact ⟨_, (Prog.ends_ret h2).2.symm⟩

/-- Servers that do not answer are of no use. -/
theorem silent_getTo1d : ∀ (us : List String), (∀ u ∈ us, ∀ a, Leg T u a → Silent a) →
    ∀ (t : Trace (Device.sig R.toDevEnv)) (r : Res DevErr (Option Voucher.Sign1)), Part T t → Prog.Ends (getTo1d c A cr us) t r → r = .ok none
  | [], _, t, r, _, he => (Prog.ends_ret he).2.symm
  | u :: us, hl, t, r, hp, he => by
    rw [getTo1d_cons] at he
    obtain ⟨y, t1, rfl, he2⟩ := Prog.ends_act he
    obtain ⟨a, post, r', rfl, h1, h2⟩ := orElse_solo he2
    have hpost : ∀ d ∈ post.head?, Turns d.1 := by
      rcases h2 with ⟨-, h⟩ | ⟨-, rfl, -⟩
      · exact getTo1d_head _ _ h
      · nofun
    have ha : ∀ d ∈ a, ¬ Turns d.1 := by
      obtain ⟨x1, a1, a2, rfl, h3, h4⟩ := Prog.ends_bind h1
      have : a2 = [] := by
        match x1, h4 with
        | .ok (some s), h4 => exact (Prog.ends_ret h4).1
        | .ok none, h4 => exact (Prog.ends_ret h4).1
        | .err e, h4 => exact (Prog.ends_ret h4).1
        | .panic, h4 => exact (Prog.ends_ret h4).1
      subst this
      rw [List.append_nil]
      exact inside_reporting inside_to1 a1 ⟨_, h3⟩
    have hs : Silent a := hl u List.mem_cons_self _ (part_leg hp ha hpost)
    have hr : r' = .ok none := by
      obtain ⟨b, b', post', s, rfl, -, -, h3, h4⟩ := orElse_cases inside_to1 head_ret h1 fun s q hq => by cases hs s _ hq
      obtain ⟨e, rfl⟩ := silent_to1 h3 fun s o h => hs s o (by simp [h])
      rcases h4 with ⟨x, h, -⟩ | ⟨h, -⟩ | ⟨-, h⟩
      · cases h
      · cases h
      · exact (Prog.ends_ret h).2.symm
    rcases h2 with ⟨-, h⟩ | ⟨h, -⟩
    · exact silent_getTo1d us (fun u' hu' => hl u' (List.mem_cons_of_mem _ hu')) post r (part_right (t1 := connected u :: a) hp) h
    · exact absurd hr h

variable {w : Credential.Surroundings} {h : SiClient.Host} {l : Credential.Location}

theorem silent_tryEntries : ∀ (rv : List Interp),
    (∀ i ∈ rv, ∀ us, clientUrls (R := R.toDevEnv) i = some us → ∀ u ∈ us, ∀ a, Leg T u a → Silent a) →
    ∀ (t : Trace (Device.sig R.toDevEnv)) (r : Res DevErr (Option Bool)), Part T t → Prog.Ends (tryEntries c A w h l cr rv) t r → r = .ok none := by
  intro rv
  induction rv with
  | nil => exact fun _ t r _ he => (Prog.ends_ret he).2.symm
  | cons i rv ih =>
    intro C t r hp he
    have ih := ih fun i hi => C i (List.mem_cons_of_mem _ hi)
    rw [tryEntries_cons] at he
    cases hu : clientUrls (R := R.toDevEnv) i with
    | none =>
      rw [hu] at he
      exact ih t r hp he
    | some us =>
      rw [hu] at he
      obtain ⟨x1, t1, t2, rfl, h1, h2⟩ := Prog.ends_bind he
      have ht2 : ∀ d ∈ t2.head?, Turns d.1 := by
        match x1, h2 with
        | .ok b, h2 => exact head_follow tryEntries_head b _ _ h2
        | .err e, h2 => exact head_ret _ _ h2
        | .panic, h2 => exact head_ret _ _ h2
      obtain rfl := silent_getTo1d us (C i List.mem_cons_self us hu) t1 x1 (part_left hp ht2) h1
      exact ih t2 r (part_right hp) h2

theorem silent_onboard {rv : List Interp}
    (C : ∀ i ∈ rv, ∀ us, clientUrls (R := R.toDevEnv) i = some us → ∀ u ∈ us, ∀ a, Leg T u a → Silent a) :
    ∀ (n : Nat) (t : Trace (Device.sig R.toDevEnv)) (r : Res DevErr Bool), Part T t → Prog.Ends (onboard c A w h l cr rv n) t r → r = .err .rounds
  | 0, t, r, _, he => (Prog.ends_ret he).2.symm
  | n + 1, t, r, hp, he => by
    rw [onboard_succ] at he
    obtain ⟨x1, t1, t2, rfl, h1, h2⟩ := Prog.ends_bind he
    have ht2 : ∀ d ∈ t2.head?, Turns d.1 := by
      match x1, h2 with
      | .ok b, h2 => exact head_again b _ _ h2
      | .err e, h2 => exact head_ret _ _ h2
      | .panic, h2 => exact head_ret _ _ h2
    obtain rfl := silent_tryEntries rv C t1 x1 (part_left hp ht2) h1
    have h2 : Prog.Ends (again w h l cr c A rv n none) t2 r := h2
    obtain ⟨y, t3, rfl, h3⟩ := Prog.ends_act h2
    exact silent_onboard C n t3 r (part_right (t1 := [_]) (part_right hp)) h3

/-- **C80 is violated for IPv6, for devices.** The owner of a manufacturing station configured rendezvous servers by IPv6
addresses only. Then a device made there with a good credential never onboards: however many rounds it makes, and whatever
the world answers to it, as long as nothing answers at what is no URL. -/
theorem C80_ipv6_device_violated (hs : Shows R.showIp) {rv : List Interp} {n : Nat} {r : Res DevErr Unit}
    (hm : w.exists? (markerPath w) = false) (hf : Credential.find w = some (.ok l)) {cb : Bytes}
    (hread : ∀ (o : Option Bytes) t, T = ⟨.app (.fs (.read l.path)), o⟩ :: t → o = some (cb))
    (hdec : R.codec.dec (cb) = some cr) (hact : cr.active = true) (hver : cr.version = 101)
    (hrv : rvEntries (R := R.toDevEnv) cr = .ok rv) (h6 : ∀ i ∈ rv, i.dnsName = none ∧ ∀ a ∈ i.ipAddresses, a.length = 16)
    (hnet : ∀ u a, Leg T u a → (∀ sc host p, ¬ Names u sc host p) →
      ∀ s (o : Option Http.NetReply), (⟨.net s, o⟩ : (Device.sig R.toDevEnv).Deed) ∈ a → o = none)
    (he : Prog.Ends (main c A w h n) T r) : r = .err .rounds := by
  have C : ∀ i ∈ rv, ∀ us, clientUrls (R := R.toDevEnv) i = some us → ∀ u ∈ us, ∀ a, Leg T u a → Silent a := by
    intro i hi us hu u hu' a ha
    refine hnet u a ha (C80_ipv6_violated hs i (h6 i hi).1 (h6 i hi).2 u ?_)
    have : us = getUrls R.showIp i := by
      unfold clientUrls at hu
      repeat' split at hu
      all_goals first | cases hu; rfl | cases hu
    rwa [← this]
  unfold main at he
  rw [if_neg (by simp [hm]), hf] at he
  have he : Prog.Ends (Proc.mapErr (fun _ => .io) (files (Credential.readCred R.codec l)) >>= fun cr => start c A w h l cr n :
    Proc (Device.sig R.toDevEnv) _ _) T r := he
  obtain ⟨o, T0, hTT, he1⟩ := Prog.ends_act (S := Device.sig R.toDevEnv) (e := .app (.fs (.read l.path))) he
  have ho := hread o T0 hTT
  subst ho
  have he : Prog.Ends (start c A w h l cr n) T0 r := by
    have he : Prog.Ends (Proc.mapErr (fun _ => DevErr.io) (files (Proc.some? Credential.CredErr.parse (R.codec.dec (cb)))) >>=
      fun cr => start c A w h l cr n : Proc (Device.sig R.toDevEnv) _ _) T0 r := he1
    rw [hdec] at he
    exact he
  unfold start at he
  rw [if_neg (by simp [hact]), if_neg (by simp [hver]), hrv] at he
  have he : Prog.Ends (onboard c A w h l cr rv n >>= reboot : Proc (Device.sig R.toDevEnv) _ _) T0 r := he
  obtain ⟨x1, t1, t2, rfl, h1, h2⟩ := Prog.ends_bind he
  have ht2 : ∀ d ∈ t2.head?, Turns d.1 := by
    match x1, h2 with
    | .ok b, h2 => exact head_reboot b _ _ h2
    | .err e, h2 => exact head_ret _ _ h2
    | .panic, h2 => exact head_ret _ _ h2
  obtain rfl := silent_onboard C n t1 x1 ⟨[⟨.app (.fs (.read l.path)), some (cb)⟩], t2, hTT, ht2⟩ h1
  exact (Prog.ends_ret h2).2.symm

end

end Verif.Url

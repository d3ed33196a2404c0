import Verif.Model.StartupStore
import Verif.Props.StartupSi
/-!
C102: servers keep what they store where their settings say, or they do not start.
-/
namespace Verif.Startup
open Verif Verif.Settings

/-! ### Specification -/

/-- The name of a type of server. -/
inductive IsServer (S : Reads) (x : Val) : ServerType → Prop
  | manufacturer : S.variant ["Manufacturer", "Owner", "Rendezvous"] x = some "Manufacturer" → IsServer S x .manufacturer
  | owner : S.variant ["Manufacturer", "Owner", "Rendezvous"] x = some "Owner" → IsServer S x .owner
  | rendezvous : S.variant ["Manufacturer", "Owner", "Rendezvous"] x = some "Rendezvous" → IsServer S x .rendezvous

/-- A store in settings: one entry, whose name is that of the kind of store, with what belongs to this kind. -/
inductive SaysStore (S : Reads) : Val → Driver → Prop
  | directory {k : String} {l : List (String × Val)} {p : List Char} :
      S.variant ["Directory", "Sqlite", "Postgres"] (.leaf k) = some "Directory" → Entry (.table l) "path" (IsText S) p →
      SaysStore S (.table [(k, .table l)]) (.directory p)
  | sqlite {k : String} {l : List (String × Val)} {t : ServerType} {u : List Char} :
      S.variant ["Directory", "Sqlite", "Postgres"] (.leaf k) = some "Sqlite" → Entry (.table l) "server" (IsServer S) t →
      Entry (.table l) "url" (IsText S) u → SaysStore S (.table [(k, .table l)]) (.db .sqlite t u)
  | postgres {k : String} {l : List (String × Val)} {t : ServerType} {u : List Char} :
      S.variant ["Directory", "Sqlite", "Postgres"] (.leaf k) = some "Postgres" → Entry (.table l) "server" (IsServer S) t →
      Entry (.table l) "url" (IsText S) u → SaysStore S (.table [(k, .table l)]) (.db .postgres t u)

/-- What a store works on: the directory named, which is there, or the database named. -/
inductive At (W : StoreWorld) : Driver → Opened → Prop
  | directory {p q : List Char} : (∃ r, p = '/' :: r) → W.createDirs p = true → W.canonical p = some q → At W (.directory p) (.directory q)
  | db {kind : DbKind} {t : ServerType} {u : List Char} : W.pool kind u = true → At W (.db kind t u) (.db kind t u)

/-! ### Proofs -/

section
variable {S : Reads} {W : StoreWorld} {v : Val}

theorem serverOf_iff {x : Val} {t : ServerType} : oneOf S serverTypes x = .ok t ↔ IsServer S x t := by
  unfold oneOf
  have hn : serverTypes.map (·.1) = ["Manufacturer", "Owner", "Rendezvous"] := rfl
  rw [hn]
  constructor
  · intro h
    split at h
    · cases h
    · rename_i n hv
      split at h
      · cases h
      · rename_i a ha
        cases h
        unfold serverTypes at ha
        simp only [List.lookup] at ha
        split at ha
        · rename_i e; cases ha; rw [eq_of_beq e] at hv; exact .manufacturer hv
        · split at ha
          · rename_i e; cases ha; rw [eq_of_beq e] at hv; exact .owner hv
          · split at ha
            · rename_i e; cases ha; rw [eq_of_beq e] at hv; exact .rendezvous hv
            · cases ha
  · intro h
    cases h with
    | manufacturer h => rw [h]; rfl
    | owner h => rw [h]; rfl
    | rendezvous h => rw [h]; rfl

theorem directoryOf_iff {x : Val} {d : Driver} : directoryOf S x = .ok d ↔ ∃ p, d = .directory p ∧ Entry x "path" (IsText S) p := by
  constructor
  · intro h
    obtain ⟨p, h1, h2⟩ := Res.bind_eq_ok.1 h
    cases h2
    exact ⟨p, rfl, (required_iff fun _ _ => textOf_iff).1 h1⟩
  · rintro ⟨p, rfl, h⟩
    exact Res.bind_eq_ok.2 ⟨p, (required_iff fun _ _ => textOf_iff).2 h, rfl⟩

theorem dbOf_iff {kind : DbKind} {x : Val} {d : Driver} : dbOf S kind x = .ok d ↔
    ∃ t u, d = .db kind t u ∧ Entry x "server" (IsServer S) t ∧ Entry x "url" (IsText S) u := by
  constructor
  · intro h
    obtain ⟨t, h1, h⟩ := Res.bind_eq_ok.1 h
    obtain ⟨u, h2, h3⟩ := Res.bind_eq_ok.1 h
    cases h3
    exact ⟨t, u, rfl, (required_iff fun _ _ => serverOf_iff).1 h1, (required_iff fun _ _ => textOf_iff).1 h2⟩
  · rintro ⟨t, u, rfl, h1, h2⟩
    exact Res.bind_eq_ok.2 ⟨t, (required_iff fun _ _ => serverOf_iff).2 h1,
      Res.bind_eq_ok.2 ⟨u, (required_iff fun _ _ => textOf_iff).2 h2, rfl⟩⟩

theorem driverOf_iff {x : Val} {d : Driver} : driverOf S x = .ok d ↔ SaysStore S x d := by
  constructor
  · intro h
    unfold driverOf at h
    split at h
    · cases h
    · rename_i k w
      split at h
      · rename_i n hn
        split at h
        · rename_i e
          obtain ⟨⟨l, rfl⟩, h⟩ := structOf_iff.1 h
          obtain ⟨p, rfl, h3⟩ := directoryOf_iff.1 h
          exact .directory (hn.trans (congrArg some e)) h3
        · split at h
          · rename_i e
            obtain ⟨⟨l, rfl⟩, h⟩ := structOf_iff.1 h
            obtain ⟨t, u, rfl, h1, h2⟩ := dbOf_iff.1 h
            exact .sqlite (hn.trans (congrArg some e)) h1 h2
          · split at h
            · rename_i e
              obtain ⟨⟨l, rfl⟩, h⟩ := structOf_iff.1 h
              obtain ⟨t, u, rfl, h1, h2⟩ := dbOf_iff.1 h
              exact .postgres (hn.trans (congrArg some e)) h1 h2
            · cases h
      · cases h
    · cases h
  · have hd : driverNames = ["Directory", "Sqlite", "Postgres"] := rfl
    intro h
    cases h with
    | directory h1 h2 =>
      unfold driverOf
      simp only [hd, h1, if_true]
      exact directoryOf_iff.2 ⟨_, rfl, h2⟩
    | sqlite h1 h2 h3 =>
      unfold driverOf
      simp only [hd, h1]
      exact dbOf_iff.2 ⟨_, _, rfl, h2, h3⟩
    | postgres h1 h2 h3 =>
      unfold driverOf
      simp only [hd, h1]
      exact dbOf_iff.2 ⟨_, _, rfl, h2, h3⟩

theorem openStore_iff {d : Driver} {s : Opened} : openStore W d = .ok s ↔ At W d s := by
  cases d with
  | directory p =>
    constructor
    · intro h
      unfold openStore at h
      simp only at h
      split at h
      · rename_i hp
        split at h
        · rename_i hc
          cases hq : W.canonical p with
          | none => rw [hq] at h; cases h
          | some q =>
            rw [hq] at h
            cases h
            cases p with
            | nil => cases hp
            | cons a r =>
              simp only [List.head?_cons, Option.some.injEq] at hp
              exact .directory ⟨r, by rw [hp]⟩ hc hq
        · cases h
      · cases h
    · intro h
      cases h with
      | directory h1 h2 h3 =>
        obtain ⟨r, rfl⟩ := h1
        unfold openStore
        simp only [List.head?_cons, if_true, h2, h3]
  | db kind t u =>
    constructor
    · intro h
      unfold openStore at h
      simp only at h
      split at h
      · rename_i hp
        cases h
        exact .db hp
      · cases h
    · intro h
      cases h with
      | db h =>
        unfold openStore
        simp only [h, if_true]

theorem drivers_iff {names : List String} : ∀ {l : List Driver},
    drivers S v names = .ok l ↔ List.Forall₂ (fun n d => Entry v n (SaysStore S) d) names l := by
  induction names with
  | nil =>
    intro l
    constructor
    · intro h; cases h; exact .nil
    · intro h; cases h; rfl
  | cons n names ih =>
    intro l
    constructor
    · intro h
      obtain ⟨d, h1, h⟩ := Res.bind_eq_ok.1 h
      obtain ⟨r, h2, h3⟩ := Res.bind_eq_ok.1 h
      cases h3
      exact .cons ((required_iff fun _ _ => driverOf_iff).1 h1) (ih.1 h2)
    · intro h
      cases h with
      | cons h1 h2 =>
        exact Res.bind_eq_ok.2 ⟨_, (required_iff fun _ _ => driverOf_iff).2 h1, Res.bind_eq_ok.2 ⟨_, ih.2 h2, rfl⟩⟩

theorem initializeAll_iff {l : List Driver} : ∀ {ss : List Opened}, initializeAll W l = .ok ss ↔ List.Forall₂ (At W) l ss := by
  induction l with
  | nil =>
    intro ss
    constructor
    · intro h; cases h; exact .nil
    · intro h; cases h; rfl
  | cons d l ih =>
    intro ss
    constructor
    · intro h
      obtain ⟨s, h1, h⟩ := Res.bind_eq_ok.1 h
      obtain ⟨r, h2, h3⟩ := Res.bind_eq_ok.1 h
      cases h3
      exact .cons (openStore_iff.1 h1) (ih.1 h2)
    · intro h
      cases h with
      | cons h1 h2 => exact Res.bind_eq_ok.2 ⟨_, openStore_iff.2 h1, Res.bind_eq_ok.2 ⟨_, ih.2 h2, rfl⟩⟩

theorem stores_pair {a b : String} {s t : Opened} : stores W S [a, b] v = .ok [s, t] ↔
    (∃ d, Entry v a (SaysStore S) d ∧ At W d s) ∧ ∃ d, Entry v b (SaysStore S) d ∧ At W d t := by
  constructor
  · intro h
    obtain ⟨l, k1, k2⟩ := Res.bind_eq_ok.1 h
    have h1 := drivers_iff.1 k1
    have h2 := initializeAll_iff.1 k2
    clear k1 k2 h
    cases h1 with
    | cons h1 h1' =>
      cases h1' with
      | cons h1' h1'' =>
        cases h1''
        cases h2 with
        | cons h2 h2' =>
          cases h2' with
          | cons h2' h2'' => exact ⟨⟨_, h1, h2⟩, _, h1', h2'⟩
  · rintro ⟨⟨d, h1, h2⟩, e, h3, h4⟩
    exact Res.bind_eq_ok.2 ⟨[d, e], drivers_iff.2 (.cons h1 (.cons h3 .nil)), initializeAll_iff.2 (.cons h2 (.cons h4 .nil))⟩

/-- **C102**, in general: every setting for a store gives the store it names, in order, and there are no other stores. -/
theorem C102_stores {names : List String} {ss : List Opened} : stores W S names v = .ok ss ↔
    List.Forall₂ (fun n s => ∃ d, Entry v n (SaysStore S) d ∧ At W d s) names ss := by
  constructor
  · intro h
    obtain ⟨l, k1, k2⟩ := Res.bind_eq_ok.1 h
    have h1 := drivers_iff.1 k1
    have h2 := initializeAll_iff.1 k2
    clear k1 k2 h
    induction h1 generalizing ss with
    | nil => cases h2; exact .nil
    | cons h _ ih =>
      cases h2 with
      | cons h' h2 => exact .cons ⟨_, h, h'⟩ (ih h2)
  · intro h
    have : ∃ l, List.Forall₂ (fun n d => Entry v n (SaysStore S) d) names l ∧ List.Forall₂ (At W) l ss := by
      induction h with
      | nil => exact ⟨[], .nil, .nil⟩
      | cons h _ ih =>
        obtain ⟨d, h1, h2⟩ := h
        obtain ⟨l, h3, h4⟩ := ih
        exact ⟨d :: l, .cons h1 h3, .cons h2 h4⟩
    obtain ⟨l, h1, h2⟩ := this
    exact Res.bind_eq_ok.2 ⟨l, drivers_iff.2 h1, initializeAll_iff.2 h2⟩

/-- **C102**: with which settings the rendezvous server has which stores. -/
theorem C102_rendezvous (main session : Opened) : stores W S rendezvousStores v = .ok [main, session] ↔
    (∃ d, Entry v "storage_driver" (SaysStore S) d ∧ At W d main) ∧
      ∃ d, Entry v "session_store_driver" (SaysStore S) d ∧ At W d session := stores_pair

/-- **C102**: with which settings the owner server has which stores. -/
theorem C102_owner (main session : Opened) : stores W S ownerStores v = .ok [main, session] ↔
    (∃ d, Entry v "ownership_voucher_store_driver" (SaysStore S) d ∧ At W d main) ∧
      ∃ d, Entry v "session_store_driver" (SaysStore S) d ∧ At W d session := stores_pair

/-- **C102**: with which settings the manufacturing server has which stores. -/
theorem C102_manufacturing_partial (main session : Opened) : stores W S manufacturingStores v = .ok [session, main] ↔
    (∃ d, Entry v "ownership_voucher_store_driver" (SaysStore S) d ∧ At W d main) ∧
      ∃ d, Entry v "session_store_driver" (SaysStore S) d ∧ At W d session :=
  stores_pair.trans And.comm

/-- **C102**, paths: a server whose settings name a directory by a relative path does not start. -/
theorem C102_relative {names : List String} {n : String} (hn : n ∈ names) {p : List Char}
    (hv : Entry v n (SaysStore S) (.directory p)) (hp : ∀ r, p ≠ '/' :: r) (ss : List Opened) : stores W S names v ≠ .ok ss := by
  intro h
  obtain ⟨l, k1, k2⟩ := Res.bind_eq_ok.1 h
  have h1 := drivers_iff.1 k1
  have h2 := initializeAll_iff.1 k2
  clear k1 k2 h
  have hd : Driver.directory p ∈ l := by
    clear h2
    induction h1 with
    | nil => cases hn
    | @cons a d names l h1 _ ih =>
      rcases List.mem_cons.1 hn with rfl | hn
      · have e1 := (required_iff fun _ _ => driverOf_iff).2 h1
        have e2 := (required_iff fun _ _ => driverOf_iff).2 hv
        rw [e1] at e2
        cases e2
        exact List.mem_cons_self
      · exact List.mem_cons_of_mem _ (ih hn)
  clear h1 hn hv
  induction h2 with
  | nil => cases hd
  | cons h2 _ ih =>
    rcases List.mem_cons.1 hd with e | hd
    · subst e
      cases h2 with
      | directory h _ _ => exact hp _ h.choose_spec
    · exact ih hd

/-- **C102**, the owner server's reports: vouchers are found in directories, and in databases said to be an owner's. -/
theorem C102_reports {d : Driver} {s : Opened} (h : At W d s) :
    s.reports = true ↔ (∃ p, d = .directory p) ∨ ∃ kind u, d = .db kind .owner u := by
  cases h with
  | directory _ _ _ => exact ⟨fun _ => .inl ⟨_, rfl⟩, fun _ => rfl⟩
  | @db kind t u _ =>
    constructor
    · intro h
      simp only [Opened.reports, Opened.filters, Opened.lists, Bool.false_or, decide_eq_true_eq] at h
      subst h
      exact .inr ⟨kind, u, rfl⟩
    · rintro (⟨p, h⟩ | ⟨kind', u', h⟩)
      · cases h
      · cases h; rfl

/-- **C102** is violated: the settings of an owner server may name the tables of another type of server. It opens its stores like any other,
and then never finds a voucher to report. -/
theorem C102_type_violated {t : ServerType} (ht : t ≠ .owner) {kind : DbKind} {u : List Char}
    (hv : Entry v "ownership_voucher_store_driver" (SaysStore S) (.db kind t u)) (hu : W.pool kind u = true) {d : Driver} {session : Opened}
    (hs : Entry v "session_store_driver" (SaysStore S) d) (ha : At W d session) :
    ∃ main, stores W S ownerStores v = .ok [main, session] ∧ main.reports = false := by
  refine ⟨.db kind t u, (C102_owner _ _).2 ⟨⟨_, hv, .db hu⟩, _, hs, ha⟩, ?_⟩
  simp only [Opened.reports, Opened.filters, Opened.lists, Bool.false_or, decide_eq_false_iff_not]
  exact ht

end

end Verif.Startup

import Verif.Props.RvServer
/-!
Properties C35 and C36 with the database stores.
-/
namespace Verif.RvServer
open Verif Verif.Voucher Verif.Store

section
attribute [local irreducible] second
variable {R : RvEnv} {c : Bool} {ser : Item R → Bytes} {de : Bytes → Option (Item R)} {cfg : Config R}
  {Id : Type} [DecidableEq Id] {idOf : List Char → Option Id} {aead : Http.Aead} {encode : Resp → Bytes}

local notation "Srv" => server R c (dirBackend ser de) cfg Id idOf aead encode
local notation "Reached" => reached R c (dirBackend ser de) cfg idOf aead encode
local notation "Histories" => Hist R c (dirBackend ser de) cfg idOf aead encode
local notation "SrvDb" => server R c (dbBackend ser de) cfg Id idOf aead encode
local notation "ReachedDb" => reached R c (dbBackend ser de) cfg idOf aead encode
local notation "HistoriesDb" => Hist R c (dbBackend ser de) cfg idOf aead encode

theorem dbSetMeta_succeeds {now : Nat} {t : Table} {k mk : Name} {dur s : Int} (h : MValue.timestamp now dur = .ok s) :
    dbSetMeta .rendezvous now t k mk (.after dur) = (t.update k (fun r => { r with ttl := some s }), .ok ()) := by
  unfold dbSetMeta
  simp only [h]

/-- With the server not stopped, a registration adds a row with a lifetime, or changes nothing. -/
theorem db_register_calm {t : Table} {o : Oracle} {r : Registration R} (hs : o.stopped = false)
    (hle : o.now / second + r.wait ≤ 253402300799) (x : Row)
    (hx : x ∈ (register R (dbBackend ser de) o r t).1) :
    x ∈ t ∨ (r.guid.length = 16 ∧
      x = ⟨guidText r.guid, ser r.item, none, none, some ((o.now / second + r.wait : Nat) : Int)⟩) := by
  cases hr : register R (dbBackend ser de) o r t with
  | mk t' ow =>
    rw [hr] at hx
    cases ow with
    | some w =>
      obtain ⟨h1, _, _, _, rfl⟩ := db_register hr
      rcases List.mem_append.1 hx with hx | hx
      · exact .inl hx
      · exact .inr ⟨h1, List.mem_singleton.1 hx⟩
    | none =>
      unfold register at hr
      split at hr
      · cases hr
        exact .inl hx
      rename_i k hk
      split at hr
      · rename_i t1 hp
        have hts := timestamp_wait (now := o.now) (wait := r.wait)
        rw [if_pos hle] at hts
        have hset := dbSetMeta_succeeds (t := t1) (k := k) (mk := ttlKey) hts
        rw [if_neg (by rw [hs]; decide)] at hr
        split at hr
        · exact nomatch (Prod.mk.inj hr).2
        · rename_i t2 y hy hset'
          exact absurd (congrArg Prod.snd (hset'.symm.trans hset)) hy
      · rename_i t1 y hy hp
        have hp : dbStore t k (ser r.item) = (t1, y) := hp
        unfold dbStore at hp
        split at hp
        · simp only [Prod.mk.injEq] at hp hr
          rw [← hr.1, ← hp.1] at hx
          exact .inl hx
        · simp only [Prod.mk.injEq] at hp
          exact absurd hp.2.symm hy

theorem db_handle {o : Oracle} {q : Req} {s : Data} {t : Table} (hq : ∀ a b, q ≠ .ownerSign a b) :
    (handle R c (dbBackend ser de) cfg o q s t).1 = t := by
  cases q with
  | hello => rfl
  | ownerSign a b => exact absurd rfl (hq a b)
  | helloRv g sg inf =>
    simp only [handle, helloRv]
    split
    · rfl
    split
    · rfl
    split
    · rename_i hl
      have hl : (t, dbLoad de t _) = _ := hl
      split <;> exact (Prod.mk.inj hl).1.symm
    · rename_i hl
      have hl : (t, dbLoad de t _) = _ := hl
      exact (Prod.mk.inj hl).1.symm
  | prove token =>
    simp only [handle, proveToRv]
    split
    · rfl
    split
    · rfl
    split
    · rename_i hl
      have hl : (t, dbLoad de t _) = _ := hl
      split
      · split <;> exact (Prod.mk.inj hl).1.symm
      · exact (Prod.mk.inj hl).1.symm
    · rename_i hl
      have hl : (t, dbLoad de t _) = _ := hl
      exact (Prod.mk.inj hl).1.symm

/-- The rows are explained by the history, with their lifetime; none has outlived a maintenance. -/
theorem db_explained (h : HistoriesDb) (hcalm : Calm R c (dbBackend ser de) cfg idOf aead encode h) (x : Row)
    (hx : x ∈ (ReachedDb h).world) :
    ∃ h1 rq h2 g t item, h = h1 ++ .request rq :: h2 ∧ g.length = 16 ∧
      Registered R c (dbBackend ser de) cfg idOf aead encode h1 rq g t item ∧ x.guid = guidText g ∧
      x.contents = ser item ∧ x.ttl = some ((rq.oracle.now / second + min t.wait cfg.maxWait : Nat) : Int) ∧
      ∀ m, .internal m ∈ h2 → m.1 / second < rq.oracle.now / second + min t.wait cfg.maxWait := by
  have main := Http.world_invariant (move R (dbBackend ser de)) (Sv := SrvDb) (dbBackend ser de).empty
    (fun h (w : Table) => Calm R c (dbBackend ser de) cfg idOf aead encode h → ∀ x ∈ w,
      ∃ h1 rq h2 g t item, h = h1 ++ .request rq :: h2 ∧ g.length = 16 ∧
      Registered R c (dbBackend ser de) cfg idOf aead encode h1 rq g t item ∧ x.guid = guidText g ∧
      x.contents = ser item ∧ x.ttl = some ((rq.oracle.now / second + min t.wait cfg.maxWait : Nat) : Int) ∧
      ∀ m, .internal m ∈ h2 → m.1 / second < rq.oracle.now / second + min t.wait cfg.maxWait)
    ?_ ?_ ?_ ?_ h
  · exact main hcalm x hx
  · intro _ x hx
    cases hx
  · intro h e hne ih hcalm x hx
    obtain ⟨h1, rq, h2, g, t, item, he, hg, hr, a, b, d, f⟩ := ih hcalm.left x hx
    refine ⟨h1, rq, h2 ++ [e], g, t, item, Http.split_snoc he, hg, hr, a, b, d, ?_⟩
    intro m hm
    rcases List.mem_append.1 hm with hm | hm
    · exact f m hm
    · exact absurd (List.mem_singleton.1 hm).symm (hne m)
  · intro h m ih hcalm x hx
    have hx : x ∈ dbMaintain .rendezvous m.1 (ReachedDb h).world := hx
    unfold dbMaintain at hx
    simp only at hx
    obtain ⟨hx1, hx2⟩ := List.mem_filter.1 hx
    obtain ⟨h1, rq, h2, g, t, item, he, hg, hr, a, b, d, f⟩ := ih hcalm.left x hx1
    refine ⟨h1, rq, h2 ++ [_], g, t, item, Http.split_snoc he, hg, hr, a, b, d, ?_⟩
    intro m' hm
    rcases List.mem_append.1 hm with hm | hm
    · exact f m' hm
    · cases List.mem_singleton.1 hm
      rw [d] at hx2
      simp only [Bool.not_eq_true', decide_eq_false_iff_not, Int.not_le] at hx2
      exact Int.ofNat_lt.1 hx2
  · intro h rq a ha ih hcalm x hx
    rw [server_world] at hx
    change x ∈ (handle R c (dbBackend ser de) cfg rq.oracle a.req a.sess.data (ReachedDb h).world).1 at hx
    have old : x ∈ (ReachedDb h).world → ∃ h1 rq' h2 g t item, h ++ [.request rq] = h1 ++ .request rq' :: h2 ∧ g.length = 16 ∧
        Registered R c (dbBackend ser de) cfg idOf aead encode h1 rq' g t item ∧ x.guid = guidText g ∧
        x.contents = ser item ∧ x.ttl = some ((rq'.oracle.now / second + min t.wait cfg.maxWait : Nat) : Int) ∧
        ∀ m, .internal m ∈ h2 → m.1 / second < rq'.oracle.now / second + min t.wait cfg.maxWait := by
      intro hw
      obtain ⟨h1, rq', h2, g, t, item, he, hg, hr, a, b, d, f⟩ := ih hcalm.left x hw
      refine ⟨h1, rq', h2 ++ [_], g, t, item, Http.split_snoc he, hg, hr, a, b, d, ?_⟩
      intro m hm
      rcases List.mem_append.1 hm with hm | hm
      · exact f m hm
      · cases List.mem_singleton.1 hm
    obtain ⟨hst, hmax⟩ := hcalm rq (by simp)
    have ex := explained h rq a ha
    rcases (accepted_cases ha).2 with ⟨ht, hom, hr⟩ | ⟨ht, hom, to0d, to1d, hr, hp⟩ | ⟨ht, hom, g', sg, inf, hr, hp⟩ | ⟨ht, hom, hr⟩
    · rw [db_handle (by rw [hr]; simp)] at hx; exact old hx
    · rw [hr] at hx
      simp only [handle] at hx
      rcases ownersign_world (R := R) (c := c) (B := dbBackend ser de) (cfg := cfg) (o := rq.oracle) (to0d := to0d) (to1d := to1d)
        (s := a.sess.data) (w := (ReachedDb h).world) with hq | ⟨t3, n, r, h3, hn, hck, hl, hq⟩
      · rw [show (ownersign R c (dbBackend ser de) cfg rq.oracle to0d to1d a.sess.data _).1 = _ from hq] at hx
        exact old hx
      · rw [show (ownersign R c (dbBackend ser de) cfg rq.oracle to0d to1d a.sess.data _).1 = _ from hq] at hx
        obtain ⟨t, hauth, hwait⟩ := checkOwnerSign_ok hck
        obtain ⟨n', rfl, hn3⟩ := ex.1 t3 h3
        obtain rfl := parseNonce_hex hn
        have hb : rq.oracle.now / second + r.wait ≤ 253402300799 := by
          rw [hwait]
          generalize rq.oracle.now / second = q at hmax ⊢
          omega
        rcases db_register_calm hst hb x hx with hx | ⟨hl, rfl⟩
        · exact old hx
        · refine ⟨h, rq, [], r.guid, t, r.item, rfl, hl, ⟨ht, a.id, n, to0d, to1d, ⟨a, ha, rfl⟩, hn3, hp, hauth⟩, rfl, rfl, ?_, ?_⟩
          · simp only [hwait]
          · intro m hm; cases hm
    · rw [db_handle (by rw [hr]; simp)] at hx; exact old hx
    · rw [db_handle (by rw [hr]; simp)] at hx; exact old hx

/-- **C35** (database stores, server not stopped between the two store operations of a registration): what
the server serves after maintenance at time `T` was registered after that maintenance, or for longer
than `T`. Between maintenance runs the claim fails; see `C35_database_violated`. -/
theorem C35_database_maintained_partial (hc : ∀ v, de (ser v) = some v) (h : HistoriesDb)
    (hcalm : Calm R c (dbBackend ser de) cfg idOf aead encode h) (g : Bytes) (hg : g.length = 16) (item : Item R)
    (hl : Held (dbBackend ser de) (ReachedDb h).world (guidText g) item) :
    ∃ h1 rq h2 t, h = h1 ++ .request rq :: h2 ∧
      Registered R c (dbBackend ser de) cfg idOf aead encode h1 rq g t item ∧
      ∀ T ls, .internal (T, ls) ∈ h2 → T < rq.oracle.now + min t.wait cfg.maxWait * second := by
  obtain ⟨now, hl0⟩ := hl
  have hl : dbLoad de (ReachedDb h).world (guidText g) = .ok (some item) := hl0
  clear hl0
  unfold dbLoad at hl
  split at hl
  · cases hl
  rename_i x hx
  have hxg := List.find?_some hx
  obtain ⟨h1, rq, h2, g', t, item', he, hg', hreg, a, b, d, f⟩ := db_explained h hcalm x (List.mem_of_find?_eq_some hx)
  simp only [decide_eq_true_eq] at hxg
  obtain rfl := guidText_injective _ _ hg' hg (a.symm.trans hxg)
  rw [b, hc] at hl
  cases hl
  refine ⟨h1, rq, h2, t, he, hreg, ?_⟩
  intro T ls hm
  have h1 := f _ hm
  have h2 := Nat.div_add_mod T second
  have h3 := Nat.mod_lt T second_pos
  have h4 := Nat.div_mul_le_self rq.oracle.now second
  have h5 : (T / second + 1) * second ≤ (rq.oracle.now / second + min t.wait cfg.maxWait) * second := Nat.mul_le_mul_right _ h1
  rw [Nat.add_mul, Nat.add_mul, Nat.one_mul, Nat.mul_comm (T / second)] at h5
  generalize second * (T / second) = x at *
  generalize min t.wait cfg.maxWait * second = y at *
  generalize T % second = z at *
  generalize rq.oracle.now / second * second = u at *
  generalize second = v at *
  omega

/-! ### A first registration is kept -/

/-- The row for a key. -/
abbrev rowOf (t : Table) (k : Name) : Option Row := t.find? fun r => decide (r.guid = k)

theorem update_row {t : Table} {k k' : Name} (hk : k' ≠ k) {g : Row → Row} (hg : ∀ r, (g r).guid = r.guid) :
    rowOf (t.update k' g) k = rowOf t k := by
  unfold Table.update
  induction t with
  | nil => rfl
  | cons r t ih =>
    simp only [List.map_cons, List.find?_cons]
    by_cases h : r.guid = k'
    · rw [if_pos h, hg, h, decide_eq_false hk]
      exact ih
    · rw [if_neg h, show List.find? _ _ = _ from ih]

theorem dbSetMeta_row {now : Nat} {t : Table} {k k' : Name} (hk : k' ≠ k) {dur : Int} :
    rowOf (dbSetMeta .rendezvous now t k' ttlKey (.after dur)).1 k = rowOf t k := by
  unfold dbSetMeta
  simp only
  split
  · exact update_row hk fun _ => rfl
  · rfl
  · rfl

theorem dbStore_row {t : Table} {k k' : Name} (hk : k' ≠ k) {b : Bytes} : rowOf (dbStore t k' b).1 k = rowOf t k := by
  unfold dbStore
  split
  · rfl
  · simp [rowOf, List.find?_append, hk]

theorem db_register_other {t : Table} {o : Oracle} {r : Registration R} {k : Name} (hk : guidText r.guid ≠ k) :
    rowOf (register R (dbBackend ser de) o r t).1 k = rowOf t k := by
  unfold register
  split
  · rfl
  rename_i k' hk'
  obtain ⟨-, rfl⟩ := guidKey_some hk'
  have h1 : rowOf ((dbBackend ser de).put t (guidText r.guid) r.item).1 k = rowOf t k := dbStore_row hk
  split
  · rename_i w hp
    rw [hp] at h1
    have h2 : rowOf ((dbBackend ser de).setTtl o.now w (guidText r.guid) ((r.wait : Int) * (second : Int))).1 k = rowOf w k := dbSetMeta_row hk
    split
    · exact h1
    split
    · rename_i w' hs
      rw [hs] at h2
      exact h2.trans h1
    · rename_i w' x _ hs
      rw [hs] at h2
      exact h2.trans h1
  · rename_i w x _ hp
    rw [hp] at h1
    exact h1

theorem filter_row {t : Table} {k : Name} {p : Row → Bool} (h : ∀ r, rowOf t k = some r → p r = true) : rowOf (t.filter p) k = rowOf t k := by
  induction t with
  | nil => rfl
  | cons r t ih =>
    by_cases hr : r.guid = k
    · have hp := h r (by simp [rowOf, hr])
      rw [List.filter_cons, if_pos hp]
      simp [rowOf, hr]
    · have ih := ih (fun x hx => h x (by simpa [rowOf, List.find?_cons, hr] using hx))
      rw [List.filter_cons]
      split
      · simpa [rowOf, List.find?_cons, hr] using ih
      · simpa [rowOf, List.find?_cons, hr] using ih

/-- What does not name the device does not change its row, except that maintenance may remove it when its time has come. -/
theorem db_after {σ : Http.St SrvDb} {e : Http.Event SrvDb (Nat × List Name)} {g : Bytes} (hg : g.length = 16)
    (hn : ¬ Names R c (dbBackend ser de) cfg idOf aead encode g e)
    (ht : ∀ T r, timeOf R c (dbBackend ser de) cfg idOf aead encode e = some T → rowOf σ.world (guidText g) = some r →
      ∃ q : Nat, r.ttl = some (q : Int) ∧ T < q * second) :
    rowOf (Http.after (move R (dbBackend ser de)) σ e).world (guidText g) = rowOf σ.world (guidText g) := by
  cases e with
  | expire i => rfl
  | internal m =>
    show rowOf (dbMaintain .rendezvous m.1 σ.world) (guidText g) = _
    unfold dbMaintain
    refine filter_row fun r hr => ?_
    obtain ⟨q, h1, h2⟩ := ht m.1 r rfl hr
    rw [h1]
    have : m.1 / second < q := Nat.div_lt_of_lt_mul (by rw [Nat.mul_comm]; exact h2)
    simp only [Bool.not_eq_true', decide_eq_false_iff_not, Int.not_le]
    exact Int.ofNat_lt.2 this
  | request rq =>
    show rowOf (Http.step σ rq).1.world (guidText g) = _
    cases hacc : Http.accept σ rq with
    | none =>
      have : (Http.step σ rq).1 = σ := by unfold Http.step; rw [hacc]
      rw [this]
    | some a =>
      rw [Http.step_world hacc, server_world]
      rcases (accepted_cases hacc).2 with ⟨ht, hom, hr⟩ | ⟨ht, hom, to0d, to1d, hr, hp⟩ | ⟨ht, hom, g', sg, inf, hr, hp⟩ | ⟨ht, hom, hr⟩
      · rw [db_handle (by rw [hr]; simp)]
      · rw [hr]
        simp only [handle]
        rcases ownersign_world (R := R) (c := c) (B := dbBackend ser de) (cfg := cfg) (o := rq.oracle) (to0d := to0d) (to1d := to1d)
          (s := a.sess.data) (w := σ.world) with hq' | ⟨t3, n, r, h3, hn', hck, hl, hq'⟩
        · rw [show (ownersign R c (dbBackend ser de) cfg rq.oracle to0d to1d a.sess.data _).1 = _ from hq']
        · rw [show (ownersign R c (dbBackend ser de) cfg rq.oracle to0d to1d a.sess.data _).1 = _ from hq']
          obtain ⟨t, hauth, _⟩ := checkOwnerSign_ok hck
          have hgg : r.guid ≠ g := by
            intro hh
            exact hn ⟨to0d, to1d, t, hp, hauth.read, by rw [hauth.guid]; exact hh⟩
          exact db_register_other fun hh => hgg (guidText_injective _ _ hl hg hh)
      · rw [db_handle (by rw [hr]; simp)]
      · rw [db_handle (by rw [hr]; simp)]

/-- What was not registered and is not named has no row. -/
theorem db_absent {g : Bytes} (hg : g.length = 16) (h : HistoriesDb) (hn : ∀ e ∈ h, ¬ Names R c (dbBackend ser de) cfg idOf aead encode g e) :
    ∀ σ : Http.St SrvDb, rowOf σ.world (guidText g) = none → rowOf (Http.replay (move R (dbBackend ser de)) σ h).world (guidText g) = none := by
  induction h with
  | nil => exact fun _ h => h
  | cons e h ih =>
    intro σ hσ
    refine ih (fun e he => hn e (.tail _ he)) _ ?_
    rw [db_after hg (hn e (.head _)) (fun T r _ hr => by rw [hσ] at hr; cases hr)]
    exact hσ

/-- **C36** with the database stores, as far as it holds: after an accepted registration (the first one, or the first after the last one
was removed) the server serves exactly that registration for the device, through every further history which does not name the device
again, at least until the lifetime runs out (up to rounding to whole seconds).

Missing from the full statement: a later registration does not replace it; see `C36_database_violated`. -/
theorem C36_database_partial (hc : ∀ v, de (ser v) = some v) (h1 : HistoriesDb) (rq : Http.Request SrvDb) (b : Bytes)
    (tok : Option (List Char)) (hr : (Http.step (ReachedDb h1) rq).2 = .ok .to0AcceptOwner b tok) :
    ∃ g t item, Registered R c (dbBackend ser de) cfg idOf aead encode h1 rq g t item ∧
      ∀ h2 : HistoriesDb, (∀ e ∈ h2, ¬ Names R c (dbBackend ser de) cfg idOf aead encode g e ∧
          ∀ T, timeOf R c (dbBackend ser de) cfg idOf aead encode e = some T →
            T + second ≤ rq.oracle.now + min t.wait cfg.maxWait * second) →
        ∀ now, ((dbBackend ser de).load now (ReachedDb (h1 ++ .request rq :: h2)).world (guidText g)).2 = .ok (some item) := by
  obtain ⟨ht, i, n, to0d, to1d, r, t, w, a1, a2, a3, a4, a5, a6, a7, a8⟩ := accepted_registration hr
  refine ⟨r.guid, t, r.item, ⟨ht, i, n, to0d, to1d, a1, a2, a3, a4⟩, ?_⟩
  obtain ⟨hl, -, hno, -, hw⟩ := db_register a6
  rw [← a5]
  have hround : ∀ T, T + second ≤ rq.oracle.now + r.wait * second → T < (rq.oracle.now / second + r.wait) * second := by
    intro T hT
    have h1 := Nat.div_add_mod rq.oracle.now second
    have h2 := Nat.mod_lt rq.oracle.now second_pos
    rw [Nat.add_mul, Nat.mul_comm (rq.oracle.now / second)]
    generalize second * (rq.oracle.now / second) = x at *
    generalize r.wait * second = y at *
    generalize rq.oracle.now % second = z at *
    generalize second = u at *
    omega
  intro h2 hh2 now
  have hrow : rowOf w (guidText r.guid) = some ⟨guidText r.guid, ser r.item, none, none, some ((rq.oracle.now / second + r.wait : Nat) : Int)⟩ := by
    have hf : rowOf (ReachedDb h1).world (guidText r.guid) = none := by
      rw [List.find?_eq_none]
      rw [List.any_eq_false] at hno
      exact hno
    rw [hw, rowOf, List.find?_append, show List.find? _ _ = _ from hf]
    simp
  have hfin : rowOf (ReachedDb (h1 ++ .request rq :: h2)).world (guidText r.guid) =
      some ⟨guidText r.guid, ser r.item, none, none, some ((rq.oracle.now / second + r.wait : Nat) : Int)⟩ := by
    unfold reached
    rw [Http.replay_append]
    have gen : ∀ (h2 : HistoriesDb) (σ : Http.St SrvDb), (∀ e ∈ h2, ¬ Names R c (dbBackend ser de) cfg idOf aead encode r.guid e ∧
          ∀ T, timeOf R c (dbBackend ser de) cfg idOf aead encode e = some T →
            T + second ≤ rq.oracle.now + r.wait * second) → rowOf σ.world (guidText r.guid) =
              some ⟨guidText r.guid, ser r.item, none, none, some ((rq.oracle.now / second + r.wait : Nat) : Int)⟩ →
        rowOf (Http.replay (move R (dbBackend ser de)) σ h2).world (guidText r.guid) =
          some ⟨guidText r.guid, ser r.item, none, none, some ((rq.oracle.now / second + r.wait : Nat) : Int)⟩ := by
      intro h2
      induction h2 with
      | nil => intro σ _ hσ; exact hσ
      | cons e h2 ih =>
        intro σ hev hσ
        obtain ⟨he1, he2⟩ := hev e (by simp)
        refine ih _ (fun e' he' => hev e' (by simp [he'])) ?_
        rw [db_after hl he1]
        · exact hσ
        · intro T x hT hx
          rw [hσ] at hx
          cases hx
          exact ⟨_, rfl, hround T (he2 T hT)⟩
    refine gen h2 _ hh2 ?_
    show rowOf (Http.step (ReachedDb h1) rq).1.world (guidText r.guid) = _
    rw [show (Http.step (ReachedDb h1) rq).1.world = w from a7]
    exact hrow
  show dbLoad de _ _ = _
  unfold dbLoad
  rw [show List.find? _ _ = _ from hfin]
  simp only [hc]

end

end Verif.RvServer

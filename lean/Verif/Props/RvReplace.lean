import Verif.Props.RvServer
/-!
Property C36: the newest registration replaces older ones.
-/
namespace Verif.RvServer
open Verif Verif.Voucher Verif.Store

section
attribute [local irreducible] second
variable {R : RvEnv} {c : Bool} {ser : Item R → Bytes} {de : Bytes → Option (Item R)} {cfg : Config R}
  {Id : Type} [DecidableEq Id] {idOf : List Char → Option Id} {aead : Http.Aead} {encode : Resp → Bytes}

local notation "Srv" => server R c (dirBackend ser de) cfg Id idOf aead encode
local notation "Reached" => reached R c (dirBackend ser de) cfg idOf aead encode
local notation "Histories" => Hist R c (dirBackend ser de) cfg idOf aead encode
local notation "SrvDb" => server R c (dbBackend ser de) cfg Id idOf aead encode
local notation "ReachedDb" => reached R c (dbBackend ser de) cfg idOf aead encode
local notation "HistoriesDb" => Hist R c (dbBackend ser de) cfg idOf aead encode

/-! ### C36 -/

theorem erase_other {d : Dir} {n m : Name} (h : n ≠ m) : (d.erase m) n = d n := by
  simp [Dir.erase, h]

/-- One step of the maintenance loop. -/
theorem maintain_cons {now : Nat} {d : Dir} {x : Name} {r : List Name} {P : Dir → Prop}
    (h1 : P (Store.maintain now d r).1) (h2 : P d)
    (h3 : ∀ f b s, d x = some f → f.xattrs (xattrName ttlKey) = some b → ttlFromDisk b = .ok s → ¬ now < s * second →
      P (Store.maintain now (d.erase x) r).1) : P (Store.maintain now d (x :: r)).1 := by
  unfold Store.maintain
  split
  · exact h1
  · rename_i f hf
    split
    · exact h1
    · rename_i b hb
      split
      · exact h2
      · exact h2
      · rename_i s hs
        split
        · exact h1
        · rename_i hn
          exact h3 f b s hf hb hs hn

/-- Maintenance keeps a file whose time has not come. -/
theorem maintain_keeps {now q : Nat} {n : Name} {f : File} (ha : f.xattrs (xattrName ttlKey) = some (leBytes 8 q))
    (hq : q < 2 ^ 63) (hnow : now < q * second) (ls : List Name) :
    ∀ d : Dir, d n = some f → (Store.maintain now d ls).1 n = some f := by
  induction ls with
  | nil => intro d hd; exact hd
  | cons x r ih =>
    intro d hd
    refine maintain_cons (P := fun d => d n = some f) (ih d hd) hd ?_
    intro f' b s hf' hb hs hns
    refine ih _ ?_
    rw [erase_other, hd]
    intro hh
    rw [← hh, hd] at hf'
    rw [← Option.some.inj hf', ha] at hb
    rw [← Option.some.inj hb, ttl_roundtrip q hq] at hs
    rw [← Res.ok.inj hs] at hns
    exact hns hnow

theorem not_expired {now q : Nat} {f : File} (ha : f.xattrs (xattrName ttlKey) = some (leBytes 8 q))
    (hq : q < 2 ^ 63) (hnow : now < q * second) : fileExpired now f ≠ .ok true := by
  unfold fileExpired
  rw [ha]
  simp only [ttl_roundtrip q hq]
  intro hh
  have := of_decide_eq_true (Res.ok.inj hh)
  exact absurd (Nat.lt_trans hnow this) (Nat.lt_irrefl _)

/-- Loading keeps a file whose time has not come. -/
theorem load_keeps {now q : Nat} {n k : Name} {f : File} (ha : f.xattrs (xattrName ttlKey) = some (leBytes 8 q))
    (hq : q < 2 ^ 63) (hnow : now < q * second) {d : Dir} (hd : d n = some f) : (Store.load de now d k).1 n = some f := by
  unfold Store.load
  split
  · exact hd
  rename_i f' hf'
  split
  · exact hd
  · exact hd
  · rename_i hexp
    simp only
    rw [erase_other, hd]
    intro hh
    subst hh
    refine not_expired ha hq hnow ?_
    rw [← Option.some.inj (hd.symm.trans hf')] at hexp
    exact hexp
  · split <;> exact hd

/-- A file of a registration stays through every event which neither names the device nor happens after
its time. -/
theorem dir_after {σ : Http.St Srv} {e : Http.Event Srv (Nat × List Name)} {g : Bytes} (hg : g.length = 16) {f : File}
    {q : Nat} (ha : f.xattrs (xattrName ttlKey) = some (leBytes 8 q)) (hq : q < 2 ^ 63)
    (hd : σ.world (escape (guidText g)) = some f)
    (hn : ¬ Names R c (dirBackend ser de) cfg idOf aead encode g e)
    (ht : ∀ T, timeOf R c (dirBackend ser de) cfg idOf aead encode e = some T → T < q * second) :
    (Http.after (move R (dirBackend ser de)) σ e).world (escape (guidText g)) = some f := by
  cases e with
  | expire i => exact hd
  | internal m => exact maintain_keeps ha hq (ht m.1 rfl) _ _ hd
  | request rq =>
    have hnow : rq.oracle.now < q * second := ht _ rfl
    show (Http.step σ rq).1.world (escape (guidText g)) = some f
    cases hacc : Http.accept σ rq with
    | none =>
      have : (Http.step σ rq).1 = σ := by unfold Http.step; rw [hacc]
      rw [this]
      exact hd
    | some a =>
      rw [Http.step_world hacc, server_world]
      rcases (accepted_cases hacc).2 with ⟨ht, hom, hr⟩ | ⟨ht, hom, to0d, to1d, hr, hp⟩ | ⟨ht, hom, g', sg, inf, hr, hp⟩ | ⟨ht, hom, hr⟩
      · rw [hr]; exact hd
      · rw [hr]
        simp only [handle]
        rcases ownersign_world (R := R) (c := c) (B := dirBackend ser de) (cfg := cfg) (o := rq.oracle) (to0d := to0d) (to1d := to1d)
          (s := a.sess.data) (w := σ.world) with hq' | ⟨t3, n, r, h3, hn', hck, hl, hq'⟩
        · rw [show (ownersign R c (dirBackend ser de) cfg rq.oracle to0d to1d a.sess.data _).1 = _ from hq']
          exact hd
        · rw [show (ownersign R c (dirBackend ser de) cfg rq.oracle to0d to1d a.sess.data _).1 = _ from hq']
          obtain ⟨t, hauth, _⟩ := checkOwnerSign_ok hck
          have hgg : r.guid ≠ g := by
            intro hh
            exact hn ⟨to0d, to1d, t, hp, hauth.read, by rw [hauth.guid]; exact hh⟩
          obtain ⟨_, d2, _⟩ := dir_register (ser := ser) (de := de) (d := σ.world) (o := rq.oracle) hl
          rw [show (register R (dirBackend ser de) rq.oracle r σ.world).1 (escape (guidText g)) = _ from
            d2 _ (fun hh => hgg (guidText_injective _ _ hl hg
            (good_escape_injective (guidText_good _) (guidText_good _) hh.symm))) (good_ne_tmp (guidText_good _) _)]
          exact hd
      · rw [hr]
        simp only [handle, helloRv]
        split
        · exact hd
        split
        · exact hd
        rename_i k hk
        have := load_keeps (de := de) (k := k) ha hq hnow hd
        split
        · rename_i w' _ hl
          rw [show Store.load de rq.oracle.now σ.world k = _ from hl] at this
          split <;> exact this
        · rename_i w' x _ hl
          rw [show Store.load de rq.oracle.now σ.world k = _ from hl] at this
          exact this
      · rw [hr]
        simp only [handle, proveToRv]
        split
        · exact hd
        split
        · exact hd
        rename_i g' hg'
        have := load_keeps (de := de) (k := guidText g') ha hq hnow hd
        split
        · rename_i w' _ hl
          rw [show Store.load de rq.oracle.now σ.world (guidText g') = _ from hl] at this
          split
          · split <;> exact this
          · exact this
        · rename_i w' x _ hl
          rw [show Store.load de rq.oracle.now σ.world (guidText g') = _ from hl] at this
          exact this

/-- **C36** with the directory store: after an accepted registration the server serves exactly that
registration for the device, through every further history which does not name the device again, until the
lifetime runs out (up to rounding to whole seconds); whatever was registered before. -/
theorem C36_directory (hc : ∀ v, de (ser v) = some v) (h1 : Histories) (rq : Http.Request Srv) (b : Bytes)
    (tok : Option (List Char)) (hr : (Http.step (Reached h1) rq).2 = .ok .to0AcceptOwner b tok) :
    ∃ g t item, Registered R c (dirBackend ser de) cfg idOf aead encode h1 rq g t item ∧
      ∀ h2 : Histories, (∀ e ∈ h2, ¬ Names R c (dirBackend ser de) cfg idOf aead encode g e ∧
          ∀ T, timeOf R c (dirBackend ser de) cfg idOf aead encode e = some T →
            T + second ≤ rq.oracle.now + min t.wait cfg.maxWait * second) →
        ∀ now, now + second ≤ rq.oracle.now + min t.wait cfg.maxWait * second →
          (Store.load de now (Reached (h1 ++ .request rq :: h2)).world (guidText g)).2 = .ok (some item) := by
  obtain ⟨ht, i, n, to0d, to1d, r, t, w, a1, a2, a3, a4, a5, a6, a7, a8⟩ := accepted_registration hr
  refine ⟨r.guid, t, r.item, ⟨ht, i, n, to0d, to1d, a1, a2, a3, a4⟩, ?_⟩
  have hl : r.guid.length = 16 := by
    unfold register at a6
    split at a6
    · cases a6
    · rename_i k hk; exact (guidKey_some hk).1
  obtain ⟨_, _, _, d4, _⟩ := dir_register (ser := ser) (de := de) (d := (Reached h1).world) (o := rq.oracle) hl
  obtain ⟨_, hmax, f, hf, hcont, hattr⟩ := d4 r.wait (by rw [a6])
  rw [show (register R (dirBackend ser de) rq.oracle r (Reached h1).world).1 = w by rw [a6]] at hf
  rw [← a5]
  have hround : ∀ T, T + second ≤ rq.oracle.now + r.wait * second → T < (rq.oracle.now / second + r.wait) * second := by
    intro T hT
    have h1 := Nat.div_add_mod rq.oracle.now second
    have h2 := Nat.mod_lt rq.oracle.now second_pos
    rw [Nat.add_mul, Nat.mul_comm (rq.oracle.now / second)]
    generalize second * (rq.oracle.now / second) = x at *
    generalize r.wait * second = y at *
    generalize rq.oracle.now % second = z at *
    generalize second = u at *
    omega
  intro h2 hh2 now hnow
  have hfin : (Reached (h1 ++ .request rq :: h2)).world (escape (guidText r.guid)) = some f := by
    unfold reached
    rw [Http.replay_append]
    have gen : ∀ (h2 : Histories) (σ : Http.St Srv), (∀ e ∈ h2, ¬ Names R c (dirBackend ser de) cfg idOf aead encode r.guid e ∧
          ∀ T, timeOf R c (dirBackend ser de) cfg idOf aead encode e = some T →
            T + second ≤ rq.oracle.now + r.wait * second) → σ.world (escape (guidText r.guid)) = some f →
        (Http.replay (move R (dirBackend ser de)) σ h2).world (escape (guidText r.guid)) = some f := by
      intro h2
      induction h2 with
      | nil => intro σ _ hσ; exact hσ
      | cons e h2 ih =>
        intro σ hev hσ
        obtain ⟨he1, he2⟩ := hev e (by simp)
        exact ih _ (fun e' he' => hev e' (by simp [he'])) (dir_after hl hattr (by omega) hσ he1
          (fun T hT => hround T (he2 T hT)))
    refine gen h2 _ hh2 ?_
    show (Http.step (Reached h1) rq).1.world (escape (guidText r.guid)) = some f
    rw [show (Http.step (Reached h1) rq).1.world = w from a7]
    exact hf
  unfold Store.load
  rw [hfin]
  simp only [fileExpired, hattr, ttl_roundtrip _ (show rq.oracle.now / second + r.wait < 2 ^ 63 by omega)]
  have := hround now hnow
  rw [show decide (now > (rq.oracle.now / second + r.wait) * second) = false by
    rw [decide_eq_false_iff_not]; exact Nat.not_lt.2 (Nat.le_of_lt this)]
  simp only [decodeFile, hcont, hc]

/-- **C36** (what the device gets, directory store): in the situation of `C36_directory`, a redirect sent
in a session whose HelloRV named the device is the newest blob. -/
theorem C36_device_gets_newest (hc : ∀ v, de (ser v) = some v) (h1 : Histories) (rq : Http.Request Srv) (b : Bytes)
    (tok : Option (List Char)) (hr : (Http.step (Reached h1) rq).2 = .ok .to0AcceptOwner b tok) :
    ∃ g t item, Registered R c (dirBackend ser de) cfg idOf aead encode h1 rq g t item ∧
      ∀ h2 : Histories, (∀ e ∈ h2, ¬ Names R c (dirBackend ser de) cfg idOf aead encode g e ∧
          ∀ T, timeOf R c (dirBackend ser de) cfg idOf aead encode e = some T →
            T + second ≤ rq.oracle.now + min t.wait cfg.maxWait * second) →
        ∀ rq' b' tok', rq'.oracle.now + second ≤ rq.oracle.now + min t.wait cfg.maxWait * second →
          (Http.step (Reached (h1 ++ .request rq :: h2)) rq').2 = .ok .to1RVRedirect b' tok' →
          ∃ i g' n, Http.InSession (Reached (h1 ++ .request rq :: h2)) rq' i ∧
            Nonce4 R c (dirBackend ser de) cfg idOf aead encode (h1 ++ .request rq :: h2) i g' n ∧
            (g' = g → b' = encode (.redirect item.to1d)) := by
  obtain ⟨g, t, item, hreg, hall⟩ := C36_directory hc h1 rq b tok hr
  refine ⟨g, t, item, hreg, ?_⟩
  intro h2 hh2 rq' b' tok' hnow hred
  obtain ⟨_, i, g', n, item', hs, hg', hn, hload, _, hb⟩ := C34_only_to_device _ rq' b' tok' hred
  refine ⟨i, g', n, hs, hn, ?_⟩
  rintro rfl
  have h3 := hall h2 hh2 rq'.oracle.now hnow
  have h4 : (Store.load de rq'.oracle.now (Reached (h1 ++ .request rq :: h2)).world (guidText g')).2 = .ok (some item') := hload
  rw [h3] at h4
  cases h4
  exact hb

/-- **C36** is violated with the database stores: once a device is registered, every later registration
for it is refused and changes nothing, so that the device keeps getting the old blob. -/
theorem C36_database_violated (h : HistoriesDb) (rq : Http.Request SrvDb) (g to0d to1d : Bytes) (t : To0d R) (old : Item R)
    (hold : Held (dbBackend ser de) (ReachedDb h).world (guidText g) old)
    (ht : rq.type = .to0OwnerSign) (hp : parseOwnerSign R c rq.body = .ok (.ownerSign to0d to1d))
    (hpt : parseTo0d R c to0d = .ok t) (hg : t.voucher.header.guid = g) :
    (Http.step (ReachedDb h) rq).2 = .reject ∧ (Http.step (ReachedDb h) rq).1.world = (ReachedDb h).world := by
  have hrow : (ReachedDb h).world.any (fun r' => decide (r'.guid = guidText g)) = true := by
    obtain ⟨now, hold⟩ := hold
    have hold : dbLoad de (ReachedDb h).world (guidText g) = .ok (some old) := hold
    unfold dbLoad at hold
    split at hold
    · cases hold
    rename_i x hx
    rw [List.any_eq_true]
    have hx2 := List.find?_some hx
    exact ⟨x, List.mem_of_find?_eq_some hx, hx2⟩
  cases hacc : Http.accept (ReachedDb h) rq with
  | none => unfold Http.step; rw [hacc]; exact ⟨rfl, rfl⟩
  | some a =>
    have hreq : a.req = .ownerSign to0d to1d := by
      rcases (accepted_cases hacc).2 with ⟨ht', _⟩ | ⟨_, _, x, y, hr, hp'⟩ | ⟨ht', _⟩ | ⟨ht', _⟩
      · rw [ht] at ht'; cases ht'
      · rw [hp] at hp'; cases hp'; exact hr
      · rw [ht] at ht'; cases ht'
      · rw [ht] at ht'; cases ht'
    have hown : ownersign R c (dbBackend ser de) cfg rq.oracle to0d to1d a.sess.data (ReachedDb h).world =
        ((ReachedDb h).world, none) := by
      unfold ownersign
      split
      · rfl
      split
      · rename_i r hck
        obtain ⟨t', hauth, _⟩ := checkOwnerSign_ok hck
        have hrg : r.guid = g := by
          have := hauth.read
          rw [hpt] at this
          cases this
          rw [← hauth.guid, hg]
        have hreg : register R (dbBackend ser de) rq.oracle r (ReachedDb h).world = ((ReachedDb h).world, none) := by
          unfold register
          split
          · rfl
          rename_i k hk
          obtain ⟨_, rfl⟩ := guidKey_some hk
          have hput : (dbBackend ser de).put (ReachedDb h).world (guidText r.guid) r.item = ((ReachedDb h).world, .err .database) := by
            show dbStore _ _ _ = _
            unfold dbStore
            rw [hrg, if_pos hrow]
          rw [hput]
        rw [hreg]
      · rfl
    have hh : (SrvDb).handle rq.oracle rq.type a.req a.sess.data a.sess.keys (ReachedDb h).world = ((ReachedDb h).world, none) := by
      rw [hreq]
      exact server_refuses hown
    refine ⟨(Http.C22_reject_keeps_sessions _ _ (.inr ⟨a, hacc, by rw [hh]⟩)).2, ?_⟩
    rw [Http.step_world hacc, hh]

end

end Verif.RvServer

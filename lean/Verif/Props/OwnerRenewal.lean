import Verif.Props.OwnerStore
/-!
C41, first half: when registrations are renewed.
-/
namespace Verif.OwnerServer
open Verif Verif.Voucher Verif.Store Verif.Types

attribute [local irreducible] second

variable {R : OwnerEnv} {cfg : Config R} {ser : Voucher R.E → Bytes}
  {P : Voucher R.E → Prop} {de : Bytes → Option (Voucher R.E)}

/-- Every row that is selected is among the decoded ones. -/
theorem decodeRows_mem (hc : ∀ v, P v → de (ser v) = some v) {s : Table} (hs : ∀ r ∈ s, ∃ v, P v ∧ r.contents = ser v) :
    ∃ l, decodeRows de s = .ok l ∧ ∀ r ∈ s, ∀ v, P v → r.contents = ser v → v ∈ l := by
  induction s with
  | nil => exact ⟨[], rfl, by simp⟩
  | cons r rs ih =>
    obtain ⟨l, h1, h2⟩ := ih (fun x hx => hs x (by simp [hx]))
    obtain ⟨v, hp, hv⟩ := hs r (by simp)
    refine ⟨v :: l, by simp only [decodeRows, hv, hc v hp, h1], ?_⟩
    intro x hx w hp' hw
    rcases List.mem_cons.1 hx with rfl | hx
    · have : v = w := by
        have := congrArg de (hv.symm.trans hw)
        rw [hc v hp, hc w hp'] at this
        exact Option.some.inj this
      rw [this]; simp
    · exact List.mem_cons_of_mem _ (h2 x hx w hp' hw)

/-- The window check selects exactly what is not onboarded and ends within the window. -/
theorem renew_selected (hc : ∀ v, P v → de (ser v) = some v) {t : Table} (ht : TidyTable ser P t) {r : Row} (hr : r ∈ t)
    {v : Voucher R.E} (hp : P v) (hv : r.contents = ser v) (h2 : r.to2 ≠ some true) {s : Int} (h0 : r.to0 = some s) {now : Nat}
    (hs : s < ((now / second : Nat) : Int) + (cfg.window : Int)) :
    v ∈ toRenew (dbVStore ser de) cfg now t := by
  unfold toRenew
  simp only [if_true, dbQueryTo2To0]
  have hsel : r ∈ dbSelect t false (((now / second : Nat) : Int) + (cfg.window : Int)) := by
    unfold dbSelect
    rw [List.mem_filter]
    refine ⟨hr, ?_⟩
    rw [h0]
    simp only [hs, decide_true, Bool.true_and]
    cases hx : r.to2 with
    | none => rfl
    | some b =>
      cases b with
      | false => rfl
      | true => exact absurd hx h2
  obtain ⟨l, h1, h3⟩ := decodeRows_mem (ser := ser) hc (s := dbSelect t false (((now / second : Nat) : Int) + (cfg.window : Int)))
    (by
      intro x hx
      unfold dbSelect at hx
      rw [List.mem_filter] at hx
      obtain ⟨w, hp, hw, _⟩ := ht.1 x hx.1
      exact ⟨w, hp, hw⟩)
  rw [h1]
  exact h3 r hsel v hp hv

theorem setTo0_some {now : Nat} {t t1 : Table} {k : Name} {dur : Int}
    (h : dbSetMeta .owner now t k to0Key (.after dur) = (t1, .ok ())) :
    ∃ s, MValue.timestamp now dur = .ok s ∧ t1 = t.update k (fun r => { r with to0 := some s }) := by
  unfold dbSetMeta at h
  rw [if_neg (by decide), if_pos rfl] at h
  simp only at h
  cases hs : MValue.timestamp now dur with
  | ok s => rw [hs] at h; exact ⟨s, rfl, (congrArg Prod.fst h).symm⟩
  | err e => rw [hs] at h; exact nomatch congrArg Prod.snd h
  | panic => rw [hs] at h; exact nomatch congrArg Prod.snd h

theorem setTo0_single {now : Nat} {k : Name} {dur s : Int} {b : Bytes} (h : MValue.timestamp now dur = .ok s) :
    dbSetMeta .owner now [⟨k, b, none, none, none⟩] k to0Key (.after dur) = ([⟨k, b, none, some s, none⟩], .ok ()) := by
  unfold dbSetMeta
  rw [if_neg (by decide), if_pos rfl]
  simp only [h, Table.update, List.map_cons, List.map_nil, if_true]

/-- A minute. -/
def minute : Nat := 60 * second

/-- Checks happen at the times `T 0`, `T 1`, …, for ever: the first at most a minute after `at`, and each at
most a minute after the one before. -/
structure Ticks (at_ : Nat) (T : Nat → Nat) : Prop where
  first : at_ ≤ T 0 ∧ T 0 ≤ at_ + minute
  next : ∀ n, T n ≤ T (n + 1) ∧ T (n + 1) ≤ T n + minute
  forever : ∀ x, ∃ n, x ≤ T n

/-- There is a check in the last minute before `e`. -/
theorem Ticks.before {at_ : Nat} {T : Nat → Nat} (h : Ticks at_ T) {e : Nat} (he : at_ + minute < e) :
    ∃ n, at_ ≤ T n ∧ T n < e ∧ e ≤ T n + minute := by
  have hle : ∀ n, at_ ≤ T n := by
    intro n
    induction n with
    | zero => exact h.first.1
    | succ n ih => have := (h.next n).1; omega
  obtain ⟨m, hm⟩ := h.forever e
  induction m with
  | zero => have := h.first.2; omega
  | succ m ih =>
    rcases Nat.lt_or_ge (T m) e with h1 | h1
    · exact ⟨m, hle m, h1, by have := (h.next m).2; omega⟩
    · exact ih h1

/-- **C41**, first half, database store. A voucher's registration was granted for `wait` seconds by a
rendezvous server whose clock said `tr` then; the owner server recorded it at its time `at`. With checks every
minute, there is a check which selects the voucher before the registration ends at the rendezvous server (at
`tr + wait`, in whole seconds), provided the grant is longer than it takes to the first check, and the answer
did not take longer than the window allows. Missing: short grants (`C41_short_violated`), late answers
(`C41_late_violated`), and the directory store (`C41_directory_violated`). -/
theorem C41_renewed_partial (hc : ∀ v, P v → de (ser v) = some v) {tr at_ wait : Nat} {T : Nat → Nat} (hT : Ticks at_ T)
    (hlong : at_ + minute < (tr / second + wait) * second) (hlate : at_ / second + 60 < tr / second + cfg.window)
    {g : Bytes} {v : Voucher R.E} {t0 t1 : Table} {r : Row} (hr : r ∈ t0) (hg : r.guid = guidText g)
    (hp : P v) (hv : r.contents = ser v) (h2 : r.to2 ≠ some true)
    (hset : (dbVStore ser de).setWait at_ t0 (guidText g) wait = (t1, .ok ()))
    {w : Nat → Table} (hw : ∀ n, TidyTable ser P (w n)) (hkeep : ∀ n, ∀ r ∈ t1, r.guid = guidText g → r ∈ w n) :
    ∃ n, at_ ≤ T n ∧ T n < (tr / second + wait) * second ∧ v ∈ toRenew (dbVStore ser de) cfg (T n) (w n) := by
  obtain ⟨n, h1, h3, h4⟩ := hT.before hlong
  refine ⟨n, h1, h3, ?_⟩
  have hset' := setTo0_some (dur := (wait : Int) * (second : Int)) hset
  rw [RvServer.timestamp_wait] at hset'
  obtain ⟨x, hx, hset'⟩ := hset'
  have hxe : ((at_ / second + wait : Nat) : Int) = x := by
    split at hx
    · exact Res.ok.inj hx
    · cases hx
  subst hxe
  have hr1 : { r with to0 := some ((at_ / second + wait : Nat) : Int) } ∈ t1 := by
    rw [hset']
    unfold Table.update
    rw [List.mem_map]
    exact ⟨r, hr, by rw [if_pos hg]⟩
  refine renew_selected hc (hw n) (hkeep n _ hr1 hg) hp hv h2 (s := ((at_ / second + wait : Nat) : Int)) rfl ?_
  have : tr / second + wait ≤ T n / second + 60 := by
    have hps := RvServer.second_pos
    have e : (tr / second + wait) * second ≤ T n + 60 * second := h4
    have := Nat.div_le_div_right (c := second) e
    rw [Nat.mul_div_cancel _ hps, Nat.add_mul_div_right _ _ hps] at this
    exact this
  omega

/-- What startup accepts. -/
theorem startupTimes_some {period window : Option Nat} {p w : Nat} (h : startupTimes period window = some (p, w)) :
    60 < w ∧ w < p := by
  unfold startupTimes at h
  simp only at h
  split at h
  · cases h
  split at h
  · cases h
  split at h
  · cases h
  rename_i h3
  split at h
  · cases h
  rename_i h4
  simp only [Option.some.injEq, Prod.mk.injEq] at h
  obtain ⟨h5, h6⟩ := h
  subst h5 h6
  refine ⟨?_, by omega⟩
  cases window with
  | none => simp
  | some x =>
    simp only [Option.isSome_some, true_and, Option.getD_some] at h3 ⊢
    omega

/-- **C41**, first half, for every accepted configuration (database store): a registration answered and recorded
within the same second, and granted for more than a minute and a second, is selected for renewal in time. -/
theorem C41_accepted_partial (hc : ∀ v, P v → de (ser v) = some v) {period window : Option Nat}
    (hstart : startupTimes period window = some (cfg.period, cfg.window)) {at_ wait : Nat} (hwait : 61 < wait)
    {T : Nat → Nat} (hT : Ticks at_ T)
    {g : Bytes} {v : Voucher R.E} {t0 t1 : Table} {r : Row} (hr : r ∈ t0) (hg : r.guid = guidText g)
    (hp : P v) (hv : r.contents = ser v) (h2 : r.to2 ≠ some true)
    (hset : (dbVStore ser de).setWait at_ t0 (guidText g) wait = (t1, .ok ()))
    {w : Nat → Table} (hw : ∀ n, TidyTable ser P (w n)) (hkeep : ∀ n, ∀ r ∈ t1, r.guid = guidText g → r ∈ w n) :
    ∃ n, at_ ≤ T n ∧ T n < (at_ / second + wait) * second ∧ v ∈ toRenew (dbVStore ser de) cfg (T n) (w n) := by
  have hw60 := (startupTimes_some hstart).1
  refine C41_renewed_partial hc hT ?_ (by omega) hr hg hp hv h2 hset hw hkeep
  have hps := RvServer.second_pos
  have h1 : at_ = second * (at_ / second) + at_ % second := (Nat.div_add_mod _ _).symm
  have h3 : at_ % second < second := Nat.mod_lt _ hps
  unfold minute
  generalize at_ / second = q at *
  generalize at_ % second = m at *
  generalize second = S at *
  subst h1
  obtain ⟨k, rfl⟩ : ∃ k, wait = 62 + k := ⟨wait - 62, by omega⟩
  have e : (q + (62 + k)) * S = S * q + 62 * S + k * S := by
    rw [Nat.add_mul, Nat.add_mul, Nat.mul_comm q S, Nat.add_assoc]
  rw [e]
  have : 0 ≤ k * S := Nat.zero_le _
  omega

/-- The defaults are accepted. -/
example : startupTimes none none = some (600, 61) := by decide

theorem minutes {at_ : Nat} (h : at_ ≤ minute) : Ticks at_ (fun n => (n + 1) * minute) where
  first := by simp only [Nat.zero_add, Nat.one_mul]; omega
  next n := by
    rw [Nat.add_mul (n + 1) 1, Nat.one_mul]
    omega
  forever x := by
    refine ⟨x, ?_⟩
    have : 0 < minute := Nat.mul_pos (by decide) RvServer.second_pos
    calc x ≤ (x + 1) * 1 := by omega
      _ ≤ (x + 1) * minute := Nat.mul_le_mul_left _ this

/-- **C41** is violated for short grants: a registration granted for at most a minute, answered and recorded at
once, ends before the first check. -/
theorem C41_short_violated (wait : Nat) (h : wait ≤ 60) :
    ∃ T, Ticks 0 T ∧ ∀ n, ¬ T n < (0 / second + wait) * second := by
  refine ⟨_, minutes (Nat.zero_le _), fun n hn => ?_⟩
  rw [Nat.zero_div, Nat.zero_add] at hn
  have h1 : wait * second ≤ minute := Nat.mul_le_mul_right _ h
  have h2 : 1 * minute ≤ (n + 1) * minute := Nat.mul_le_mul_right _ (by omega)
  rw [Nat.one_mul] at h2
  omega

theorem not_renewed {now n : Nat} (hn : n ≤ 9) (hd : now / second = n * 60) (hwin : cfg.window = 61) (k : Name) (b : Bytes) :
    toRenew (dbVStore ser de) cfg now [⟨k, b, none, some 601, none⟩] = [] := by
  unfold toRenew
  simp only [if_true, dbQueryTo2To0, hd, hwin]
  have : dbSelect [⟨k, b, none, some 601, none⟩] false (((n * 60 : Nat) : Int) + ((61 : Nat) : Int)) = [] := by
    unfold dbSelect
    rw [List.filter_cons_of_neg]
    · rfl
    · have : ¬ (601 : Int) < ((n * 60 : Nat) : Int) + ((61 : Nat) : Int) := by omega
      simp only [this, decide_false, Bool.false_and]
      decide
  rw [this]
  rfl

/-- **C41** is violated with the default configuration if the answer arrives in the next second: a voucher
registered (for the requested 600 seconds) by the rendezvous server in second 0, and recorded in second 1, is not
selected by any of the checks before the registration ends in second 600. -/
theorem C41_late_violated (hwin : cfg.window = 61) (v : Voucher R.E) (g : Bytes) (wait : Nat) (hwait : wait = 600) :
    ∃ tr T t1, tr < second ∧ Ticks second T ∧
      (dbVStore ser de).setWait second [⟨guidText g, ser v, none, none, none⟩] (guidText g) wait = (t1, .ok ()) ∧
      ∀ n, T n < (tr / second + wait) * second → toRenew (dbVStore ser de) cfg (T n) t1 = [] := by
  have hp := RvServer.second_pos
  have ht : MValue.timestamp second ((wait : Int) * (second : Int)) = .ok 601 := by
    rw [RvServer.timestamp_wait, Nat.div_self hp, hwait]
    rfl
  refine ⟨0, _, [⟨guidText g, ser v, none, some 601, none⟩], hp, minutes ?_, ?_, fun n hn => ?_⟩
  · unfold minute
    generalize second = S
    omega
  · exact setTo0_single (dur := (wait : Int) * (second : Int)) ht
  · rw [Nat.zero_div, Nat.zero_add] at hn
    have e : (n + 1) * minute = (n + 1) * 60 * second := by unfold minute; rw [Nat.mul_assoc]
    have hn9 : n + 1 ≤ 9 := by
      rw [e] at hn
      have := Nat.lt_of_mul_lt_mul_right hn
      omega
    exact not_renewed hn9 (by rw [e, Nat.mul_div_cancel _ hp]) hwin _ _

/-- **C41** is violated with the directory store: whatever the configuration, a voucher with a recorded
registration is selected only after the registration has ended. -/
theorem C41_directory_violated (hc : ∀ v, P v → de (ser v) = some v) {d : Dir} (ht : Tidy ser P d) (now now' : Nat)
    (ls : List Name) (v : Voucher R.E)
    (hv : v ∈ toReport (dirStore ser de) now ls d ++ toRenew (dirStore ser de) cfg now' d) :
    ∃ f, d (escape (guidText v.header.guid)) = some f ∧
      ∀ b, f.xattrs (xattrName to0Key) = some b → leInt b < ((now / second : Nat) : Int) := by
  have hren : toRenew (dirStore ser de) cfg now' d = [] := rfl
  rw [hren, List.append_nil] at hv
  unfold toReport at hv
  split at hv
  case h_2 => cases hv
  rename_i l hl
  change pendingDir de now d ls = .ok l at hl
  unfold pendingDir at hl
  generalize ((now / second : Nat) : Int) = q at hl ⊢
  induction ls generalizing l with
  | nil =>
    unfold query at hl
    cases hl
    cases hv
  | cons n r ih =>
    unfold query at hl
    cases hd : d n with
    | none => rw [hd] at hl; exact ih l hv hl
    | some f =>
      rw [hd] at hl
      simp only at hl
      split at hl
      · split at hl
        · cases hl
        · cases hl
        · rename_i hlt
          split at hl
          · rename_i l' hl'
            obtain ⟨w, h0, h1, h2, h3, h4⟩ := ht n f hd
            rw [h1, hc w h0] at hl
            cases hl
            rcases List.mem_cons.1 hv with rfl | hv
            · refine ⟨f, by rw [← h3]; exact hd, fun b hb => ?_⟩
              simp only [passesLt, hb] at hlt
              split at hlt
              · cases hlt
              · simpa using Res.ok.inj hlt
            · exact ih l' hv hl'
          · cases hl
          · cases hl
        · exact ih l hv hl
      · exact ih l hv hl

end Verif.OwnerServer

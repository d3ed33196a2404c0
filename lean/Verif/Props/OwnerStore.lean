import Verif.Props.OwnerServer
import Verif.Props.RvServer
/-!
Property C38 for the stores: marks on vouchers are kept, and the second part of C41: the vouchers of onboarded
devices are not registered again.
-/
namespace Verif.OwnerServer
open Verif Verif.Voucher Verif.Store Verif.Types Verif.ServiceInfo

attribute [local irreducible] second

section
variable {R : OwnerEnv} {ser : Voucher R.E → Bytes} {P : Voucher R.E → Prop} {de : Bytes → Option (Voucher R.E)}

/-! ### The directory -/

/-- Every file of the directory holds a voucher (with `P`), under the name of its GUID, without an expiry. -/
def Tidy (ser : Voucher R.E → Bytes) (P : Voucher R.E → Prop) (d : Dir) : Prop :=
  ∀ n f, d n = some f → ∃ v, P v ∧ f.content = ser v ∧ v.header.guid.length = 16 ∧ n = escape (guidText v.header.guid) ∧
    f.xattrs (xattrName ttlKey) = none

theorem Tidy.tmp {d : Dir} (h : Tidy ser P d) (n : Name) : d (tmpName n) = none := by
  cases hd : d (tmpName n) with
  | none => rfl
  | some f =>
    obtain ⟨v, _, _, _, hn, _⟩ := h _ f hd
    exact absurd hn.symm (good_ne_tmp (guidText_good _) _)

theorem Tidy.put {d : Dir} (h : Tidy ser P d) {v : Voucher R.E} (hp : P v) (hg : v.header.guid.length = 16) :
    Store.store d (guidText v.header.guid) [ser v] =
        (d.put (escape (guidText v.header.guid)) ⟨ser v, fun _ => none⟩, .ok ()) ∧
      Tidy ser P (d.put (escape (guidText v.header.guid)) ⟨ser v, fun _ => none⟩) := by
  obtain ⟨h1, h2, h3⟩ := good_not_special (guidText_good v.header.guid)
  obtain ⟨s1, s2, s3⟩ := storeAll_spec d (guidText v.header.guid) [ser v] (good_ne_tmp (guidText_good _) _)
  constructor
  · unfold Store.store
    rw [if_neg h1, if_neg (by simp only [not_or]; exact ⟨h2, h3⟩)]
    refine Prod.ext (funext fun m => ?_) rfl
    simp only [Dir.put]
    split
    · rename_i hm
      subst hm
      rw [s1]
      have : attrsOf d (tmpName (escape (guidText v.header.guid))) = fun _ => none := by
        unfold attrsOf
        rw [h.tmp]
      rw [this]
      simp
    · rename_i hm
      by_cases hm2 : m = tmpName (escape (guidText v.header.guid))
      · subst hm2
        rw [s2, h.tmp]
      · exact s3 m hm hm2
  · intro n f hf
    unfold Dir.put at hf
    split at hf
    · rename_i hn
      cases hf
      exact ⟨v, hp, rfl, hg, hn, rfl⟩
    · exact h n f hf

theorem Tidy.load {d : Dir} (h : Tidy ser P d) (now : Nat) (k : Name) : (Store.load de now d k).1 = d := by
  unfold Store.load
  cases hd : d (escape k) with
  | none => rfl
  | some f =>
    obtain ⟨_, _, _, _, ht⟩ := h _ f hd
    simp only [fileExpired, ht]
    cases decodeFile de f <;> rfl

theorem Tidy.setMeta {d : Dir} (h : Tidy ser P d) (now : Nat) (k mk : Name) (v : MValue) (hmk : mk ≠ ttlKey) :
    Tidy ser P (Store.setMeta now d k mk v).1 := by
  unfold Store.setMeta
  cases hd : d (escape k) with
  | none => exact h
  | some f =>
    simp only
    cases v.toStored now with
    | err e => exact h
    | panic => exact h
    | ok b =>
      intro n f' hf'
      simp only [Dir.put] at hf'
      split at hf'
      · rename_i hn
        obtain ⟨w, h0, h1, h2, h3, h4⟩ := h _ f hd
        cases hf'
        refine ⟨w, h0, h1, h2, by rw [hn, h3], ?_⟩
        simp only [File.setAttr]
        rw [if_neg (fun hh => hmk (xattrName_injective hh).symm)]
        exact h4
      · exact h n f' hf'

theorem Tidy.maintain {d : Dir} (h : Tidy ser P d) (now : Nat) (ls : List Name) : (Store.maintain now d ls).1 = d := by
  induction ls with
  | nil => rfl
  | cons n r ih =>
    unfold Store.maintain
    cases hd : d n with
    | none => exact ih
    | some f =>
      obtain ⟨_, _, _, _, ht⟩ := h n f hd
      simp only [ht]
      exact ih

/-- Setting an attribute changes only that attribute of that file. -/
theorem setMeta_file {now : Nat} {d : Dir} {k mk : Name} {v : MValue} {n : Name} {f : File} (hf : d n = some f) :
    ∃ f', (Store.setMeta now d k mk v).1 n = some f' ∧ f'.content = f.content ∧
      (∀ a, a ≠ xattrName mk → f'.xattrs a = f.xattrs a) ∧ (n ≠ escape k → f' = f) := by
  unfold Store.setMeta
  cases hd : d (escape k) with
  | none => exact ⟨f, hf, rfl, fun _ _ => rfl, fun _ => rfl⟩
  | some f0 =>
    simp only
    cases v.toStored now with
    | err e => exact ⟨f, hf, rfl, fun _ _ => rfl, fun _ => rfl⟩
    | panic => exact ⟨f, hf, rfl, fun _ _ => rfl, fun _ => rfl⟩
    | ok b =>
      simp only [Dir.put]
      by_cases hn : n = escape k
      · rw [if_pos hn]
        subst hn
        rw [hd] at hf
        cases hf
        refine ⟨_, rfl, rfl, fun a ha => ?_, fun hne => absurd rfl hne⟩
        simp only [File.setAttr, if_neg ha]
      · rw [if_neg hn]
        exact ⟨f, hf, rfl, fun _ _ => rfl, fun _ => rfl⟩

theorem setMeta_none {now : Nat} {d : Dir} {k mk : Name} {v : MValue} {n : Name} (hn : d n = none) :
    (Store.setMeta now d k mk v).1 n = none := by
  unfold Store.setMeta
  cases hd : d (escape k) with
  | none => exact hn
  | some f0 =>
    simp only
    cases v.toStored now with
    | err e => exact hn
    | panic => exact hn
    | ok b =>
      simp only [Dir.put]
      split
      · rename_i h; rw [h, hd] at hn; cases hn
      · exact hn

/-- What a mark comes from, in terms of arbitrary directories. -/
def DirMarks (d : Dir) (k : Name) : Prop :=
  (∃ f v, d (escape k) = some f ∧ f.xattrs (xattrName to2Key) = some v) ∨ d (tmpName (escape k)) ≠ none

theorem DirMarks.sub {d d' : Dir} (h : ∀ n f, d' n = some f → d n = some f) {k : Name} (hm : DirMarks d' k) :
    DirMarks d k := by
  rcases hm with ⟨f, v, h1, h2⟩ | h1
  · exact .inl ⟨f, v, h _ _ h1, h2⟩
  · cases hd : d' (tmpName (escape k)) with
    | none => exact absurd hd h1
    | some f => exact .inr (by rw [h _ _ hd]; simp)

theorem setMeta_back {now : Nat} {d : Dir} {k mk : Name} {v : MValue} {n : Name} {f' : File}
    (hf : (Store.setMeta now d k mk v).1 n = some f') :
    ∃ f, d n = some f ∧ (∀ a, a ≠ xattrName mk → f'.xattrs a = f.xattrs a) ∧ (n ≠ escape k → f' = f) := by
  cases hd : d n with
  | none => rw [setMeta_none hd] at hf; cases hf
  | some f =>
    obtain ⟨f2, h1, _, h3, h4⟩ := setMeta_file (now := now) (k := k) (mk := mk) (v := v) hd
    rw [hf] at h1
    cases h1
    exact ⟨f, rfl, h3, h4⟩

theorem setMeta_marks {now : Nat} {d : Dir} {k k' mk : Name} {v : MValue} (hk : Good k) (hk' : Good k')
    (h : DirMarks (Store.setMeta now d k mk v).1 k') : DirMarks d k' ∨ (k' = k ∧ mk = to2Key) := by
  rcases h with ⟨f, b, h1, h2⟩ | h1
  · obtain ⟨f0, h3, h4, h5⟩ := setMeta_back h1
    by_cases hmk : mk = to2Key
    · by_cases hkk : k' = k
      · exact .inr ⟨hkk, hmk⟩
      · have := h5 (fun he => hkk (good_escape_injective hk' hk he))
        subst this
        exact .inl (.inl ⟨_, b, h3, h2⟩)
    · rw [h4 _ (fun he => hmk (xattrName_injective he).symm)] at h2
      exact .inl (.inl ⟨f0, b, h3, h2⟩)
  · refine .inl (.inr fun hn => h1 (setMeta_none hn))

theorem dir_wait_marks {now : Nat} {d : Dir} {k k' : Name} {dur : Int} (hk : Good k) (hk' : Good k')
    (h : DirMarks (Store.setMeta now d k to0Key (.after dur)).1 k') : DirMarks d k' := by
  rcases setMeta_marks hk hk' h with h | ⟨_, h⟩
  · exact h
  · exact absurd h (by decide)

theorem dir_soundMarks : SoundMarks (dirStore ser de) DirMarks where
  empty k h := by
    rcases h with ⟨f, v, h1, _⟩ | h1
    · cases h1
    · exact h1 rfl
  load now d k k' h := DirMarks.sub (fun n f hf => RvServer.load_sub (de := de) (now := now) (k := k) hf) h
  put d k k' v hk hk' h := by
    obtain ⟨h1, h2, h3⟩ := good_not_special hk
    obtain ⟨s1, s2, s3⟩ := storeAll_spec d k [ser v] (good_ne_tmp hk _)
    have e : (Store.store d k [ser v]).1 = (storeOps k [ser v]).foldl Dir.apply d := by
      unfold Store.store
      rw [if_neg h1, if_neg (by simp only [not_or]; exact ⟨h2, h3⟩)]
    change DirMarks (Store.store d k [ser v]).1 k' at h
    rw [e] at h
    rcases h with ⟨f, b, hf, hb⟩ | ht
    · by_cases hkk : k' = k
      · subst hkk
        rw [s1] at hf
        cases hf
        refine .inr fun hn => ?_
        simp only [attrsOf, hn] at hb
        cases hb
      · rw [s3 _ (fun he => hkk (good_escape_injective hk' hk he)) (good_ne_tmp hk' _)] at hf
        exact .inl ⟨f, b, hf, hb⟩
    · by_cases hkk : k' = k
      · subst hkk
        exact absurd s2 ht
      · rw [s3 _ (fun he => good_ne_tmp hk _ he.symm) (fun he => ?_)] at ht
        · exact .inr ht
        · refine hkk (good_escape_injective hk' hk ?_)
          simp only [tmpName, List.cons_append, List.cons.injEq, true_and] at he
          exact List.append_cancel_right he
  setTo2 now d k k' hk hk' h := by
    rcases setMeta_marks hk hk' h with h | ⟨h, _⟩
    · exact .inl h
    · exact .inr h
  setWait now d k s k' hk hk' h := dir_wait_marks (dur := (s : Int) * (second : Int)) hk hk' h
  maintain now ls d k' h := DirMarks.sub (fun n f hf => RvServer.maintain_sub _ _ _ _ _ hf) h

/-! ### The database -/

theorem mem_update {t : Table} {k : Name} {u : Row → Row} {r : Row} (h : r ∈ t.update k u) :
    ∃ r0 ∈ t, r = if r0.guid = k then u r0 else r0 := by
  unfold Table.update at h
  rw [List.mem_map] at h
  obtain ⟨r0, h1, h2⟩ := h
  exact ⟨r0, h1, h2.symm⟩

theorem to0_ne_to2 : to0Key ≠ to2Key := by decide

theorem db_wait_marks {now : Nat} {t : Table} {k k' : Name} {dur : Int}
    (h : DbMarked (dbSetMeta .owner now t k to0Key (.after dur)).1 k') : DbMarked t k' := by
  simp only [dbSetMeta, if_neg to0_ne_to2, if_true] at h
  split at h
  · obtain ⟨r, hr, h1, h2⟩ := h
    obtain ⟨r0, hr0, rfl⟩ := mem_update hr
    by_cases hg : r0.guid = k
    · rw [if_pos hg] at h1 h2
      exact ⟨r0, hr0, h1, h2⟩
    · rw [if_neg hg] at h1 h2
      exact ⟨r0, hr0, h1, h2⟩
  · exact h
  · exact h

theorem db_soundMarks : SoundMarks (dbVStore ser de) DbMarked where
  empty k h := by
    obtain ⟨r, hr, _⟩ := h
    cases hr
  load now t k k' h := h
  put t k k' v hk hk' h := by
    change DbMarked (dbStore t k (ser v)).1 k' at h
    unfold dbStore at h
    split at h
    · exact h
    · obtain ⟨r, hr, h1, h2⟩ := h
      rw [List.mem_append] at hr
      rcases hr with hr | hr
      · exact ⟨r, hr, h1, h2⟩
      · simp only [List.mem_singleton] at hr
        subst hr
        cases h2
  setTo2 now t k k' hk hk' h := by
    change DbMarked (dbSetMeta .owner now t k to2Key (.flag true)).1 k' at h
    simp only [dbSetMeta, if_true] at h
    obtain ⟨r, hr, h1, h2⟩ := h
    obtain ⟨r0, hr0, rfl⟩ := mem_update hr
    by_cases hg : r0.guid = k
    · rw [if_pos hg] at h1
      exact .inr (by rw [← h1]; exact hg)
    · rw [if_neg hg] at h1 h2
      exact .inl ⟨r0, hr0, h1, h2⟩
  setWait now t k s k' hk hk' h := db_wait_marks (dur := (s : Int) * (second : Int)) h
  maintain now ls t k' h := h

/-- Every row holds a voucher (with `P`) under the text of its GUID, and there is one row for a GUID. -/
def TidyTable (ser : Voucher R.E → Bytes) (P : Voucher R.E → Prop) (t : Table) : Prop :=
  (∀ r ∈ t, ∃ v, P v ∧ r.contents = ser v ∧ v.header.guid.length = 16 ∧ r.guid = guidText v.header.guid) ∧
  t.Pairwise (fun a b => a.guid ≠ b.guid)

theorem TidyTable.put {t : Table} (h : TidyTable ser P t) {v : Voucher R.E} (hp : P v) (hg : v.header.guid.length = 16) :
    TidyTable ser P (dbStore t (guidText v.header.guid) (ser v)).1 := by
  unfold dbStore
  split
  · exact h
  rename_i hn
  simp only [List.any_eq_true, decide_eq_true_eq, not_exists, not_and] at hn
  refine ⟨fun r hr => ?_, ?_⟩
  · rw [List.mem_append, List.mem_singleton] at hr
    rcases hr with hr | rfl
    · exact h.1 r hr
    · exact ⟨v, hp, rfl, hg, rfl⟩
  · rw [List.pairwise_append]
    refine ⟨h.2, by simp, fun a ha b hb => ?_⟩
    rw [List.mem_singleton] at hb
    subst hb
    exact hn a ha

/-- Updates which leave the GUID and the content of rows alone. -/
theorem TidyTable.update {t : Table} (h : TidyTable ser P t) (k : Name) (u : Row → Row)
    (hu : ∀ r, (u r).guid = r.guid ∧ (u r).contents = r.contents) : TidyTable ser P (t.update k u) := by
  refine ⟨fun r hr => ?_, ?_⟩
  · obtain ⟨r0, hr0, rfl⟩ := mem_update hr
    obtain ⟨v, h0, h1, h2, h3⟩ := h.1 r0 hr0
    split
    · exact ⟨v, h0, by rw [(hu r0).2, h1], h2, by rw [(hu r0).1, h3]⟩
    · exact ⟨v, h0, h1, h2, h3⟩
  · unfold Table.update
    rw [List.pairwise_map]
    refine h.2.imp ?_
    intro a b hab
    have e : ∀ r : Row, (if r.guid = k then u r else r).guid = r.guid := by
      intro r
      split
      · exact (hu r).1
      · rfl
    rw [e a, e b]
    exact hab

theorem TidyTable.setTo2 {t : Table} (h : TidyTable ser P t) (now : Nat) (k : Name) :
    TidyTable ser P (dbSetMeta .owner now t k to2Key (.flag true)).1 := by
  simp only [dbSetMeta, if_true]
  exact h.update _ _ (fun _ => ⟨rfl, rfl⟩)

theorem TidyTable.setWait {t : Table} (h : TidyTable ser P t) (now : Nat) (k : Name) (dur : Int) :
    TidyTable ser P (dbSetMeta .owner now t k to0Key (.after dur)).1 := by
  simp only [dbSetMeta, if_neg to0_ne_to2, if_true]
  split
  · exact h.update _ _ (fun _ => ⟨rfl, rfl⟩)
  · exact h
  · exact h

/-- Marks stay when the other column changes. -/
theorem marked_setWait {t : Table} {k : Name} (h : DbMarked t k) (now : Nat) (k' : Name) (dur : Int) :
    DbMarked (dbSetMeta .owner now t k' to0Key (.after dur)).1 k := by
  obtain ⟨r, hr, h1, h2⟩ := h
  simp only [dbSetMeta, if_neg to0_ne_to2, if_true]
  split
  · rename_i s _
    refine ⟨if r.guid = k' then { r with to0 := some s } else r, ?_, ?_, ?_⟩
    · exact List.mem_map.2 ⟨r, hr, rfl⟩
    · split <;> exact h1
    · split <;> exact h2
  · exact ⟨r, hr, h1, h2⟩
  · exact ⟨r, hr, h1, h2⟩

theorem marked_setTo2 {t : Table} {k : Name} (h : DbMarked t k) (now : Nat) (k' : Name) :
    DbMarked (dbSetMeta .owner now t k' to2Key (.flag true)).1 k := by
  obtain ⟨r, hr, h1, h2⟩ := h
  simp only [dbSetMeta, if_true]
  refine ⟨if r.guid = k' then { r with to2 := some true } else r, List.mem_map.2 ⟨r, hr, rfl⟩, ?_, ?_⟩
  · split <;> exact h1
  · split
    · rfl
    · exact h2

theorem marked_put {t : Table} {k : Name} (h : DbMarked t k) (k' : Name) (b : Bytes) : DbMarked (dbStore t k' b).1 k := by
  unfold dbStore
  split
  · exact h
  · obtain ⟨r, hr, h1, h2⟩ := h
    exact ⟨r, List.mem_append_left _ hr, h1, h2⟩

/-- A row for a GUID stays. -/
theorem row_update {t : Table} {k k' : Name} {u : Row → Row} (hu : ∀ r, (u r).guid = r.guid)
    (h : ∃ r ∈ t, r.guid = k) : ∃ r ∈ t.update k' u, r.guid = k := by
  obtain ⟨r, hr, h1⟩ := h
  refine ⟨if r.guid = k' then u r else r, List.mem_map.2 ⟨r, hr, rfl⟩, ?_⟩
  split
  · rw [hu]; exact h1
  · exact h1

theorem row_setTo2 {t : Table} {k k' : Name} {now : Nat} (h : ∃ r ∈ t, r.guid = k) :
    ∃ r ∈ (dbSetMeta .owner now t k' to2Key (.flag true)).1, r.guid = k := by
  simp only [dbSetMeta, if_true]
  exact row_update (fun _ => rfl) h

theorem row_setWait {t : Table} {k k' : Name} {now : Nat} {dur : Int} (h : ∃ r ∈ t, r.guid = k) :
    ∃ r ∈ (dbSetMeta .owner now t k' to0Key (.after dur)).1, r.guid = k := by
  simp only [dbSetMeta, if_neg to0_ne_to2, if_true]
  split
  · exact row_update (fun _ => rfl) h
  · exact h
  · exact h

theorem row_put {t : Table} {k k' : Name} {b : Bytes} (h : ∃ r ∈ t, r.guid = k) :
    ∃ r ∈ (dbStore t k' b).1, r.guid = k := by
  unfold dbStore
  split
  · exact h
  · obtain ⟨r, hr, h1⟩ := h
    exact ⟨r, List.mem_append_left _ hr, h1⟩

/-- Selected rows are not marked. -/
theorem select_unmarked (hc : ∀ v, P v → de (ser v) = some v) {t : Table} (h : TidyTable ser P t) {max : Int}
    {l : List (Voucher R.E)} (hl : decodeRows de (dbSelect t false max) = .ok l) :
    ∀ v ∈ l, ¬ DbMarked t (guidText v.header.guid) := by
  have main : ∀ (s : Table) (l : List (Voucher R.E)), (∀ r ∈ s, r ∈ t ∧ r.to2 ≠ some true) → decodeRows de s = .ok l →
      ∀ v ∈ l, ∃ r ∈ t, r.to2 ≠ some true ∧ r.guid = guidText v.header.guid := by
    intro s
    induction s with
    | nil =>
      intro l _ hl v hv
      unfold decodeRows at hl
      cases hl
      cases hv
    | cons r rs ih =>
      intro l hs hl v hv
      obtain ⟨w, h0, h1, h2, h3⟩ := h.1 r (hs r (by simp)).1
      simp only [decodeRows, h1, hc w h0] at hl
      cases hd : decodeRows de rs with
      | err e => rw [hd] at hl; cases hl
      | panic => rw [hd] at hl; cases hl
      | ok l' =>
        rw [hd] at hl
        cases hl
        rcases List.mem_cons.1 hv with rfl | hv
        · exact ⟨r, (hs r (by simp)).1, (hs r (by simp)).2, h3⟩
        · exact ih l' (fun x hx => hs x (by simp [hx])) hd v hv
  intro v hv hm
  have hsel : ∀ r ∈ dbSelect t false max, r ∈ t ∧ r.to2 ≠ some true := by
    intro r hr
    unfold dbSelect at hr
    rw [List.mem_filter] at hr
    refine ⟨hr.1, fun h2 => ?_⟩
    rw [h2] at hr
    simp at hr
  obtain ⟨r, hr, h1, h2⟩ := main _ l hsel hl v hv
  obtain ⟨r', hr', h3, h4⟩ := hm
  have : r = r' := by
    have e1 := find_row h.2 hr
    have e2 := find_row h.2 hr'
    rw [h2] at e1
    rw [h3, e1] at e2
    exact Option.some.inj e2
  rw [this] at h1
  exact h1 h4

/-- Files selected for reporting are not marked. -/
theorem pending_unmarked (hc : ∀ v, P v → de (ser v) = some v) {d : Dir} (h : Tidy ser P d) {now : Nat} {ls : List Name}
    {l : List (Voucher R.E)} (hl : pendingDir de now d ls = .ok l) :
    ∀ v ∈ l, ¬ DirMarked d (guidText v.header.guid) := by
  unfold pendingDir at hl
  generalize [(to0Key, ((now / second : Nat) : Int))] = lts at hl
  induction ls generalizing l with
  | nil =>
    unfold query at hl
    cases hl
    intro v hv
    cases hv
  | cons n r ih =>
    unfold query at hl
    cases hd : d n with
    | none => rw [hd] at hl; exact ih hl
    | some f =>
      rw [hd] at hl
      simp only at hl
      split at hl
      · rename_i hp
        split at hl
        · cases hl
        · cases hl
        · split at hl
          · rename_i l' hl'
            obtain ⟨w, h0, h1, h2, h3, h4⟩ := h n f hd
            rw [h1, hc w h0] at hl
            cases hl
            intro v hv
            rcases List.mem_cons.1 hv with rfl | hv
            · rintro ⟨f', hf', hm⟩
              rw [← h3, hd] at hf'
              cases hf'
              simp only [passesNeq, List.any_cons, List.any_nil, Bool.or_false, hm] at hp
              revert hp
              decide +kernel
            · exact ih hl' v hv
          · cases hl
          · cases hl
        · exact ih hl
      · exact ih hl

end

section
variable {R : OwnerEnv} {c : Bool} {cfg : Config R} {ser : Voucher R.E → Bytes} {de : Bytes → Option (Voucher R.E)}
  {Id : Type} [DecidableEq Id] {idOf : List Char → Option Id} {aead : Http.Aead} {encode : Resp → Bytes}

local notation "Srv" => server R c (dirStore ser de) cfg Id idOf aead encode
local notation "Reached" => reached R c (dirStore ser de) cfg idOf aead encode
local notation "Histories" => Hist R c (dirStore ser de) cfg idOf aead encode
local notation "SrvDb" => server R c (dbVStore ser de) cfg Id idOf aead encode
local notation "ReachedDb" => reached R c (dbVStore ser de) cfg idOf aead encode
local notation "HistoriesDb" => Hist R c (dbVStore ser de) cfg idOf aead encode

/-! ### C38 -/

/-- **C38** with the directory store. -/
theorem C38_directory (h : Histories) (g : Bytes) (hg : g.length = 16) (hm : DirMarked (Reached h).world (guidText g)) :
    ∃ h1 rq h2 i n n7 ks, h = h1 ++ .request rq :: h2 ∧ DoneWith R c (dirStore ser de) cfg idOf aead encode h1 rq i n ks ∧
      Proven R c (dirStore ser de) cfg idOf aead encode h1 i g n n7 ks := by
  obtain ⟨f, h1, h2⟩ := hm
  exact C38_sound_store dir_soundMarks h g hg (.inl ⟨f, _, h1, h2⟩)

/-- **C38** with the database store. -/
theorem C38_database (h : HistoriesDb) (g : Bytes) (hg : g.length = 16) (hm : DbMarked (ReachedDb h).world (guidText g)) :
    ∃ h1 rq h2 i n n7 ks, h = h1 ++ .request rq :: h2 ∧ DoneWith R c (dbVStore ser de) cfg idOf aead encode h1 rq i n ks ∧
      Proven R c (dbVStore ser de) cfg idOf aead encode h1 i g n n7 ks :=
  C38_sound_store db_soundMarks h g hg hm

theorem replay_tidy (σ : Http.St Srv) (hσ : Tidy ser P σ.world) (h : Histories)
    (hi : ∀ v, .internal (.import v) ∈ h → P v) : Tidy ser P (Http.replay (move (dirStore ser de) cfg) σ h).world := by
  refine replay_world (B := dirStore ser de) (Tidy ser P) ?_ ?_ ?_ ?_ h ?_ σ hσ
  · intro now w k hw
    rw [show ((dirStore ser de).load now w k).1 = w from hw.load now k]
    exact hw
  · intro now w g hw
    exact hw.setMeta now _ to2Key _ (by decide)
  · intro now w g s hw
    exact hw.setMeta now _ to0Key _ (by decide)
  · intro now ls w hw
    rw [show (dirStore ser de).maintain now ls w = w from hw.maintain now ls]
    exact hw
  · intro w v hv hg hw
    rw [show ((dirStore ser de).put w (guidText v.header.guid) v).1 = _ from congrArg Prod.fst (hw.put (hi v hv) hg).1]
    exact (hw.put (hi v hv) hg).2

theorem reached_tidy (h : Histories) (hi : ∀ v, .internal (.import v) ∈ h → P v) : Tidy ser P (Reached h).world :=
  replay_tidy (Http.start (dirStore ser de).empty) (fun n f hf => by cases hf) h hi

theorem replay_tidyTable (σ : Http.St SrvDb) (hσ : TidyTable ser P σ.world) (h : HistoriesDb)
    (hi : ∀ v, .internal (.import v) ∈ h → P v) : TidyTable ser P (Http.replay (move (dbVStore ser de) cfg) σ h).world := by
  refine replay_world (B := dbVStore ser de) (TidyTable ser P) ?_ ?_ ?_ ?_ h ?_ σ hσ
  · intro now w k hw
    exact hw
  · intro now w g hw
    exact hw.setTo2 now _
  · intro now w g s hw
    exact hw.setWait now _ _
  · intro now ls w hw
    exact hw
  · intro w v hv hg hw
    exact hw.put (hi v hv) hg

theorem reached_tidyTable (h : HistoriesDb) (hi : ∀ v, .internal (.import v) ∈ h → P v) :
    TidyTable ser P (ReachedDb h).world :=
  replay_tidyTable (Http.start (dbVStore ser de).empty) ⟨fun r hr => (by cases hr), List.Pairwise.nil⟩ h hi

/-- A voucher that was loaded from the directory has a file. -/
theorem load_file {d : Dir} {now : Nat} {k : Name} {v : Voucher R.E} (h : (Store.load de now d k).2 = .ok (some v)) :
    d (escape k) ≠ none := by
  intro hn
  unfold Store.load at h
  rw [hn] at h
  cases h

/-- Files of vouchers stay. -/
theorem file_stays (σ : Http.St Srv) (hσ : Tidy ser (fun _ => True) σ.world) (n : Name) (hn : σ.world n ≠ none) (h : Histories) :
    (Http.replay (move (dirStore ser de) cfg) σ h).world n ≠ none := by
  have hset : ∀ (w : Dir) now k mk v, w n ≠ none → (Store.setMeta now w k mk v).1 n ≠ none := by
    intro w now k mk v hn
    cases hw : w n with
    | none => exact absurd hw hn
    | some f =>
      obtain ⟨f', h1, _⟩ := setMeta_file (now := now) (k := k) (mk := mk) (v := v) hw
      rw [h1]
      simp
  have := replay_world (B := dirStore ser de) (cfg := cfg) (c := c) (idOf := idOf) (aead := aead) (encode := encode)
    (fun d => Tidy ser (fun _ => True) d ∧ d n ≠ none) ?_ ?_ ?_ ?_ h ?_ σ ⟨hσ, hn⟩
  · exact this.2
  · intro now w k hw
    rw [show ((dirStore ser de).load now w k).1 = w from hw.1.load now k]
    exact hw
  · intro now w g hw
    exact ⟨hw.1.setMeta now _ to2Key _ (by decide), hset _ _ _ _ _ hw.2⟩
  · intro now w g s hw
    exact ⟨hw.1.setMeta now _ to0Key _ (by decide), hset _ _ _ _ _ hw.2⟩
  · intro now ls w hw
    rw [show (dirStore ser de).maintain now ls w = w from hw.1.maintain now ls]
    exact hw
  · intro w v _ hg hw
    rw [show ((dirStore ser de).put w (guidText v.header.guid) v).1 = _ from congrArg Prod.fst (hw.1.put trivial hg).1]
    refine ⟨(hw.1.put trivial hg).2, ?_⟩
    simp only [Dir.put]
    split
    · simp
    · exact hw.2

/-- Setting the mark of a voucher which has a file. -/
theorem setTo2_marks {d : Dir} {now : Nat} {k : Name} (h : d (escape k) ≠ none) :
    DirMarked (Store.setMeta now d k to2Key (.flag true)).1 k := by
  unfold Store.setMeta
  cases hd : d (escape k) with
  | none => exact absurd hd h
  | some f =>
    refine ⟨f.setAttr (xattrName to2Key) (some "true".toUTF8.toList), ?_, ?_⟩
    · simp [MValue.toStored, Dir.put]
    · simp [File.setAttr]

/-- **C38** (directory, converse): when the server confirms Done, the voucher of the device which had proven
itself in this session is marked. -/
theorem C38_directory_marked (h : Histories) (rq : Http.Request Srv) (b : Bytes) (tok : Option (List Char))
    (hr : (Http.step (Reached h) rq).2 = .ok .to2Done2 b tok) :
    ∃ i g n n7 ks, DoneWith R c (dirStore ser de) cfg idOf aead encode h rq i n ks ∧
      Proven R c (dirStore ser de) cfg idOf aead encode h i g n n7 ks ∧
      aead.encrypt ks.sevk rq.iv (encode (.done2 n7)) = some b ∧
      DirMarked (Reached (h ++ [.request rq])).world (guidText g) := by
  obtain ⟨i, g, n, n7, ks, hd, hp, he, hs⟩ := C38_reply h rq b tok hr
  refine ⟨i, g, n, n7, ks, hd, hp, he, ?_⟩
  obtain ⟨h1, rq1, h2, v, k, b1, kx, cs, flag, now, hh, p1, p2, p3, p4, _⟩ := hp
  have e : (Reached (h ++ [.request rq])).world = (Http.step (Reached h) rq).1.world := by
    unfold reached
    rw [Http.replay_snoc]
    rfl
  rw [e]
  have hw := congrArg Prod.fst hs
  simp only at hw
  rw [← hw]
  refine setTo2_marks ?_
  rw [hh]
  unfold reached
  rw [Http.replay_append]
  exact file_stays _ (reached_tidy h1 (fun _ _ => trivial)) _ (load_file p4) _

/-- Rows of vouchers stay. -/
theorem row_stays (σ : Http.St SrvDb) (k : Name) (hk : ∃ r ∈ σ.world, r.guid = k) (h : HistoriesDb) :
    ∃ r ∈ (Http.replay (move (dbVStore ser de) cfg) σ h).world, r.guid = k := by
  refine replay_world (B := dbVStore ser de) (fun t : Table => ∃ r ∈ t, r.guid = k) ?_ ?_ ?_ ?_ h ?_ σ hk
  · intro now w k hw
    exact hw
  · intro now w g hw
    exact row_setTo2 (now := now) hw
  · intro now w g s hw
    exact row_setWait hw
  · intro now ls w hw
    exact hw
  · intro w v _ hg hw
    exact row_put hw

theorem dbLoad_row {t : Table} {k : Name} {v : Voucher R.E} (h : dbLoad de t k = .ok (some v)) : ∃ r ∈ t, r.guid = k := by
  unfold dbLoad at h
  split at h
  · cases h
  · rename_i r hf
    have h1 := List.mem_of_find?_eq_some hf
    have h2 := List.find?_some hf
    exact ⟨r, h1, by simpa using h2⟩

theorem db_setTo2_marks {t : Table} {now : Nat} {k : Name} (h : ∃ r ∈ t, r.guid = k) :
    DbMarked (dbSetMeta .owner now t k to2Key (.flag true)).1 k := by
  obtain ⟨r, hr, h1⟩ := h
  simp only [dbSetMeta, if_true]
  refine ⟨_, List.mem_map.2 ⟨r, hr, rfl⟩, ?_, ?_⟩ <;> rw [if_pos h1]
  exact h1

/-- **C38** (database, converse). -/
theorem C38_database_marked (h : HistoriesDb) (rq : Http.Request SrvDb) (b : Bytes) (tok : Option (List Char))
    (hr : (Http.step (ReachedDb h) rq).2 = .ok .to2Done2 b tok) :
    ∃ i g n n7 ks, DoneWith R c (dbVStore ser de) cfg idOf aead encode h rq i n ks ∧
      Proven R c (dbVStore ser de) cfg idOf aead encode h i g n n7 ks ∧
      aead.encrypt ks.sevk rq.iv (encode (.done2 n7)) = some b ∧
      DbMarked (ReachedDb (h ++ [.request rq])).world (guidText g) := by
  obtain ⟨i, g, n, n7, ks, hd, hp, he, hs⟩ := C38_reply h rq b tok hr
  refine ⟨i, g, n, n7, ks, hd, hp, he, ?_⟩
  obtain ⟨h1, rq1, h2, v, k, b1, kx, cs, flag, now, hh, p1, p2, p3, p4, _⟩ := hp
  have e : (ReachedDb (h ++ [.request rq])).world = (Http.step (ReachedDb h) rq).1.world := by
    unfold reached
    rw [Http.replay_snoc]
    rfl
  rw [e]
  have hw := congrArg Prod.fst hs
  simp only at hw
  rw [← hw]
  refine db_setTo2_marks ?_
  rw [hh]
  unfold reached
  rw [Http.replay_append]
  exact row_stays _ _ (dbLoad_row p4) _

/-! ### C41: onboarded devices -/

/-- **C41** (second half, directory store): in every history, the vouchers which are reported are not those of
devices marked as onboarded. -/
theorem C41_onboarded_directory (h : Histories) (hc : ∀ v, .internal (.import v) ∈ h → de (ser v) = some v) (now now' : Nat) (ls : List Name)
    (v : Voucher R.E) (hv : v ∈ toReport (dirStore ser de) now ls (Reached h).world ++
      toRenew (dirStore ser de) cfg now' (Reached h).world) :
    ¬ DirMarked (Reached h).world (guidText v.header.guid) := by
  rw [List.mem_append] at hv
  rcases hv with hv | hv
  · unfold toReport at hv
    split at hv
    · rename_i l hl
      exact pending_unmarked hc (reached_tidy h (fun _ hv => hv)) hl v hv
    · cases hv
  · cases hv

/-- **C41** (second half, database store). -/
theorem C41_onboarded_database (h : HistoriesDb) (hc : ∀ v, .internal (.import v) ∈ h → de (ser v) = some v) (now now' : Nat) (ls : List Name)
    (v : Voucher R.E) (hv : v ∈ toReport (dbVStore ser de) now ls (ReachedDb h).world ++
      toRenew (dbVStore ser de) cfg now' (ReachedDb h).world) :
    ¬ DbMarked (ReachedDb h).world (guidText v.header.guid) := by
  rw [List.mem_append] at hv
  rcases hv with hv | hv
  · unfold toReport at hv
    split at hv
    · rename_i l hl
      exact select_unmarked hc (reached_tidyTable h (fun _ hv => hv)) hl v hv
    · cases hv
  · unfold toRenew at hv
    split at hv
    · split at hv
      · rename_i l hl
        exact select_unmarked hc (reached_tidyTable h (fun _ hv => hv)) hl v hv
      · cases hv
    · cases hv

/-- Marks stay in the directory as long as the voucher is not imported again. -/
theorem C38_directory_stays (h1 h2 : Histories) (g : Bytes) (hg : g.length = 16)
    (hm : DirMarked (Reached h1).world (guidText g))
    (hno : ∀ v, .internal (.import v) ∈ h2 → v.header.guid ≠ g) :
    DirMarked (Reached (h1 ++ h2)).world (guidText g) := by
  have hset : ∀ (w : Dir) now k mk v, mk ≠ to2Key → DirMarked w (guidText g) →
      DirMarked (Store.setMeta now w k mk v).1 (guidText g) := by
    rintro w now k mk v hmk ⟨f, h1, h2⟩
    obtain ⟨f', h3, _, h4, _⟩ := setMeta_file (now := now) (k := k) (mk := mk) (v := v) h1
    refine ⟨f', h3, ?_⟩
    rw [h4 _ (fun hh => hmk (xattrName_injective hh).symm)]
    exact h2
  have hset2 : ∀ (w : Dir) now g', DirMarked w (guidText g) →
      DirMarked (Store.setMeta now w (guidText g') to2Key (.flag true)).1 (guidText g) := by
    rintro w now g' ⟨f, h1, h2⟩
    obtain ⟨f', h3, _, _, h4⟩ :=
      setMeta_file (now := now) (k := guidText g') (mk := to2Key) (v := .flag true) h1
    by_cases he : escape (guidText g) = escape (guidText g')
    · rw [good_escape_injective (guidText_good g) (guidText_good g') he]
      refine setTo2_marks ?_
      rw [← he, h1]
      simp
    · refine ⟨f', h3, ?_⟩
      rw [h4 he]
      exact h2
  have := replay_world (B := dirStore ser de) (cfg := cfg) (c := c) (idOf := idOf) (aead := aead) (encode := encode)
    (fun d => Tidy ser (fun _ => True) d ∧ DirMarked d (guidText g)) ?_ ?_ ?_ ?_ h2 ?_ (Reached h1)
    ⟨reached_tidy h1 (fun _ _ => trivial), hm⟩
  · unfold reached at *
    rw [Http.replay_append]
    exact this.2
  · intro now w k hw
    rw [show ((dirStore ser de).load now w k).1 = w from hw.1.load now k]
    exact hw
  · intro now w g hw
    exact ⟨hw.1.setMeta now _ to2Key _ (by decide), hset2 _ now _ hw.2⟩
  · intro now w g s hw
    exact ⟨hw.1.setMeta now _ to0Key _ (by decide), hset _ _ _ _ _ (by decide) hw.2⟩
  · intro now ls w hw
    rw [show (dirStore ser de).maintain now ls w = w from hw.1.maintain now ls]
    exact hw
  · intro w v hv hg' hw
    rw [show ((dirStore ser de).put w (guidText v.header.guid) v).1 = _ from congrArg Prod.fst (hw.1.put trivial hg').1]
    refine ⟨(hw.1.put trivial hg').2, ?_⟩
    obtain ⟨_, f, h1, h2⟩ := hw
    refine ⟨f, ?_, h2⟩
    simp only [Dir.put]
    rw [if_neg fun he => ?_]
    · exact h1
    · exact hno v hv (guidText_injective _ _ hg' hg (good_escape_injective (guidText_good _) (guidText_good _) he.symm))

/-- Marks stay in the database. -/
theorem C38_database_stays (h1 h2 : HistoriesDb) (g : Bytes) (hm : DbMarked (ReachedDb h1).world (guidText g)) :
    DbMarked (ReachedDb (h1 ++ h2)).world (guidText g) := by
  unfold reached at *
  rw [Http.replay_append]
  refine replay_world (B := dbVStore ser de) (fun t : Table => DbMarked t (guidText g)) ?_ ?_ ?_ ?_ h2 ?_ _ hm
  · intro now w k hw
    exact hw
  · intro now w g' hw
    exact marked_setTo2 hw now _
  · intro now w g' s hw
    exact marked_setWait hw _ _ _
  · intro now ls w hw
    exact hw
  · intro w v _ _ hw
    exact marked_put hw _ _

/-- **C41** (second half, over time, directory store): once the server has confirmed Done for a device, its
voucher is never reported again, unless the voucher is imported again. -/
theorem C41_never_again_directory (h : Histories) (rq : Http.Request Srv) (b : Bytes)
    (tok : Option (List Char)) (hr : (Http.step (Reached h) rq).2 = .ok .to2Done2 b tok) :
    ∃ i g n n7 ks, Proven R c (dirStore ser de) cfg idOf aead encode h i g n n7 ks ∧
      ∀ h2 : Histories, (∀ v, .internal (.import v) ∈ h2 → v.header.guid ≠ g) →
        (∀ v, .internal (.import v) ∈ h ++ .request rq :: h2 → de (ser v) = some v) →
        ∀ now now' ls, ∀ v ∈ toReport (dirStore ser de) now ls (Reached (h ++ .request rq :: h2)).world ++
          toRenew (dirStore ser de) cfg now' (Reached (h ++ .request rq :: h2)).world, v.header.guid ≠ g := by
  obtain ⟨i, g, n, n7, ks, _, hp, _, hm⟩ := C38_directory_marked h rq b tok hr
  refine ⟨i, g, n, n7, ks, hp, fun h2 hno hc now now' ls v hv he => ?_⟩
  have hg : g.length = 16 := by
    obtain ⟨h1, rq1, h2, v, k, b1, kx, cs, flag, now, hh, p1, p2, p3, p4, _⟩ := hp
    obtain ⟨_, _, _, _, _, _, _, _, _, _, _, _, _, _, hg, _⟩ := p3
    exact hg
  have := C38_directory_stays (h ++ [.request rq]) h2 g hg hm hno
  rw [List.append_assoc] at this
  refine C41_onboarded_directory _ hc now now' ls v hv ?_
  rw [he]
  exact this

/-- **C41** (second half, over time, database store): once the server has confirmed Done for a device, its
voucher is never reported again. -/
theorem C41_never_again_database (h : HistoriesDb) (rq : Http.Request SrvDb) (b : Bytes)
    (tok : Option (List Char)) (hr : (Http.step (ReachedDb h) rq).2 = .ok .to2Done2 b tok) :
    ∃ i g n n7 ks, Proven R c (dbVStore ser de) cfg idOf aead encode h i g n n7 ks ∧
      ∀ h2 : HistoriesDb, (∀ v, .internal (.import v) ∈ h ++ .request rq :: h2 → de (ser v) = some v) →
        ∀ now now' ls,
        ∀ v ∈ toReport (dbVStore ser de) now ls (ReachedDb (h ++ .request rq :: h2)).world ++
          toRenew (dbVStore ser de) cfg now' (ReachedDb (h ++ .request rq :: h2)).world, v.header.guid ≠ g := by
  obtain ⟨i, g, n, n7, ks, _, hp, _, hm⟩ := C38_database_marked h rq b tok hr
  refine ⟨i, g, n, n7, ks, hp, fun h2 hc now now' ls v hv he => ?_⟩
  have := C38_database_stays (h ++ [.request rq]) h2 g hm
  rw [List.append_assoc] at this
  refine C41_onboarded_database _ hc now now' ls v hv ?_
  rw [he]
  exact this

end

end Verif.OwnerServer

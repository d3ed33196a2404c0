import Verif.Spec.Settings
/-!
C82: which of several configuration files counts.
-/
namespace Verif.Settings
open Verif

/-! ### Maps -/

theorem field_put_self (l : List (String × Val)) (k : String) (x : Val) : field (put l k x) k = some x := by
  induction l with
  | nil => simp [put, field]
  | cons a l ih =>
    obtain ⟨k', v⟩ := a
    unfold put
    split
    · simp [field, *]
    · simp [field, *]

theorem field_put_ne (l : List (String × Val)) {k i : String} (h : k ≠ i) (x : Val) : field (put l k x) i = field l i := by
  induction l with
  | nil => simp [put, field, h]
  | cons a l ih =>
    obtain ⟨k', v⟩ := a
    unfold put
    split
    · subst k'
      simp [field, h]
    · simp [field, ih]

theorem field_none {l : List (String × Val)} {k : String} (h : k ∉ l.map (·.1)) : field l k = none := by
  induction l with
  | nil => rfl
  | cons a l ih =>
    obtain ⟨k', v⟩ := a
    simp only [List.map_cons, List.mem_cons, not_or] at h
    unfold field
    rw [if_neg (fun e => h.1 e.symm), ih h.2]

theorem keys_put (l : List (String × Val)) (k : String) (x : Val) :
    (put l k x).map (·.1) = if k ∈ l.map (·.1) then l.map (·.1) else l.map (·.1) ++ [k] := by
  induction l with
  | nil => simp [put]
  | cons a l ih =>
    obtain ⟨k', v⟩ := a
    unfold put
    by_cases h : k' = k
    · simp [h]
    · rw [if_neg h, List.map_cons, ih]
      by_cases h' : k ∈ l.map (·.1)
      · rw [if_pos h', if_pos (by simp only [List.map_cons, List.mem_cons]; exact .inr h')]
        rfl
      · rw [if_neg h', if_neg (by simp only [List.map_cons, List.mem_cons, not_or]; exact ⟨fun e => h e.symm, h'⟩)]
        rfl

theorem nodup_put {l : List (String × Val)} (h : (l.map (·.1)).Nodup) (k : String) (x : Val) : ((put l k x).map (·.1)).Nodup := by
  rw [keys_put]
  split
  · exact h
  · rename_i h'
    exact List.nodup_append.2 ⟨h, by simp, by rintro a ha b hb rfl; exact h' (by rwa [List.mem_singleton.1 hb] at ha)⟩

theorem wf_put {l : List (String × Val)} (h : WfAll l) (k : String) {x : Val} (hx : x.Wf) : WfAll (put l k x) := by
  induction l with
  | nil => exact ⟨hx, trivial⟩
  | cons a l ih =>
    obtain ⟨k', v⟩ := a
    unfold put
    split
    · exact ⟨hx, h.2⟩
    · exact ⟨h.1, ih h.2⟩

theorem wf_field {l : List (String × Val)} (h : WfAll l) {k : String} {v : Val} (hv : field l k = some v) : v.Wf := by
  induction l with
  | nil => cases hv
  | cons a l ih =>
    obtain ⟨k', v'⟩ := a
    unfold field at hv
    split at hv
    · cases hv; exact h.1
    · exact ih h.2 hv

theorem wf_fields {v : Val} (h : v.Wf) : (v.fields.map (·.1)).Nodup ∧ WfAll v.fields := by
  cases v with
  | leaf s => exact ⟨List.nodup_nil, trivial⟩
  | table l => exact h

/-! ### Merging -/

mutual
theorem wf_setV {root : Val} (hr : root.Wf) (k : String) : ∀ (v : Val), v.Wf → (setV root k v).Wf
  | .leaf s, _ => by
    unfold setV
    exact ⟨nodup_put (wf_fields hr).1 _ _, wf_put (wf_fields hr).2 _ trivial⟩
  | .table l, h => by
    unfold setV
    refine ⟨nodup_put (wf_fields hr).1 _ _, wf_put (wf_fields hr).2 _ (wf_setAll ?_ l h.2)⟩
    cases hf : field root.fields k with
    | none => exact ⟨List.nodup_nil, trivial⟩
    | some v => exact wf_field (wf_fields hr).2 hf
theorem wf_setAll {t : Val} (ht : t.Wf) : ∀ (l : List (String × Val)), WfAll l → (setAll t l).Wf
  | [], _ => by unfold setAll; exact ht
  | (k, v) :: r, h => by
    unfold setAll
    exact wf_setAll (wf_setV ht k v h.1) r h.2
end

theorem at_fields (v : Val) (k : String) (p : List String) : v.at (k :: p) = match field v.fields k with | some x => x.at p | none => none := by
  cases v with
  | leaf s => rfl
  | table l => rfl

theorem setV_table (root : Val) (k : String) (v : Val) : ∃ l, setV root k v = .table l := by
  cases v with
  | leaf s => exact ⟨_, by unfold setV; rfl⟩
  | table l => exact ⟨_, by unfold setV; rfl⟩

theorem at_table_nil (l : List (String × Val)) : (Val.table l).at [] = none := by
  unfold Val.at; rfl

/-- What one word after another amounts to. -/
def over (x : Says) (o : Option String) : Option String :=
  match x with
  | .silent => o
  | .gives s => some s
  | .excludes => none

theorem setAll_table_nil (l : List (String × Val)) (r : List (String × Val)) : (setAll (.table l) r).at [] = none := by
  induction r generalizing l with
  | nil => unfold setAll; exact at_table_nil l
  | cons a r ih =>
    obtain ⟨k, v⟩ := a
    unfold setAll
    obtain ⟨l', e⟩ := setV_table (.table l) k v
    rw [e]
    exact ih l'

mutual
/-- One entry of a map. -/
theorem setV_at (root : Val) (k i : String) (p : List String) : ∀ (v : Val), v.Wf →
    (setV root k v).at (i :: p) = if k = i then over (v.says p) (root.at (i :: p)) else root.at (i :: p)
  | .leaf s, _ => by
    unfold setV
    rw [at_fields, at_fields, Val.fields]
    by_cases h : k = i
    · subst h
      rw [field_put_self, if_pos rfl]
      cases p with
      | nil => rfl
      | cons => rfl
    · rw [field_put_ne _ h, if_neg h]
  | .table l, hw => by
    unfold setV
    rw [at_fields, at_fields, Val.fields]
    by_cases h : k = i
    · subst h
      rw [field_put_self, if_pos rfl]
      dsimp only
      rw [setAll_at _ p l hw]
      cases field root.fields k with
      | some x => rfl
      | none =>
        have : (Val.table []).at p = none := by cases p <;> rfl
        rw [Option.getD_none, this]
    · rw [field_put_ne _ h, if_neg h]

/-- **Merging**: what the incoming map says counts; if it says nothing, what was there before. -/
theorem setAll_at (t : Val) (p : List String) : ∀ (l : List (String × Val)), (Val.table l).Wf → (setAll t l).at p = over ((Val.table l).says p) (t.at p)
  | [], _ => by
    unfold setAll
    cases p <;> rfl
  | (k, v) :: r, hw => by
    obtain ⟨hn, hw1, hw2⟩ := hw
    have hr : (Val.table r).Wf := ⟨(List.nodup_cons.1 hn).2, hw2⟩
    have hk : field r k = none := field_none (List.nodup_cons.1 hn).1
    unfold setAll
    cases p with
    | nil =>
      obtain ⟨l', e⟩ := setV_table t k v
      rw [e, setAll_table_nil]
      rfl
    | cons i p =>
      rw [setAll_at _ (i :: p) r hr, setV_at t k i p v hw1]
      have e1 : (Val.table r).says (i :: p) = match field r i with | some v => v.says p | none => .silent := by cases r <;> rfl
      have e2 : (Val.table ((k, v) :: r)).says (i :: p) = match field ((k, v) :: r) i with | some v => v.says p | none => .silent := rfl
      rw [e1, e2]
      by_cases h : k = i
      · subst h
        rw [hk, if_pos rfl]
        unfold field
        rw [if_pos rfl]
        rfl
      · rw [if_neg h]
        rw [show field ((k, v) :: r) i = field r i from if_neg h]
end

/-! ### Files one after another -/

theorem at_says (v : Val) (p : List String) : over (v.says p) none = v.at p := by
  induction p generalizing v with
  | nil =>
    cases v with
    | leaf s => rfl
    | table l => cases l <;> rfl
  | cons k p ih =>
    cases v with
    | leaf s => rfl
    | table l =>
      have e1 : (Val.table l).says (k :: p) = match field l k with | some v => v.says p | none => .silent := by cases l <;> rfl
      have e2 : (Val.table l).at (k :: p) = match field l k with | some v => v.at p | none => none := rfl
      rw [e1, e2]
      cases field l k with
      | none => rfl
      | some v => exact ih v

theorem over_lastWord (f : Val) (r : List Val) (p : List String) (o : Option String) :
    over (lastWord p (f :: r)) o = over (lastWord p r) (over (f.says p) o) := by
  rw [show lastWord p (f :: r) = (match lastWord p r with | .silent => f.says p | x => x) from rfl]
  cases lastWord p r <;> rfl

/-- The settings that the files at these paths hold, missing ones left out. -/
def found (y : Sys) (ps : List String) : List Val := ps.filterMap fun p => match y.file p with | .holds l => some (.table l) | _ => none

theorem collectAll_at {y : Sys} (hy : ∀ p l, y.file p = .holds l → (Val.table l).Wf) {req : Bool} (p : List String) :
    ∀ (ps : List String) (c v : Val), c.Wf → collectAll y req c ps = .ok v → v.Wf ∧ v.at p = over (lastWord p (found y ps)) (c.at p) := by
  intro ps
  induction ps with
  | nil =>
    intro c v hc h
    cases h
    exact ⟨hc, rfl⟩
  | cons f ps ih =>
    intro c v hc h
    unfold collectAll collect at h
    unfold found
    rw [List.filterMap_cons]
    cases hf : y.file f with
    | missing =>
      rw [hf] at h
      cases req with
      | true => cases h
      | false =>
        have h : collectAll y false (setAll c []) ps = .ok v := h
        unfold setAll at h
        exact ih c v hc h
    | malformed =>
      rw [hf] at h
      cases h
    | holds l =>
      rw [hf] at h
      have hl := hy f l hf
      obtain ⟨h1, h2⟩ := ih (setAll c l) v (wf_setAll hc l hl.2) h
      refine ⟨h1, ?_⟩
      dsimp only
      rw [over_lastWord, h2, setAll_at c p l hl]
      rfl

theorem setAll_table (l r : List (String × Val)) : ∃ l', setAll (.table l) r = .table l' := by
  induction r generalizing l with
  | nil => exact ⟨l, by unfold setAll; rfl⟩
  | cons a r ih =>
    obtain ⟨k, x⟩ := a
    unfold setAll
    obtain ⟨l', e⟩ := setV_table (.table l) k x
    rw [e]
    exact ih l'

theorem table_fields {y : Sys} {req : Bool} : ∀ {ps : List String} {c : Val} {v : Val}, (∃ l, c = .table l) → collectAll y req c ps = .ok v → ∃ l, v = .table l := by
  intro ps
  induction ps with
  | nil => intro c v hc h; cases h; exact hc
  | cons f ps ih =>
    intro c v hc h
    unfold collectAll at h
    split at h
    · obtain ⟨l, rfl⟩ := hc
      exact ih (setAll_table _ _) h
    · cases h
    · cases h

theorem lastWord_append (p : List String) (a b : List Val) (o : Option String) :
    over (lastWord p (a ++ b)) o = over (lastWord p b) (over (lastWord p a) o) := by
  induction a generalizing o with
  | nil => rfl
  | cons f a ih => rw [List.cons_append, over_lastWord, ih, over_lastWord]

theorem mapM_id {os : List (Option String)} {ps : List String} (hm : os.mapM id = some ps) : os = ps.map some := by
  induction os generalizing ps with
  | nil => simp at hm; subst hm; rfl
  | cons a os ih =>
    cases a with
    | none => simp at hm
    | some a =>
      simp only [List.mapM_cons, id, Option.bind_eq_bind, Option.bind_some, Option.pure_def, Option.bind_eq_some_iff] at hm
      obtain ⟨r, hr, e⟩ := hm
      cases e
      rw [ih hr]
      rfl

/-! ### C82 -/

/-- The files that are looked at, the strongest last: those found by the pattern, in the order of the `glob` crate (by name), then
the file of `/etc`, then that of `/usr/share`. Where the pattern and the file of `/etc` come from the environment, these count
instead. -/
def order (component : String) (dirEnv confEnv : Option String) (glob : String → List String) : List String :=
  glob (dirEnv.getD ("/etc/fdo/" ++ component ++ ".conf.d/*.yml")) ++ [confEnv.getD ("/etc/fdo/" ++ component ++ ".yml"),
    "/usr/share/fdo/" ++ component ++ ".yml"]

/-- **C82.** If a server starts with settings, then each setting has the value which the last file that says something about it
gives; files that are silent about it do not matter; and what no file gives, or what the last word excludes, is not set. -/
theorem C82_last_word {y : Sys} (hy : ∀ p l, y.file p = .holds l → (Val.table l).Wf) {component : String} {v : Val}
    (h : settingsFor y component = .ok v) : ∃ glob : List String, y.glob (pattern y component) = some (glob.map some) ∧
      ∀ p s, v.at p = some s ↔
        lastWord p (found y (order component (y.env (confDirEnv component)) (y.env (confEnv component)) fun _ => glob)) = .gives s := by
  unfold settingsFor at h
  cases hg : y.glob (pattern y component) with
  | none => rw [hg] at h; cases h
  | some os =>
    rw [hg] at h
    dsimp only at h
    cases hm : os.mapM id with
    | none => rw [hm] at h; cases h
    | some ps =>
      rw [hm] at h
      have hps : os = ps.map some := mapM_id hm
      refine ⟨ps, by rw [hps], fun p s => ?_⟩
      dsimp only at h
      cases hd : collectAll y true (.table []) ps with
      | err e => rw [hd] at h; cases h
      | panic => rw [hd] at h; cases h
      | ok dir =>
        rw [hd, Res.bind_ok] at h
        have w0 : (Val.table []).Wf := ⟨List.nodup_nil, trivial⟩
        obtain ⟨w1, -⟩ := collectAll_at hy p _ _ _ w0 hd
        obtain ⟨l, rfl⟩ := table_fields ⟨[], rfl⟩ hd
        have e0 : (Val.table []).at p = none := by cases p <;> rfl
        have e1 := (collectAll_at hy p _ _ _ w0 hd).2
        have e2 := (collectAll_at hy p _ _ _ (wf_setAll w0 l w1.2) h).2
        rw [setAll_at _ p l w1, e0, at_says, e1, e0] at e2
        rw [e2, ← lastWord_append]
        have e3 : found y ps ++ found y [etcPath y component, sharePath component] =
            found y (order component (y.env (confDirEnv component)) (y.env (confEnv component)) fun _ => ps) := by
          unfold found
          rw [← List.filterMap_append]
          rfl
        rw [e3]
        generalize lastWord p _ = x
        cases x with
        | silent => exact ⟨nofun, nofun⟩
        | gives s' => exact ⟨fun h => by cases h; rfl, fun h => by cases h; rfl⟩
        | excludes => exact ⟨nofun, nofun⟩

theorem mapM_some (ps : List String) : (ps.map some).mapM id = some ps := by
  induction ps with
  | nil => rfl
  | cons a ps ih => simp [ih]

theorem collectAll_ok {y : Sys} {req : Bool} : ∀ (ps : List String) (c : Val),
    (∃ v, collectAll y req c ps = .ok v) ↔ ∀ p ∈ ps, y.file p ≠ .malformed ∧ (req = true → y.file p ≠ .missing) := by
  intro ps
  induction ps with
  | nil => exact fun c => ⟨fun _ _ h => absurd h List.not_mem_nil, fun _ => ⟨c, rfl⟩⟩
  | cons f ps ih =>
    intro c
    unfold collectAll collect
    rw [List.forall_mem_cons]
    cases hf : y.file f with
    | missing =>
      cases req with
      | true => exact ⟨fun ⟨_, h⟩ => (by cases h), fun h => absurd rfl (h.1.2 rfl)⟩
      | false =>
        refine (ih (setAll c [])).trans ⟨fun h => ⟨⟨nofun, nofun⟩, h⟩, fun h => h.2⟩
    | malformed => exact ⟨fun ⟨_, h⟩ => (by cases h), fun h => absurd rfl h.1.1⟩
    | holds l => exact (ih (setAll c l)).trans ⟨fun h => ⟨⟨nofun, fun _ => nofun⟩, h⟩, fun h => h.2⟩

/-- **C82** (start): settings are found exactly if the pattern is fine, all files it finds can be read, and none of the files
looked at is malformed. -/
theorem C82_starts {y : Sys} {component : String} : (∃ v, settingsFor y component = .ok v) ↔
    ∃ glob : List String, y.glob (pattern y component) = some (glob.map some) ∧ (∀ p ∈ glob, y.file p ≠ .missing) ∧
      ∀ p ∈ order component (y.env (confDirEnv component)) (y.env (confEnv component)) (fun _ => glob), y.file p ≠ .malformed := by
  have key : ∀ ps, y.glob (pattern y component) = some (List.map some ps) → ((∃ v, settingsFor y component = .ok v) ↔
      (∀ p ∈ ps, y.file p ≠ .missing) ∧
      ∀ p ∈ order component (y.env (confDirEnv component)) (y.env (confEnv component)) (fun _ => ps), y.file p ≠ .malformed) := by
    intro ps hg
    have e : settingsFor y component = (collectAll y true (.table []) ps >>= fun dir =>
        collectAll y false (setAll (.table []) dir.fields) [etcPath y component, sharePath component]) := by
      unfold settingsFor
      rw [hg]
      dsimp only
      rw [mapM_some]
    rw [e]
    have ho : ∀ p, p ∈ order component (y.env (confDirEnv component)) (y.env (confEnv component)) (fun _ => ps) ↔
        p ∈ ps ∨ p ∈ [etcPath y component, sharePath component] := fun p => List.mem_append
    constructor
    · rintro ⟨v, h⟩
      cases hd : collectAll y true (.table []) ps with
      | err e => rw [hd] at h; cases h
      | panic => rw [hd] at h; cases h
      | ok dir =>
        rw [hd, Res.bind_ok] at h
        have h1 := (collectAll_ok ps _).1 ⟨_, hd⟩
        have h2 := (collectAll_ok _ _).1 ⟨_, h⟩
        refine ⟨fun p hp => (h1 p hp).2 rfl, fun p hp => ?_⟩
        rcases (ho p).1 hp with hp | hp
        · exact (h1 p hp).1
        · exact (h2 p hp).1
    · rintro ⟨h1, h2⟩
      obtain ⟨dir, hd⟩ := (collectAll_ok (y := y) (req := true) ps (.table [])).2 fun p hp => ⟨h2 p ((ho p).2 (.inl hp)), fun _ => h1 p hp⟩
      rw [hd, Res.bind_ok]
      exact (collectAll_ok _ _).2 fun p hp => ⟨h2 p ((ho p).2 (.inr hp)), nofun⟩
  constructor
  · rintro ⟨v, h⟩
    have : ∃ ps, y.glob (pattern y component) = some (List.map some ps) := by
      unfold settingsFor at h
      cases hg : y.glob (pattern y component) with
      | none => rw [hg] at h; cases h
      | some os =>
        rw [hg] at h
        dsimp only at h
        cases hm : os.mapM id with
        | none => rw [hm] at h; cases h
        | some ps => exact ⟨ps, by rw [mapM_id hm]⟩
    obtain ⟨ps, hg⟩ := this
    exact ⟨ps, hg, (key ps hg).1 ⟨v, h⟩⟩
  · rintro ⟨ps, hg, h⟩
    exact (key ps hg).2 h

/-- **C82 is violated**: the file that the administrator names in the environment does not have the last word. Whatever a file in
`/usr/share/fdo` says about a setting counts instead. -/
theorem C82_named_file_overridden_violated {y : Sys} (hy : ∀ p l, y.file p = .holds l → (Val.table l).Wf) {component named : String} {v : Val}
    (_henv : y.env (confEnv component) = some named) {mine theirs : List (String × Val)} (_hn : y.file named = .holds mine)
    (hs : y.file ("/usr/share/fdo/" ++ component ++ ".yml") = .holds theirs) (h : settingsFor y component = .ok v)
    {p : List String} {s s' : String} (_hm : (Val.table mine).says p = .gives s) (ht : (Val.table theirs).says p = .gives s') : v.at p = some s' := by
  obtain ⟨glob, -, h1⟩ := C82_last_word hy h
  rw [h1]
  unfold order found
  rw [List.filterMap_append, List.filterMap_cons, List.filterMap_cons, hs]
  have hl : ∀ (a : List Val) (f : Val), f.says p = .gives s' → lastWord p (a ++ [f]) = .gives s' := by
    intro a f hf
    induction a with
    | nil => exact hf
    | cons g a ih =>
      rw [List.cons_append, show lastWord p (g :: (a ++ [f])) = (match lastWord p (a ++ [f]) with | .silent => g.says p | x => x) from rfl, ih]
  dsimp only
  split
  · exact hl _ _ ht
  · rename_i e
    rw [List.append_cons]
    exact hl _ _ ht

/-- **C82 is violated**: if the file that the administrator names cannot be found or read, the server starts without it and without
an error, if others can be read. -/
theorem C82_named_file_missing_violated {y : Sys} {component named : String} (_henv : y.env (confEnv component) = some named)
    (_hn : y.file named = .missing) {glob : List String} (hg : y.glob (pattern y component) = some (glob.map some))
    (hf : ∀ p ∈ glob, ∃ l, y.file p = .holds l) (hs : y.file ("/usr/share/fdo/" ++ component ++ ".yml") ≠ .malformed) :
    ∃ v, settingsFor y component = .ok v := by
  refine C82_starts.2 ⟨glob, hg, fun p hp => ?_, fun p hp => ?_⟩
  · obtain ⟨l, e⟩ := hf p hp
    rw [e]
    nofun
  · rcases List.mem_append.1 hp with hp | hp
    · obtain ⟨l, e⟩ := hf p hp
      rw [e]
      nofun
    · rw [_henv] at hp
      simp only [List.mem_cons, List.not_mem_nil, or_false, Option.getD_some] at hp
      rcases hp with rfl | rfl
      · rw [_hn]
        nofun
      · exact hs

/-- **C82 is violated**: if the variable for the directory of configuration files names a directory, which as a pattern finds
just this directory, the server does not start, whatever the directory holds. -/
theorem C82_directory_violated {y : Sys} {component dir : String} (henv : y.env (confDirEnv component) = some dir)
    (hg : y.glob dir = some [some dir]) (hd : y.file dir = .missing) : settingsFor y component = .err .notFound := by
  unfold settingsFor pattern
  rw [henv, Option.getD_some, hg]
  show (collectAll y true (.table []) [dir] >>= _) = _
  unfold collectAll collect
  rw [hd]
  rfl

end Verif.Settings

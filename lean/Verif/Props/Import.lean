import Verif.Spec.Import
import Verif.Lemmas.ReadBack
import Verif.Lemmas.Hoare
import Verif.Lemmas.Proc
import Verif.Props.OwnerTool
import Verif.Props.Store
/-!
C76: vouchers fetched from a manufacturer's server and put into the owner's database.
-/
namespace Verif.Import
open Verif Verif.Fs Verif.Voucher Verif.OwnerTool Verif.Store

variable {T : Tool} {c : Bool}

/-- Looking up the voucher's GUID in the table finds its raw form, and nothing has been done for it yet. -/
def Found (t : Table) (v : Voucher T.E) (raw : Bytes) : Prop :=
  t.find? (fun r => r.guid = guidText v.header.guid) = some (fresh (guidText v.header.guid) raw)

/-- The table has grown by rows for vouchers held by files, with GUIDs not in the table before. -/
def Grown (T : Tool) (c : Bool) (files : Path → Option Bytes) (src : Path → Prop) (t : Table) (new : List Row) : Prop :=
  (∀ r ∈ new, (∀ o ∈ t, o.guid ≠ r.guid) ∧
    ∃ p v raw, src p ∧ Holds T c files p v raw ∧ r = fresh (guidText v.header.guid) raw) ∧
  new.Pairwise (fun a b => a.guid ≠ b.guid)

/-- At any time: files are as before, the table has grown. -/
def Kept (T : Tool) (c : Bool) (src : Path → Prop) (w s : World) : Prop :=
  s.files = w.files ∧ ∃ new, s.table = w.table ++ new ∧ Grown T c w.files src w.table new

theorem Kept.refl (src : Path → Prop) (w : World) : Kept T c src w w :=
  ⟨rfl, [], by simp, by simp [Grown], .nil⟩

theorem Grown.add {files : Path → Option Bytes} {src : Path → Prop} {t new : List Row} (h : Grown T c files src t new)
    {p : Path} (hp : src p) {v : Voucher T.E} {raw : Bytes} (hh : Holds T c files p v raw)
    (hn : ∀ r ∈ t ++ new, r.guid ≠ guidText v.header.guid) :
    Grown T c files src t (new ++ [fresh (guidText v.header.guid) raw]) := by
  refine ⟨fun r hr => ?_, ?_⟩
  · rcases List.mem_append.1 hr with hr | hr
    · exact h.1 r hr
    · cases List.mem_singleton.1 hr
      exact ⟨fun o ho => hn o (List.mem_append_left _ ho), p, v, raw, hp, hh, rfl⟩
  · refine List.pairwise_append.2 ⟨h.2, List.pairwise_singleton _ _, fun a ha b hb => ?_⟩
    cases List.mem_singleton.1 hb
    exact hn a (List.mem_append_right _ ha)

/-- What one entry comes to, from `s` to `s'`. -/
def Done (T : Tool) (c : Bool) (files : Path → Option Bytes) (p : Path) (s s' : World) : Res Fail (Option Reason) → Prop
  | .ok none => ∃ v raw, Holds T c files p v raw ∧ (∀ r ∈ s.table, r.guid ≠ guidText v.header.guid) ∧
      s' = { s with table := s.table ++ [fresh (guidText v.header.guid) raw] }
  | _ => s' = s

theorem putOne_done {src : Path → Prop} {w s : World} {p : Path} {v : Voucher T.E} {b : Bytes} (hp : src p)
    (hk : Kept T c src w s) (hb : w.files p = some b) (hv : fromPemOrRaw T c b = .ok v) :
    Hoare Step (Kept T c src w) (fun x => x = s) (putOne T v)
      (fun r s' => Kept T c src w s' ∧ Done T c w.files p s s' r) := by
  unfold putOne
  refine Hoare.bind (M := fun _ x => x = s) ?_ (fun _ _ h => h.1) fun a => ?_
  · exact Hoare.ask (fun _ h => h ▸ hk) (fun r x h => by
      cases r with
      | ok a => exact (show x = s from h) ▸ hk
      | err e => exact h.1
      | panic => exact h.1) (fun x a x' h1 h2 => (show x' = x from h2).trans h1)
  · match (a : Conn) with
    | .noPool => exact Hoare.ret (fun _ h => h ▸ hk) (fun x h => ⟨h ▸ hk, h⟩)
    | .refused => exact Hoare.ret (fun _ h => h ▸ hk) (fun x h => ⟨h ▸ hk, h⟩)
    | .opened =>
      simp only [insertOv]
      cases hs : Voucher.serialize v with
      | err e => exact Hoare.ret (fun _ h => h ▸ hk) (fun x h => ⟨h ▸ hk, h⟩)
      | panic => exact Hoare.ret (fun _ h => h ▸ hk) (fun x h => ⟨h ▸ hk, h⟩)
      | ok raw =>
        refine Hoare.act (fun _ h => h ▸ hk) fun a => ?_
        have key : ∀ (a : Bool) x, (∃ y, y = s ∧ Step y ⟨.insert (guidText v.header.guid) raw, a⟩ x) →
            Kept T c src w x ∧ Done T c w.files p s x (.ok (if a then none else some .insert)) := by
          rintro a x ⟨y, rfl, h⟩
          rcases h with ⟨ha, hn, rfl⟩ | ⟨ha, rfl⟩
          · obtain ⟨hf, new, ht, hg⟩ := hk
            have hh : Holds T c w.files p v raw := ⟨b, hb, hv, hs⟩
            refine ⟨⟨hf, _, ?_, hg.add hp hh (ht ▸ hn)⟩, ?_⟩
            · show y.table ++ _ = _
              rw [ht, List.append_assoc]
            · rw [show a = true from ha]
              exact ⟨v, raw, hh, hn, rfl⟩
          · refine ⟨hk, ?_⟩
            rw [show a = false from ha]
            rfl
        exact Hoare.ret (fun x h => (key a x h).1) (fun x h => key a x h)

theorem importOne_done {src : Path → Prop} {w s : World} {p : Path} (hp : src p) (hk : Kept T c src w s) :
    Hoare Step (Kept T c src w) (fun x => x = s) (importOne T c p)
      (fun r s' => Kept T c src w s' ∧ Done T c w.files p s s' r) := by
  unfold importOne
  refine Hoare.bind (M := fun a x => x = s ∧ ∀ b, a = some b → w.files p = some b) ?_ (fun _ _ h => h.1) fun a => ?_
  · refine Hoare.ask (fun _ h => h ▸ hk) (fun r x h => ?_) (fun x a x' h1 h2 => ?_)
    · cases r with
      | ok a => exact (show x = s from h.1) ▸ hk
      | err e => exact h.1
      | panic => exact h.1
    · subst h1
      have h2 : x' = x ∧ ∀ b, a = some b → x.files p = some b := h2
      exact ⟨h2.1, fun b hb => hk.1 ▸ h2.2 b hb⟩
  · match (a : Option Bytes) with
    | none => exact Hoare.ret (fun _ h => h.1 ▸ hk) (fun x h => ⟨h.1 ▸ hk, h.1⟩)
    | some b =>
      unfold importRead
      cases hv : fromPemOrRaw T c b with
      | err e =>
        simp only [hv]
        exact Hoare.ret (fun _ h => h.1 ▸ hk) (fun x h => ⟨h.1 ▸ hk, h.1⟩)
      | panic =>
        simp only [hv]
        exact Hoare.ret (fun _ h => h.1 ▸ hk) (fun x h => ⟨h.1 ▸ hk, h.1⟩)
      | ok v =>
        simp only [hv]
        intro x t x' hx
        exact putOne_done hp hk (hx.2 b rfl) hv x t x' hx.1

/-- What the loop comes to, from `s` to `s'`. -/
structure Looped (T : Tool) (c : Bool) (files : Path → Option Bytes) (l : List (Option Path)) (s s' : World) (rep : Report) :
    Prop where
  table : ∃ new, s'.table = s.table ++ new ∧ new.length + rep.length = l.length
  listed : ∀ e ∈ rep, e.1 ∈ l
  unread : none ∈ l → ∃ r, (none, r) ∈ rep
  each : ∀ p, some p ∈ l → (∃ r, (some p, r) ∈ rep) ∨ ∃ v raw, Holds T c files p v raw ∧ Found s'.table v raw

theorem found_append {t : Table} {v : Voucher T.E} {raw : Bytes} (h : Found t v raw) (u : Table) : Found (t ++ u) v raw := by
  unfold Found at h ⊢
  rw [List.find?_append, h]
  rfl

theorem found_new {t : Table} {v : Voucher T.E} {raw : Bytes} (h : ∀ r ∈ t, r.guid ≠ guidText v.header.guid) :
    Found (t ++ [fresh (guidText v.header.guid) raw]) v raw := by
  unfold Found
  rw [List.find?_append, List.find?_eq_none.2 (fun r hr => by simpa using h r hr)]
  simp [fresh]

theorem importEach_looped (src : Path → Prop) {w : World} (l : List (Option Path)) (hl : ∀ p, some p ∈ l → src p) :
    ∀ s, Kept T c src w s →
    Hoare Step (Kept T c src w) (fun x => x = s) (importEach T c l)
      (fun r s' => Kept T c src w s' ∧ ∀ rep, r = .ok rep → Looped T c w.files l s s' rep) := by
  induction l with
  | nil =>
    intro s hk
    refine Hoare.ret (fun _ h => h ▸ hk) fun x h => ⟨h ▸ hk, ?_⟩
    subst h
    rintro rep h
    cases h
    exact ⟨⟨[], by simp, rfl⟩, by simp, by simp, by simp⟩
  | cons e l ih =>
    intro s hk
    have ih := ih fun p hp => hl p (List.mem_cons_of_mem _ hp)
    cases e with
    | none =>
      refine Hoare.bind (M := fun rep x => Kept T c src w x ∧ Looped T c w.files l s x rep) ?_ (fun _ _ h => h.1) fun rep => ?_
      · refine (ih s hk).post fun r x h => ?_
        cases r with
        | ok rep => exact ⟨h.1, h.2 rep rfl⟩
        | err e => exact ⟨h.1, nofun⟩
        | panic => exact ⟨h.1, nofun⟩
      · refine Hoare.ret (fun _ h => h.1) fun x h => ⟨h.1, ?_⟩
        obtain ⟨_, ⟨new, h1, h2⟩, h3, h4, h5⟩ := h
        rintro rep' h
        cases h
        refine ⟨⟨new, h1, ?_⟩, fun e he => ?_, fun _ => ⟨.entry, by simp [report]⟩, fun p hp => ?_⟩
        · simp [report]; omega
        · rcases List.mem_append.1 he with he | he
          · cases List.mem_singleton.1 he
            simp
          · exact List.mem_cons_of_mem _ (h3 e he)
        · rcases h5 p (by simpa using hp) with ⟨r, hr⟩ | h
          · exact .inl ⟨r, List.mem_append_right _ hr⟩
          · exact .inr h
    | some p =>
      refine Hoare.bind (M := fun o x => Kept T c src w x ∧ Done T c w.files p s x (.ok o)) ?_ (fun _ _ h => h.1) fun o => ?_
      · refine (importOne_done (hl p (by simp)) hk).post fun r x h => ?_
        cases r with
        | ok rep => exact h
        | err e => exact ⟨h.1, nofun⟩
        | panic => exact ⟨h.1, nofun⟩
      · intro x t x' hx
        refine (Hoare.bind (M := fun rep y => Kept T c src w y ∧ Looped T c w.files l x y rep)
          (P := fun y => y = x)
          (Q := fun r s' => Kept T c src w s' ∧ ∀ rep, r = .ok rep → Looped T c w.files (some p :: l) s s' rep)
          ?_ (fun _ _ h => h.1) fun rep => ?_) x t x' rfl
        · refine (ih x hx.1).post fun r x h => ?_
          cases r with
          | ok rep => exact ⟨h.1, h.2 rep rfl⟩
          | err e => exact ⟨h.1, nofun⟩
          | panic => exact ⟨h.1, nofun⟩
        · refine Hoare.ret (fun _ h => h.1) fun y h => ⟨h.1, ?_⟩
          obtain ⟨_, ⟨new, h1, h2⟩, h3, h4, h5⟩ := h
          rintro rep' h
          cases h
          have hlist : ∀ e ∈ report (some p) o ++ rep, e.1 ∈ some p :: l := by
            intro e he
            rcases List.mem_append.1 he with he | he
            · cases o with
              | none => cases he
              | some r =>
                cases List.mem_singleton.1 he
                simp
            · exact List.mem_cons_of_mem _ (h3 e he)
          have hun : none ∈ some p :: l → ∃ r, (none, r) ∈ report (some p) o ++ rep := by
            intro hn
            obtain ⟨r, hr⟩ := h4 (by simpa using hn)
            exact ⟨r, List.mem_append_right _ hr⟩
          have hrest : ∀ q, some q ∈ l → (∃ r, (some q, r) ∈ report (some p) o ++ rep) ∨
              ∃ v raw, Holds T c w.files q v raw ∧ Found y.table v raw := by
            intro q hq
            rcases h5 q hq with ⟨r, hr⟩ | h
            · exact .inl ⟨r, List.mem_append_right _ hr⟩
            · exact .inr h
          cases o with
          | none =>
            obtain ⟨v, raw, hh, hn, hxe⟩ := hx.2
            refine ⟨⟨fresh (guidText v.header.guid) raw :: new, ?_, ?_⟩, hlist, hun, fun q hq => ?_⟩
            · rw [h1, hxe]; simp
            · simp [report]; omega
            · rcases List.mem_cons.1 hq with hq | hq
              · cases hq
                refine .inr ⟨v, raw, hh, ?_⟩
                rw [h1, hxe]
                exact found_append (found_new hn) new
              · exact hrest q hq
          | some r =>
            have hxe : x = s := hx.2
            refine ⟨⟨new, by rw [h1, hxe], ?_⟩, hlist, hun, fun q hq => ?_⟩
            · simp [report]; omega
            · rcases List.mem_cons.1 hq with hq | hq
              · cases hq
                exact .inl ⟨r, by simp [report]⟩
              · exact hrest q hq

theorem importFile_imported {source : Path} {t : Trace sig} {rep : Report} {w w' : World}
    (h : Prog.Ends (importFile T c source) t (.ok rep)) (hr : Runs Step w t w') :
    rep = [] ∧ ∃ v raw, Holds T c w.files source v raw ∧ Found w'.table v raw ∧ Kept T c (fun p => p = source) w w' ∧
      w'.table.length = w.table.length + 1 := by
  obtain ⟨a, t2, rfl, h2⟩ := Proc.ends_ask_bind h
  cases hr with
  | cons hs hr =>
  obtain ⟨e, hb⟩ := (show _ = w ∧ ∀ b, a = some b → w.files source = some b from hs)
  cases e
  obtain ⟨b, hb', h3⟩ := Proc.ends_some_bind h2
  have hb := hb b hb'
  cases hv : fromPemOrRaw T c b with
  | err e => rw [hv] at h3; exact (Proc.ends_fail h3).elim
  | panic => rw [hv] at h3; cases (Prog.ends_ret h3).2
  | ok v =>
    rw [hv] at h3
    obtain ⟨o, t3, t4, rfl, h4, h5⟩ := Proc.ends_bind (p := putOne T v) h3
    obtain ⟨ho, h6⟩ := Proc.ends_check_bind h5
    have ho : o = none := by simpa using ho
    subst ho
    obtain ⟨rfl, rfl⟩ := Proc.ends_pure h6
    rw [List.append_nil] at hr
    obtain ⟨hk, v', raw, hh, hn, he⟩ := ((putOne_done (src := fun p => p = source) rfl (Kept.refl _ w) hb hv) w t3 w' rfl hr).2 _ h4
    refine ⟨rfl, v', raw, hh, ?_, hk, ?_⟩
    · rw [he]; exact found_new hn
    · rw [he]; simp

/-- **C76** (import), what holds. If the command succeeds, then for a directory every entry listed is named in what is
printed, or it is the file of a voucher now found in the table under its GUID as one for which nothing was done yet; each
entry counts once; rows are only added, and only for vouchers of the listed files whose GUID was not there. For a single file,
its voucher is now found in the table. Missing: what is printed does not show in the exit status (`C76_status_violated`), one
short file ends the import (`C76_abort_violated`), and what follows the first voucher in a file is lost
(`C76_trailing_violated`). -/
theorem C76_imported_partial {source : Path} {t : Trace sig} {rep : Report} {w w' : World}
    (h : Prog.Ends (importVouchers T c source) t (.ok rep)) (hr : Runs Step w t w') :
    (∃ l, ⟨.list source, some l⟩ ∈ t ∧ Looped T c w.files l w w' rep ∧ Kept T c (fun p => some p ∈ l) w w') ∨
    (rep = [] ∧ ∃ v raw, Holds T c w.files source v raw ∧ Found w'.table v raw ∧ Kept T c (fun p => p = source) w w' ∧
      w'.table.length = w.table.length + 1) := by
  unfold importVouchers at h
  obtain ⟨d, t1, rfl, h1⟩ := Proc.ends_ask_bind h
  cases hr with
  | cons hs hr =>
  cases (show _ = w from hs)
  cases hd : (d : Bool) with
  | true =>
    subst hd
    obtain ⟨a, t2, rfl, h2⟩ := Proc.ends_ask_bind (show Prog.Ends (importDir T c source) _ _ from h1)
    cases hr with
    | cons hs hr =>
    cases (show _ = w from hs)
    obtain ⟨l, hl, h3⟩ := Proc.ends_some_bind h2
    have hl : a = some l := hl
    subst hl
    have := ((importEach_looped (T := T) (c := c) (fun p => some p ∈ l) l (fun _ h => h) w (Kept.refl _ _)) w t2 w' rfl hr).2 _ h3
    exact .inl ⟨l, by simp, this.2 _ rfl, this.1⟩
  | false =>
    subst hd
    exact .inr (importFile_imported h1 hr)

/-- **C76** (import): wherever the command stops, files are as before and so are the rows that were there; further rows are
for vouchers in files, with GUIDs which were not there. -/
theorem C76_kept {source : Path} {t : Trace sig} {w w' : World} (h : Prog.Does (importVouchers T c source) t)
    (hr : Runs Step w t w') : Kept T c (fun _ => True) w w' := by
  unfold importVouchers at h
  rcases Proc.does_ask_bind h with rfl | ⟨d, t1, rfl, h1⟩
  · cases hr; exact Kept.refl _ _
  cases hr with
  | cons hs hr =>
  cases (show _ = w from hs)
  cases hd : (d : Bool) with
  | true =>
    subst hd
    rcases Proc.does_ask_bind (show Prog.Does (importDir T c source) _ from h1) with rfl | ⟨a, t2, rfl, h2⟩
    · cases hr; exact Kept.refl _ _
    cases hr with
    | cons hs hr =>
    cases (show _ = w from hs)
    rcases Proc.does_some_bind h2 with rfl | ⟨l, _, h3⟩
    · cases hr; exact Kept.refl _ _
    exact ((importEach_looped (T := T) (c := c) (fun _ => True) l (fun _ _ => trivial) w (Kept.refl _ _)) w t2 w' rfl hr).1 h3
  | false =>
    subst hd
    rcases Proc.does_ask_bind (show Prog.Does (importFile T c source) _ from h1) with rfl | ⟨a, t2, rfl, h2⟩
    · cases hr; exact Kept.refl _ _
    cases hr with
    | cons hs hr =>
    obtain ⟨e, hb⟩ := (show _ = w ∧ ∀ b, a = some b → w.files source = some b from hs)
    cases e
    rcases Proc.does_some_bind h2 with rfl | ⟨b, hb', h3⟩
    · cases hr; exact Kept.refl _ _
    have hb := hb b hb'
    cases hv : fromPemOrRaw T c b with
    | err e => rw [hv] at h3; cases Proc.does_fail h3; cases hr; exact Kept.refl _ _
    | panic => rw [hv] at h3; cases (Prog.steps_ret h3.choose_spec).1; cases hr; exact Kept.refl _ _
    | ok v =>
      rw [hv] at h3
      have put := putOne_done (src := fun _ => True) (p := source) trivial (Kept.refl _ w) hb hv
      rcases Proc.does_bind (p := putOne T v) h3 with h4 | ⟨o, t3, t4, rfl, h4, h5⟩
      · exact (put w t2 w' rfl hr).1 h4
      · rcases Proc.does_check_bind h5 with rfl | ⟨_, h6⟩
        · rw [List.append_nil] at hr
          exact ((put w t3 w' rfl hr).2 _ h4).1
        · cases Proc.does_pure h6
          rw [List.append_nil] at hr
          exact ((put w t3 w' rfl hr).2 _ h4).1

/-- How the owner's server reads a row. -/
def decode (T : Tool) (c : Bool) (b : Bytes) : Option (Voucher T.E) :=
  match Voucher.deserialize c b with
  | .ok (v, _) => some v
  | _ => none

theorem read_raw {b raw : Bytes} {v : Voucher T.E} (h : fromPemOrRaw T c b = .ok v) (hs : Voucher.serialize v = .ok raw) :
    Voucher.deserialize c raw = .ok (v, []) := by
  have key : ∀ x, fromRaw T c x = .ok v → Voucher.deserialize c raw = .ok (v, []) := by
    intro x hx
    unfold fromRaw at hx
    obtain ⟨⟨v', r⟩, h1, h2⟩ := Res.bind_eq_ok.1 hx
    cases h2
    simpa using read_again h1 hs []
  match b, h with
  | x :: y :: r, h =>
    simp only [fromPemOrRaw] at h
    split at h
    · unfold fromPem at h
      simp only [List.isEmpty_cons, Bool.false_eq_true, if_false] at h
      split at h
      · cases h
      · split at h
        · cases h
        · exact key _ h
    · exact key _ h

/-- **C76** (import) with C31: a voucher imported this way is what the owner's server gets for its GUID, and it is among those
the server registers next (as long as the server can read its rows), whatever the time. -/
theorem C76_due {files : Path → Option Bytes} {p : Path} {v : Voucher T.E} {raw : Bytes} {t : Table}
    (h : Holds T c files p v raw) (hf : Found t v raw) :
    dbLoad (decode T c) t (guidText v.header.guid) = .ok (some v) ∧
    ((∀ r ∈ t, decode T c r.contents ≠ none) → ∀ now, ∃ l, pendingDb (decode T c) now t = .ok l ∧ v ∈ l) := by
  obtain ⟨b, _, hv, hs⟩ := h
  have hd : decode T c raw = some v := by
    unfold decode
    rw [read_raw hv hs]
  refine ⟨?_, fun hall now => ?_⟩
  · unfold dbLoad
    rw [show t.find? (fun r => r.guid = guidText v.header.guid) = _ from hf]
    simp only [fresh, hd]
  · obtain ⟨l, h1, h2⟩ := C31_database (decode T c) now t hall
    refine ⟨l, h1, (h2 v).2 ⟨_, List.mem_of_find?_eq_some hf, hd, ?_, ?_⟩⟩
    · simp [fresh]
    · simp [fresh]

theorem exec_bind {S : Sig} {σ ε α β : Type} (env : σ → (e : S.Eff) → σ × S.Ans e) (s : σ) (p : Proc S ε α)
    (f : α → Proc S ε β) : Prog.exec env s (p >>= f : Proc S ε β) =
      match Prog.exec env s p with
      | (s', .ok a) => Prog.exec env s' (f a)
      | (s', .err e) => (s', .err e)
      | (s', .panic) => (s', .panic) := by
  change Prog.exec env s (Prog.bind p _) = _
  induction p generalizing s with
  | ret a => cases a <;> rfl
  | act e k ih => exact ih _ _

theorem importOne_willing {entries : List (Option Path)} {reply : Nat × Bytes} {w : World} {p : Path} {v : Voucher T.E}
    {raw : Bytes} (h : Holds T c w.files p v raw) (hn : ∀ r ∈ w.table, r.guid ≠ guidText v.header.guid) :
    Prog.exec (willing entries reply) w (importOne T c p) =
      ({ w with table := w.table ++ [fresh (guidText v.header.guid) raw] }, .ok none) := by
  obtain ⟨b, hb, hv, hs⟩ := h
  have h2 : Prog.exec (willing entries reply) w (importOne T c p) = Prog.exec (willing entries reply) w (putOne T v) := by
    show Prog.exec (willing entries reply) w (importRead T c (w.files p)) = _
    rw [hb]
    simp only [importRead, hv]
  have h3 : Prog.exec (willing entries reply) w (insertOv T v) =
      ({ w with table := w.table ++ [fresh (guidText v.header.guid) raw] }, .ok true) := by
    unfold insertOv
    rw [hs]
    have : w.table.any (fun r => r.guid = guidText v.header.guid) = false := by
      simpa using hn
    show ((if w.table.any (fun r => r.guid = guidText v.header.guid) then (w, false) else _ : World × Bool).1,
      Res.ok (if w.table.any (fun r => r.guid = guidText v.header.guid) then (w, false) else _ : World × Bool).2) = _
    rw [this]
    rfl
  rw [h2]
  show Prog.exec (willing entries reply) w
    (insertOv T v >>= fun ok => pure (if ok then none else some .insert) : Proc sig Fail (Option Reason)) = _
  rw [exec_bind, h3]
  rfl

theorem importEach_willing {entries : List (Option Path)} {reply : Nat × Bytes} (l : List Path) :
    ∀ w : World, (∀ p ∈ l, ∃ v raw, Holds T c w.files p v raw) →
    (∀ p ∈ l, ∀ v raw, Holds T c w.files p v raw → ∀ r ∈ w.table, r.guid ≠ guidText v.header.guid) →
    l.Pairwise (fun p q => ∀ v raw v' raw', Holds T c w.files p v raw → Holds T c w.files q v' raw' →
      guidText v.header.guid ≠ guidText v'.header.guid) →
    (Prog.exec (willing entries reply) w (importEach T c (l.map some))).2 = .ok [] := by
  induction l with
  | nil => intros; rfl
  | cons p l ih =>
    intro w h1 h2 h3
    obtain ⟨v, raw, hh⟩ := h1 p (by simp)
    have ho := importOne_willing (entries := entries) (reply := reply) hh (h2 p (by simp) v raw hh)
    rw [List.pairwise_cons] at h3
    have := ih { w with table := w.table ++ [fresh (guidText v.header.guid) raw] }
      (fun q hq => h1 q (List.mem_cons_of_mem _ hq))
      (fun q hq v' raw' hq' r hr => by
        rcases List.mem_append.1 hr with hr | hr
        · exact h2 q (List.mem_cons_of_mem _ hq) v' raw' hq' r hr
        · cases List.mem_singleton.1 hr
          exact h3.1 q hq v raw v' raw' hh hq')
      h3.2
    show (Prog.exec _ w (importOne T c p >>= fun o => importEach T c (l.map some) >>= fun r =>
      pure (report (some p) o ++ r) : Proc sig Fail Report)).2 = _
    rw [exec_bind, ho]
    simp only
    rw [exec_bind]
    generalize Prog.exec (willing entries reply) _ (importEach T c (l.map some)) = x at this
    obtain ⟨s, r⟩ := x
    cases (show r = _ from this)
    rfl

/-- **C76** (import) is possible: a directory of vouchers with different GUIDs which are not in the table is imported without
anything being reported, if no request fails. -/
theorem C76_possible (source : Path) (l : List Path) (reply : Nat × Bytes) (w : World)
    (h1 : ∀ p ∈ l, ∃ v raw, Holds T c w.files p v raw)
    (h2 : ∀ p ∈ l, ∀ v raw, Holds T c w.files p v raw → ∀ r ∈ w.table, r.guid ≠ guidText v.header.guid)
    (h3 : l.Pairwise (fun p q => ∀ v raw v' raw', Holds T c w.files p v raw → Holds T c w.files q v' raw' →
      guidText v.header.guid ≠ guidText v'.header.guid)) :
    (Prog.exec (willing (l.map some) reply) w (importVouchers T c source)).2 = .ok [] :=
  importEach_willing l w h1 h2 h3

/-! ### What goes wrong with importing -/

/-- **C76 is violated**: an entry which is no voucher is only named in what is printed; the command succeeds nevertheless. -/
theorem C76_status_violated (source p : Path) (b : Bytes) (e : Verif.Err) (hb : fromPemOrRaw T c b = .err e) :
    Prog.Ends (importVouchers T c source)
      [⟨.isDir source, true⟩, ⟨.list source, some [some p]⟩, ⟨.read p, some b⟩] (.ok [(some p, .parse e)]) := by
  refine .cons (.cons (.cons ?_))
  have : Prog.Steps (Proc.bind (importRead T c (some b))
      fun o => importEach T c [] >>= fun r => pure (report (some p) o ++ r)) [] (.ret (.ok [(some p, .parse e)])) := by
    simp only [importRead, hb]
    exact .nil _
  exact this

/-- **C76 is violated**: a file of a single byte ends the import of a whole directory; nothing after it is imported. -/
theorem C76_abort_violated (p : Path) (x : UInt8) (l : List (Option Path)) :
    Prog.Ends (importEach T c (some p :: l)) [⟨.read p, some [x]⟩] .panic ∧
    ∀ t r, Prog.Ends (importEach T c (some p :: l)) (⟨.read p, some [x]⟩ :: t) r → t = [] ∧ r = .panic := by
  refine ⟨.cons (.nil _), fun t r h => ?_⟩
  cases h with
  | cons h =>
    obtain ⟨h1, h2⟩ := Prog.ends_ret (show Prog.Ends (Prog.ret (.panic : Res Fail Report)) t r from h)
    exact ⟨h1, h2.symm⟩

/-- **C76 is violated**: of several vouchers in one file only the first is imported; nothing is reported. -/
theorem C76_trailing_violated {v : Voucher T.E} (hw : Rewritable c v) (more : Bytes) (source p : Path) (reply : Nat × Bytes) :
    ∃ raw, Voucher.serialize v = .ok raw ∧ ∀ w : World, w.files p = some (raw ++ more) → w.table = [] →
      Prog.exec (willing [some p] reply) w (importVouchers T c source) =
        ({ w with table := [fresh (guidText v.header.guid) raw] }, .ok []) := by
  obtain ⟨raw, hs, hd⟩ := rewritable_roundtrip hw more
  obtain ⟨raw', hs', hd'⟩ := rewritable_roundtrip hw []
  rw [hs] at hs'
  cases hs'
  refine ⟨raw, hs, fun w hp ht => ?_⟩
  have hv : fromPemOrRaw T c (raw ++ more) = .ok v := by
    have hraw : fromRaw T c (raw ++ more) = .ok v := by unfold fromRaw; rw [hd]; rfl
    match raw, hd', hd, hraw with
    | [], h, _, _ => cases h
    | [x], h, _, _ =>
      exfalso
      have h4 := serialize_length (liftP_eq_ok.1 hs : Cbor.serialize v.contents = .ok [x])
      have hl := hw.wf.len
      cases hc : v.contents.contents with
      | nil => rw [hc] at hl; cases hl
      | cons i l =>
        have := item_length (hw.items i (by rw [hc]; simp))
        rw [hc] at h4
        simp only [List.flatten_cons, List.length_append, List.length_cons, List.length_nil] at h4
        omega
    | x :: y :: r, h, _, hraw =>
      have hx : x ≠ 45 := by rintro rfl; cases h
      simp only [List.cons_append, fromPemOrRaw, hx, and_false, if_false]
      exact hraw
  have ho := importOne_willing (entries := [some p]) (reply := reply) (c := c) (w := w) (p := p) (v := v) (raw := raw)
    ⟨_, hp, hv, hs⟩ (by rw [ht]; simp)
  show Prog.exec (willing [some p] reply) w
    (importOne T c p >>= fun o => importEach T c [] >>= fun r => pure (report (some p) o ++ r) : Proc sig Fail Report) = _
  rw [exec_bind, ho, ht]
  rfl

/-! ### Exporting -/

/-- What was asked for, and the file the reply goes to. -/
def request (url : List Char) : Option (List Char) → Op
  | some g => .get (url ++ "/ov/".toList ++ g)
  | none => .post (url ++ "/export".toList)

/-- See `request`. -/
def target (dir : Path) : Option (List Char) → Path
  | some g => join dir g
  | none => join dir "export.tar".toList

theorem fetch_done {dec : Bytes → Bytes} {rq : Op} {hrq : rq.Ans = Option (Nat × Bytes)} {p : Path}
    (hq : ∀ w a w', Step w ⟨rq, a⟩ w' → w' = w) {t : Trace sig} {w w' : World}
    (h : Prog.Ends (fetch dec rq hrq p) t (.ok ())) (hr : Runs Step w t w') :
    ∃ status body, ⟨rq, cast hrq.symm (some (status, body))⟩ ∈ t ∧
      w' = { w with files := fun q => if q = p then some (dec body) else w.files q } := by
  unfold fetch at h
  obtain ⟨a1, t1, rfl, h1⟩ := Proc.ends_ask_bind h
  obtain ⟨ha1, h2⟩ := Proc.ends_check_bind h1
  obtain ⟨a2, t2, rfl, h3⟩ := Proc.ends_ask_bind h2
  obtain ⟨⟨status, body⟩, ha2, h4⟩ := Proc.ends_some_bind h3
  obtain ⟨a3, t3, rfl, h5⟩ := Proc.ends_ask_bind h4
  obtain ⟨rfl, ha3⟩ := Proc.ends_check h5
  clear h h1 h2 h3 h4 h5
  cases hr with
  | cons s1 hr =>
  cases hr with
  | cons s2 hr =>
  cases hr with
  | cons s3 hr =>
  cases hr
  rcases s1 with ⟨_, rfl⟩ | ⟨hf, _⟩
  · cases hq _ _ _ s2
    obtain ⟨old, part, h1, h2, h3, rfl⟩ := s3
    have h3 := h3 ha3
    subst h3
    have h1 : some [] = some old := by simpa using h1
    cases h1
    refine ⟨status, body, ?_, ?_⟩
    · have : a2 = cast hrq.symm (some (status, body)) := by rw [← ha2]; simp
      rw [this]
      simp
    · congr 1
      funext q
      by_cases hqp : q = p
      · simp [hqp]
      · simp [hqp]
  · rw [show a1 = false from hf] at ha1
    cases ha1

/-- **C76** (export), what holds: if the command succeeds, a reply to the request for the voucher (or for all) has come, and the
file named after the GUID (or `export.tar`) holds its body, as text if a single voucher was asked for; other files and the
table are as before. Missing: the reply may be a refusal (`C76_refusal_violated`), and an existing file is lost when the
request fails (`C76_lost_violated`). -/
theorem C76_exported_partial {text : Bytes → Bytes} {url : List Char} {guid : Option (List Char)} {dir : Option Path}
    {t : Trace sig} {w w' : World} (h : Prog.Ends (exportVouchers text url guid dir) t (.ok ())) (hr : Runs Step w t w') :
    ∃ d status body, (∀ x, dir = some x → d = x) ∧ (dir = none → ⟨.cwd, some d⟩ ∈ t) ∧ ⟨.isDir d, true⟩ ∈ t ∧
      (match guid with
        | some g => ⟨.get (url ++ "/ov/".toList ++ g), some (status, body)⟩ ∈ t
        | none => ⟨.post (url ++ "/export".toList), some (status, body)⟩ ∈ t) ∧
      w'.table = w.table ∧ (∀ q, q ≠ target d guid → w'.files q = w.files q) ∧
      w'.files (target d guid) = some (if guid.isSome then text body else body) := by
  unfold exportVouchers at h
  obtain ⟨a1, t1, rfl, h1⟩ := Proc.ends_ask_bind h
  obtain ⟨cwd, ha1, h2⟩ := Proc.ends_some_bind h1
  have ha1 : a1 = some cwd := ha1
  subst ha1
  obtain ⟨a2, t2, rfl, h3⟩ := Proc.ends_ask_bind h2
  obtain ⟨ha2, h4⟩ := Proc.ends_check_bind h3
  have ha2 : a2 = true := ha2
  subst ha2
  cases hr with
  | cons s1 hr =>
  cases hr with
  | cons s2 hr =>
  cases (show _ = w from s1)
  cases (show _ = w from s2)
  cases guid with
  | some g =>
    obtain ⟨status, body, hm, rfl⟩ := fetch_done (rq := .get _) (fun _ _ _ h => h) h4 hr
    refine ⟨dir.getD cwd, status, body, ?_, ?_, by simp, ?_, rfl, ?_, ?_⟩
    · rintro x rfl; rfl
    · rintro rfl; simp
    · exact List.mem_cons_of_mem _ (List.mem_cons_of_mem _ hm)
    · intro q hq; exact if_neg hq
    · exact if_pos rfl
  | none =>
    obtain ⟨status, body, hm, rfl⟩ := fetch_done (rq := .post _) (fun _ _ _ h => h) h4 hr
    refine ⟨dir.getD cwd, status, body, ?_, ?_, by simp, ?_, rfl, ?_, ?_⟩
    · rintro x rfl; rfl
    · rintro rfl; simp
    · exact List.mem_cons_of_mem _ (List.mem_cons_of_mem _ hm)
    · intro q hq; exact if_neg hq
    · exact if_pos rfl

/-- **C76 is violated** (export): whatever the status of the reply, its body is written as if it were the voucher, and the
command succeeds. -/
theorem C76_refusal_violated (text : Bytes → Bytes) (url g : List Char) (dir : Path) (status : Nat) (body : Bytes) (w : World) :
    ∃ t w', Prog.Ends (exportVouchers text url (some g) (some dir)) t (.ok ()) ∧ Runs Step w t w' ∧
      ⟨.get (url ++ "/ov/".toList ++ g), some (status, body)⟩ ∈ t ∧ w'.files (join dir g) = some (text body) := by
  refine ⟨[⟨.cwd, some []⟩, ⟨.isDir dir, true⟩, ⟨.create (join dir g), true⟩,
    ⟨.get (url ++ "/ov/".toList ++ g), some (status, body)⟩, ⟨.append (join dir g) (text body), true⟩], _,
    .cons (.cons (.cons (.cons (.cons (.nil _))))),
    .cons rfl (.cons rfl (.cons (.inl ⟨rfl, rfl⟩) (.cons rfl
      (.cons ⟨[], text body, by simp, List.prefix_rfl, fun _ => rfl, rfl⟩ .nil)))), by simp, by simp⟩

/-- **C76 is violated** (export): if the request fails, a voucher exported before is lost: its file is empty. -/
theorem C76_lost_violated (text : Bytes → Bytes) (url g : List Char) (dir : Path) (w : World) :
    ∃ t w', Prog.Ends (exportVouchers text url (some g) (some dir)) t (.err .host) ∧ Runs Step w t w' ∧
      w'.files (join dir g) = some [] := by
  refine ⟨[⟨.cwd, some []⟩, ⟨.isDir dir, true⟩, ⟨.create (join dir g), true⟩,
    ⟨.get (url ++ "/ov/".toList ++ g), none⟩], _,
    .cons (.cons (.cons (.cons (.nil _)))),
    .cons rfl (.cons rfl (.cons (.inl ⟨rfl, rfl⟩) (.cons rfl .nil))), by simp⟩

/-- **C76**, from the manufacturer to the owner: if the reply is the voucher in PEM form (which is text), then the exported file
can be imported: if that succeeds, the owner's table holds this voucher. -/
theorem C76_transferred (P : PemLaws T) {v : Voucher T.E} (hw : Rewritable c v) {pem : Bytes} (hp : toPem T v = .ok pem)
    {text : Bytes → Bytes} (ht : text pem = pem) {url g : List Char} {dir : Path} {t t' : Trace sig} {w w' w'' : World}
    {rep : Report}
    (hreply : ∀ a, ⟨.get (url ++ "/ov/".toList ++ g), a⟩ ∈ t → ∀ r, a = some r → r.2 = pem)
    (he : Prog.Ends (exportVouchers text url (some g) (some dir)) t (.ok ())) (hr : Runs Step w t w')
    (hi : Prog.Ends (importVouchers T c (join dir g)) (⟨.isDir (join dir g), false⟩ :: t') (.ok rep))
    (hr' : Runs Step w' (⟨.isDir (join dir g), false⟩ :: t') w'') :
    ∃ raw, Voucher.serialize v = .ok raw ∧ Found w''.table v raw := by
  obtain ⟨d, status, body, h1, _, _, h4, _, _, h7⟩ := C76_exported_partial he hr
  cases h1 dir rfl
  have h7 : w'.files (join dir g) = some (text body) := h7
  have : body = pem := hreply _ h4 _ rfl
  subst this
  rw [ht] at h7
  cases hr' with
  | cons s1 hr' =>
  cases (show _ = w' from s1)
  obtain ⟨a, t1, e, h⟩ := Proc.ends_ask_bind hi
  cases e
  obtain ⟨_, v', raw, ⟨b, hb, hv, hs⟩, hf, _⟩ := importFile_imported h hr'
  rw [h7] at hb
  cases hb
  obtain ⟨raw', pem', e1, e2, e3, _, _⟩ := C66_forms_partial P v hw
  rw [hp] at e2
  cases e2
  rw [e3] at hv
  cases hv
  exact ⟨raw, hs, hf⟩

/-! ### Examples -/

namespace Toy
open OwnerTool.Toy

/-- The voucher of a device with this GUID, in PEM form. -/
def pemOf (g : UInt8) : Bytes :=
  match initPair tool { OwnerTool.Toy.input with guid := List.replicate 16 g } with
  | .ok (v, _) => match toPem tool v with
    | .ok b => b
    | _ => []
  | _ => []

def a : Path := "a".toList
def b : Path := "b".toList
def junk : Path := "junk".toList

/-- Two vouchers and something else, and a table which holds one row. -/
def world : World where
  files p := if p = a then some (pemOf 1) else if p = b then some (pemOf 2) else if p = junk then some [1, 2] else none
  table := [fresh "other".toList [0]]

def entries : List (Option Path) := [some a, some junk, none, some b, some a]

/-- Both vouchers are imported, once; the rest is reported. -/
def imported : Bool :=
  match Prog.exec (willing entries (200, [])) world (importVouchers tool true "dir".toList) with
  | (w, .ok rep) => w.table.map (·.guid) == ["other".toList, guidText (List.replicate 16 1), guidText (List.replicate 16 2)] &&
    rep.map (·.1) == [some junk, none, some a] &&
    (match dbLoad (decode tool true) w.table (guidText (List.replicate 16 2)) with
      | .ok (some v) => v.header.guid == List.replicate 16 2
      | _ => false)
  | _ => false

/-- A voucher is exported and then imported. -/
def moved : Bool :=
  match Prog.exec (willing [] (200, pemOf 3)) world (exportVouchers id "http://mfg".toList (some "guid".toList) (some "dir".toList)) with
  | (w, .ok ()) => match Prog.exec (willing [some "dir/guid".toList] (200, [])) w (importVouchers tool true "dir".toList) with
    | (w, .ok []) => w.table.map (·.guid) == ["other".toList, guidText (List.replicate 16 3)]
    | _ => false
  | _ => false

end Toy

example : Toy.imported = true := by decide +kernel

example : Toy.moved = true := by decide +kernel

/-- The hypotheses of C76_due are met after an import of one file. -/
example : ∃ (v : Voucher OwnerTool.Toy.tool.E) (raw : Bytes), Rewritable true v ∧ Voucher.serialize v = .ok raw ∧
    Prog.exec (willing [some Toy.a] (200, [])) ⟨fun _ => some (raw ++ raw), []⟩ (importVouchers OwnerTool.Toy.tool true []) =
      (⟨fun _ => some (raw ++ raw), [fresh (guidText v.header.guid) raw]⟩, .ok []) := by
  obtain ⟨v, _, hw, _⟩ := exVoucher true
  obtain ⟨raw, hs, _⟩ := rewritable_roundtrip hw []
  obtain ⟨raw', hs', h⟩ := C76_trailing_violated (T := OwnerTool.Toy.tool) hw raw [] Toy.a (200, [])
  rw [show Voucher.serialize v = .ok raw' from hs'] at hs
  cases hs
  exact ⟨v, raw, hw, hs', h ⟨fun _ => some (raw ++ raw), []⟩ rfl rfl⟩

/-- An empty file is no voucher. -/
example : fromPemOrRaw OwnerTool.Toy.tool true [] = .err .emptyData := rfl

end Verif.Import

import Verif.Model.Text
/-!
Lookups in the user database (C60).
-/
namespace Verif.Text
open Verif

/-- Specification: a text in terms of its `\n`-terminated lines (with a possible unterminated rest), none of which
contains `\n` itself; a terminated line may end in `\r`, which does not count. -/
inductive LinesOf : List Char → List (List Char) → Prop
  | nil : LinesOf [] []
  | rest {l : List Char} (hne : l ≠ []) (hl : '\n' ∉ l) : LinesOf l [l]
  | lf {l s : List Char} {ls : List (List Char)} (hl : '\n' ∉ l) (hcr : l.getLast? ≠ some '\r') (h : LinesOf s ls) :
      LinesOf (l ++ '\n' :: s) (l :: ls)
  | crlf {l s : List Char} {ls : List (List Char)} (hl : '\n' ∉ l) (h : LinesOf s ls) :
      LinesOf (l ++ '\r' :: '\n' :: s) (l :: ls)

/-- Specification: the fields of a record, separated by colons. -/
inductive FieldsOf : List Char → List (List Char) → Prop
  | one {f : List Char} (hf : ':' ∉ f) : FieldsOf f [f]
  | cons {f s : List Char} {fs : List (List Char)} (hf : ':' ∉ f) (h : FieldsOf s fs) : FieldsOf (f ++ ':' :: s) (f :: fs)

theorem splitAll_ne_nil (c : Char) (s : List Char) : splitAll c s ≠ [] := by
  cases s with
  | nil => simp [splitAll]
  | cons x r =>
    unfold splitAll
    split
    · simp
    · split <;> simp

theorem splitAll_none {c : Char} {s : List Char} (h : c ∉ s) : splitAll c s = [s] := by
  induction s with
  | nil => rfl
  | cons x r ih =>
    simp only [List.mem_cons, not_or] at h
    simp only [splitAll]
    rw [if_neg (Ne.symm h.1), ih h.2]

theorem splitAll_append {c : Char} {s t : List Char} (h : c ∉ s) : splitAll c (s ++ c :: t) = s :: splitAll c t := by
  induction s with
  | nil => simp [splitAll]
  | cons x r ih =>
    simp only [List.mem_cons, not_or] at h
    simp only [List.cons_append, splitAll]
    rw [if_neg (Ne.symm h.1), ih h.2]

theorem fields_split {s : List Char} {fs : List (List Char)} (h : FieldsOf s fs) : splitAll ':' s = fs := by
  induction h with
  | one hf => exact splitAll_none hf
  | cons hf _ ih => rw [splitAll_append hf, ih]

theorem lines_append {l s : List Char} (h : '\n' ∉ l) : lines (l ++ '\n' :: s) = stripCr l :: lines s := by
  unfold lines
  rw [splitAll_append h]
  obtain ⟨a, b, hab⟩ := List.exists_cons_of_ne_nil (splitAll_ne_nil '\n' s)
  rw [hab]
  simp [List.dropLast_cons_cons, List.getLast?_cons_cons]

theorem stripCr_of {l : List Char} (h : l.getLast? ≠ some '\r') : stripCr l = l := by
  unfold stripCr
  split
  · next h' => exact absurd h' h
  · rfl

theorem stripCr_cr (l : List Char) : stripCr (l ++ ['\r']) = l := by
  simp [stripCr]

theorem lines_of {s : List Char} {ls : List (List Char)} (h : LinesOf s ls) : lines s = ls := by
  induction h with
  | nil => rfl
  | rest hne hl =>
    unfold lines
    rw [splitAll_none hl]
    rename_i l
    cases l with
    | nil => exact absurd rfl hne
    | cons x r => rfl
  | lf hl hcr _ ih => rw [lines_append hl, stripCr_of hcr, ih]
  | @crlf l s ls hl _ ih =>
    have : l ++ '\r' :: '\n' :: s = (l ++ ['\r']) ++ '\n' :: s := by simp
    rw [this, lines_append (by simp [hl]), stripCr_cr, ih]

/-- The record of a user: the fields of the first line whose first field is the name. -/
def RecordOf (s : List Char) (user : List Char) (fs : List (List Char)) : Prop :=
  ∃ ls a l b, LinesOf s ls ∧ ls = a ++ l :: b ∧ FieldsOf l fs ∧ fs.head? = some user ∧
    ∀ l' ∈ a, ∀ fs', FieldsOf l' fs' → fs'.head? ≠ some user

/-- No line is for the user. -/
def NoRecord (s : List Char) (user : List Char) : Prop :=
  ∃ ls, LinesOf s ls ∧ ∀ l ∈ ls, ∀ fs, FieldsOf l fs → fs.head? ≠ some user

/-- Every string has lines and fields, so that the specification covers all of them. -/
theorem fields_exist (s : List Char) : ∃ fs, FieldsOf s fs := by
  suffices h : ∀ n (s : List Char), s.length ≤ n → ∃ fs, FieldsOf s fs from h s.length s (Nat.le_refl _)
  intro n
  induction n with
  | zero =>
    intro s hs
    have : s = [] := by simpa using hs
    subst this
    exact ⟨_, .one (by simp)⟩
  | succ n ih =>
    intro s hs
    by_cases h : ':' ∈ s
    · obtain ⟨a, b, rfl, ha⟩ := List.eq_append_cons_of_mem h
      obtain ⟨fs, hf⟩ := ih b (by simp at hs; omega)
      exact ⟨_, .cons ha hf⟩
    · exact ⟨_, .one h⟩

theorem lines_exist (s : List Char) : ∃ ls, LinesOf s ls := by
  suffices h : ∀ n (s : List Char), s.length ≤ n → ∃ ls, LinesOf s ls from h s.length s (Nat.le_refl _)
  intro n
  induction n with
  | zero =>
    intro s hs
    have : s = [] := by simpa using hs
    subst this
    exact ⟨_, .nil⟩
  | succ n ih =>
    intro s hs
    by_cases h : '\n' ∈ s
    · obtain ⟨a, b, rfl, ha⟩ := List.eq_append_cons_of_mem h
      obtain ⟨ls, hl⟩ := ih b (by simp at hs; omega)
      by_cases hc : a.getLast? = some '\r'
      · obtain ⟨a', rfl⟩ : ∃ a', a = a' ++ ['\r'] := by
          have hne : a ≠ [] := by intro e; rw [e] at hc; cases hc
          rw [List.getLast?_eq_some_getLast hne] at hc
          exact ⟨a.dropLast, by rw [← Option.some.inj hc]; exact (List.dropLast_concat_getLast hne).symm⟩
        refine ⟨a' :: ls, ?_⟩
        have := LinesOf.crlf (l := a') (s := b) (ls := ls) (by intro hm; exact ha (by simp [hm])) hl
        simpa using this
      · exact ⟨_, .lf ha hc hl⟩
    · by_cases hne : s = []
      · exact ⟨[], hne ▸ .nil⟩
      · exact ⟨_, .rest hne h⟩

theorem entry_record {s user : List Char} {fs : List (List Char)} (h : RecordOf s user fs) : entry s user = some fs := by
  obtain ⟨ls, a, l, b, hl, rfl, hf, hu, hno⟩ := h
  unfold entry
  rw [lines_of hl, List.map_append, List.find?_append]
  have : List.find? (fun f => decide (f.head? = some user)) (List.map (splitAll ':') a) = none := by
    rw [List.find?_eq_none]
    intro f hf
    obtain ⟨l', hl', rfl⟩ := List.mem_map.mp hf
    obtain ⟨fs', hfs'⟩ := fields_exist l'
    rw [fields_split hfs']
    simpa using hno l' hl' fs' hfs'
  rw [this]
  simp [fields_split hf, hu]

theorem entry_none {s user : List Char} (h : NoRecord s user) : entry s user = none := by
  obtain ⟨ls, hl, hno⟩ := h
  unfold entry
  rw [lines_of hl, List.find?_eq_none]
  intro f hf
  obtain ⟨l', hl', rfl⟩ := List.mem_map.mp hf
  obtain ⟨fs', hfs'⟩ := fields_exist l'
  rw [fields_split hfs']
  simpa using hno l' hl' fs' hfs'

/-- Every file has a record of the user or none. -/
theorem record_or_none (s user : List Char) : (∃ fs, RecordOf s user fs) ∨ NoRecord s user := by
  obtain ⟨ls, hl⟩ := lines_exist s
  by_cases h : ∃ l ∈ ls, ∃ fs, FieldsOf l fs ∧ fs.head? = some user
  · have : ∃ a l b, ls = a ++ l :: b ∧ (∃ fs, FieldsOf l fs ∧ fs.head? = some user) ∧
        ∀ l' ∈ a, ¬ ∃ fs, FieldsOf l' fs ∧ fs.head? = some user := by
      clear hl
      induction ls with
      | nil => obtain ⟨l, hm, _⟩ := h; cases hm
      | cons x r ih =>
        by_cases hx : ∃ fs, FieldsOf x fs ∧ fs.head? = some user
        · exact ⟨[], x, r, rfl, hx, by simp⟩
        · have : ∃ l ∈ r, ∃ fs, FieldsOf l fs ∧ fs.head? = some user := by
            obtain ⟨l, hm, hp⟩ := h
            rcases List.mem_cons.mp hm with rfl | hm
            · exact absurd hp hx
            · exact ⟨l, hm, hp⟩
          obtain ⟨a, l, b, rfl, h1, h2⟩ := ih this
          exact ⟨x :: a, l, b, rfl, h1, fun l' hl' => (List.mem_cons.mp hl').elim (fun e => e ▸ hx) (h2 l')⟩
    obtain ⟨a, l, b, rfl, ⟨fs, hf, hu⟩, hno⟩ := this
    exact .inl ⟨fs, _, a, l, b, hl, rfl, hf, hu, fun l' hl' fs' hf' he => hno l' hl' ⟨fs', hf', he⟩⟩
  · exact .inr ⟨ls, hl, fun l hm fs hf he => h ⟨l, hm, fs, hf, he⟩⟩

/-- **C60**, existence: a readable file is searched correctly, whatever its contents. -/
theorem C60_exists (s user : List Char) :
    (∀ fs, RecordOf s user fs → isUser (some s) user = .ok true) ∧
    (NoRecord s user → isUser (some s) user = .ok false) := by
  refine ⟨fun fs h => ?_, fun h => ?_⟩
  · simp [isUser, entry_record h]
  · simp [isUser, entry_none h]

/-- Specification: a string of decimal digits and its value. -/
inductive Digits : List Char → Nat → Prop
  | one {d : Nat} (hd : d < 10) : Digits [Char.ofNat (48 + d)] d
  | snoc {s : List Char} {n d : Nat} (h : Digits s n) (hd : d < 10) : Digits (s ++ [Char.ofNat (48 + d)]) (10 * n + d)

/-- Specification: what counts as a user or group number: digits, possibly after a plus sign, for a value below 2^32. -/
def NumberOf (s : List Char) (n : Nat) : Prop := n < 2 ^ 32 ∧ ∃ ds, Digits ds n ∧ (s = ds ∨ s = '+' :: ds)

theorem digit_toNat {d : Nat} (h : d < 10) : (Char.ofNat (48 + d)).toNat = 48 + d := by
  have key : ∀ d : Fin 10, (Char.ofNat (48 + d.1)).toNat = 48 + d.1 := by decide
  exact key ⟨d, h⟩

theorem digit_of {ch : Char} (h1 : 48 ≤ ch.toNat) (h2 : ch.toNat ≤ 57) : ∃ d, d < 10 ∧ ch = Char.ofNat (48 + d) := by
  refine ⟨ch.toNat - 48, by omega, ?_⟩
  rw [show 48 + (ch.toNat - 48) = ch.toNat by omega, Char.ofNat_toNat]

theorem digits_read {s : List Char} {n : Nat} (h : Digits s n) : s ≠ [] ∧ s.head? ≠ some '+' ∧
    s.all (fun ch => 48 ≤ ch.toNat && ch.toNat ≤ 57) = true ∧ s.foldl (fun n ch => 10 * n + (ch.toNat - 48)) 0 = n := by
  induction h with
  | one hd =>
    refine ⟨by simp, ?_, ?_, ?_⟩
    · intro h
      have := congrArg (Option.map Char.toNat) h
      simp only [List.head?_cons, Option.map_some, digit_toNat hd] at this
      have := Option.some.inj this
      simp at this
      omega
    · simp only [List.all_cons, List.all_nil, digit_toNat hd]; simp; omega
    · simp only [List.foldl_cons, List.foldl_nil, digit_toNat hd]; omega
  | snoc _ hd ih =>
    obtain ⟨h1, h2, h3, h4⟩ := ih
    refine ⟨by simp, ?_, ?_, ?_⟩
    · rw [List.head?_append]; cases hh : List.head? _ with
      | none => exact absurd (List.head?_eq_none_iff.1 hh) h1
      | some x => rw [hh] at h2; exact h2
    · simp only [List.all_append, h3, List.all_cons, List.all_nil, digit_toNat hd]; simp; omega
    · rw [List.foldl_append, h4]
      simp only [List.foldl_cons, List.foldl_nil, digit_toNat hd]; omega

theorem digits_of {s : List Char} (hne : s ≠ []) (h : s.all (fun ch => 48 ≤ ch.toNat && ch.toNat ≤ 57) = true) :
    Digits s (s.foldl (fun n ch => 10 * n + (ch.toNat - 48)) 0) := by
  suffices key : ∀ (n : Nat) (s : List Char), s.length = n → s ≠ [] → s.all (fun ch => 48 ≤ ch.toNat && ch.toNat ≤ 57) = true →
      Digits s (s.foldl (fun n ch => 10 * n + (ch.toNat - 48)) 0) from key _ s rfl hne h
  intro n
  induction n with
  | zero => intro s hl hne _; exact absurd (List.length_eq_zero_iff.1 hl) hne
  | succ n ih =>
    intro s hl hne h
    obtain ⟨a, x, rfl⟩ : ∃ a x, s = a ++ [x] := ⟨s.dropLast, s.getLast hne, (List.dropLast_concat_getLast hne).symm⟩
    simp only [List.all_append, List.all_cons, List.all_nil, Bool.and_true, Bool.and_eq_true, decide_eq_true_eq] at h
    obtain ⟨ha, h1, h2⟩ := h
    obtain ⟨d, hd, rfl⟩ := digit_of h1 h2
    rw [List.foldl_append]
    simp only [List.foldl_cons, List.foldl_nil, digit_toNat hd, Nat.add_sub_cancel_left]
    cases a with
    | nil => simpa using Digits.one hd
    | cons y a => exact .snoc (ih (y :: a) (by simpa using hl) (by simp) ha) hd

theorem parseU32_iff (s : List Char) (n : Nat) : parseU32 s = some n ↔ NumberOf s n := by
  have key : ∀ ds : List Char, ds.head? ≠ some '+' → ∀ s, (s = ds ∨ s = '+' :: ds) → (parseU32 s = some n ↔ n < 2 ^ 32 ∧ Digits ds n) := by
    intro ds hp s hs
    have e : parseU32 s = if ds.isEmpty || !ds.all (fun ch => 48 ≤ ch.toNat && ch.toNat ≤ 57) then none
        else if ds.foldl (fun n ch => 10 * n + (ch.toNat - 48)) 0 < 2 ^ 32 then some (ds.foldl (fun n ch => 10 * n + (ch.toNat - 48)) 0)
        else none := by
      rcases hs with rfl | rfl
      · unfold parseU32
        split
        · simp at hp
        · rfl
      · rfl
    rw [e]
    constructor
    · intro h
      split at h
      · cases h
      · rename_i hc
        simp only [Bool.or_eq_true, List.isEmpty_iff, Bool.not_eq_true', not_or, Bool.not_eq_false] at hc
        split at h
        · rename_i hlt
          cases h
          exact ⟨hlt, digits_of hc.1 hc.2⟩
        · cases h
    · rintro ⟨hlt, hd⟩
      obtain ⟨h1, -, h3, h4⟩ := digits_read hd
      rw [if_neg (by simp only [Bool.or_eq_true, List.isEmpty_iff, Bool.not_eq_true', not_or, Bool.not_eq_false]; exact ⟨h1, h3⟩), h4, if_pos hlt]
  constructor
  · intro h
    by_cases hp : s.head? = some '+'
    · obtain ⟨r, rfl⟩ : ∃ r, s = '+' :: r := by
        cases s with
        | nil => cases hp
        | cons x r => exact ⟨r, by rw [List.head?_cons] at hp; rw [Option.some.inj hp]⟩
      by_cases hr : r.head? = some '+'
      · exfalso
        obtain ⟨q, rfl⟩ : ∃ q, r = '+' :: q := by
          cases r with
          | nil => cases hr
          | cons x q => exact ⟨q, by rw [List.head?_cons] at hr; rw [Option.some.inj hr]⟩
        have : parseU32 ('+' :: '+' :: q) = none := by
          unfold parseU32
          rw [if_pos (by simp)]
        rw [this] at h
        cases h
      · exact ⟨((key r hr _ (.inr rfl)).1 h).1, r, ((key r hr _ (.inr rfl)).1 h).2, .inr rfl⟩
    · exact ⟨((key s hp _ (.inl rfl)).1 h).1, s, ((key s hp _ (.inl rfl)).1 h).2, .inl rfl⟩
  · rintro ⟨hlt, ds, hd, hs⟩
    exact (key ds (digits_read hd).2.1 s hs).2 ⟨hlt, hd⟩

/-- **C60**, fields: the record of the first line for the user is returned, provided it has enough fields; a number
that is not one is reported. (Missing: records with fewer fields, see `C60_short_violated`.) -/
theorem C60_lookup_partial (s user : List Char) :
    (∀ fs uid gid home, RecordOf s user fs → fs[2]? = some uid → fs[3]? = some gid → fs[5]? = some home →
      (∀ u g, NumberOf uid u → NumberOf gid g → uidGidHome (some s) user = .ok (u, g, home)) ∧
      ((∀ u, ¬ NumberOf uid u) ∨ (∀ g, ¬ NumberOf gid g) → uidGidHome (some s) user = .err .parse)) ∧
    (∀ fs pw, RecordOf s user fs → fs[1]? = some pw → password (some s) user = .ok pw) ∧
    (NoRecord s user → uidGidHome (some s) user = .err .notFound ∧ password (some s) user = .err .notFound) := by
  refine ⟨fun fs uid gid home h h2 h3 h5 => ?_, fun fs pw h h1 => ?_, fun h => ?_⟩
  · have e : uidGidHome (some s) user = match parseU32 uid, parseU32 gid with
        | some u, some g => .ok (u, g, home)
        | _, _ => .err .parse := by
      simp only [uidGidHome, entry_record h, field, index, h2, h3, h5, Res.bind_ok]
      cases parseU32 uid <;> cases parseU32 gid <;> rfl
    simp only [← parseU32_iff]
    rw [e]
    refine ⟨fun u g hu hg => by rw [hu, hg], fun hn => ?_⟩
    cases hu : parseU32 uid with
    | none => rfl
    | some u =>
      cases hg : parseU32 gid with
      | none => rfl
      | some g =>
        rcases hn with hn | hn
        · exact absurd hu (hn u)
        · exact absurd hg (hn g)
  · simp [password, entry_record h, index, h1]
  · simp [uidGidHome, password, entry_none h]

example : NumberOf "1000".toList 1000 ∧ NumberOf "+7".toList 7 ∧ ∀ n, ¬ NumberOf "4294967296".toList n := by
  refine ⟨(parseU32_iff _ _).1 (by decide), (parseU32_iff _ _).1 (by decide), fun n h => ?_⟩
  have h := (parseU32_iff _ _).2 h
  have e : parseU32 "4294967296".toList = none := by decide
  rw [e] at h
  cases h

/-- **C60**: no lookup aborts on a file all of whose lines have six fields or more. -/
theorem C60_total_partial (s user : List Char) (ls : List (List Char)) (hl : LinesOf s ls)
    (h6 : ∀ l ∈ ls, ∀ fs, FieldsOf l fs → 6 ≤ fs.length) :
    isUser (some s) user ≠ .panic ∧ uidGidHome (some s) user ≠ .panic ∧ password (some s) user ≠ .panic := by
  refine ⟨nofun, ?_⟩
  cases he : entry s user with
  | none => simp [uidGidHome, password, he]
  | some fs =>
    have hlen : 6 ≤ fs.length := by
      unfold entry at he
      have hm := List.mem_of_find?_eq_some he
      rw [lines_of hl] at hm
      obtain ⟨l, hml, rfl⟩ := List.mem_map.mp hm
      obtain ⟨fs', hf'⟩ := fields_exist l
      rw [fields_split hf']
      exact h6 l hml fs' hf'
    have hi : ∀ n, n < 6 → ∃ x, index fs n = .ok x := fun n hn => by
      unfold index
      rw [List.getElem?_eq_getElem (by omega)]
      exact ⟨_, rfl⟩
    have hfi : ∀ n, n < 6 → field fs n ≠ .panic := fun n hn => by
      obtain ⟨x, hx⟩ := hi n hn
      unfold field
      rw [hx, Res.bind_ok]
      cases parseU32 x <;> exact nofun
    obtain ⟨x1, h1⟩ := hi 1 (by omega)
    obtain ⟨x5, h5⟩ := hi 5 (by omega)
    refine ⟨?_, by simp [password, he, h1]⟩
    simp only [uidGidHome, he]
    cases hf2 : field fs 2 with
    | panic => exact absurd hf2 (hfi 2 (by omega))
    | err e => exact nofun
    | ok u =>
      cases hf3 : field fs 3 with
      | panic => exact absurd hf3 (hfi 3 (by omega))
      | err e => exact nofun
      | ok g =>
        simp only [Res.bind_ok, h5]
        exact nofun

/-- A file whose record for a user is too short aborts the lookup, although other lookups in the same file work. -/
theorem C60_short_violated : ∃ s user : List Char, (∃ fs, RecordOf s user fs) ∧ uidGidHome (some s) user = .panic ∧
    password (some s) user = .panic ∧ ∃ user', uidGidHome (some s) user' = .ok (0, 0, "/root".toList) := by
  refine ⟨"root:x:0:0:root:/root:/bin/sh\nbob\n".toList, "bob".toList, ⟨["bob".toList], ?_⟩, by decide, by decide,
    "root".toList, by decide⟩
  rcases record_or_none "root:x:0:0:root:/root:/bin/sh\nbob\n".toList "bob".toList with ⟨fs, h⟩ | h
  · have h1 := entry_record h
    have : entry "root:x:0:0:root:/root:/bin/sh\nbob\n".toList "bob".toList = some ["bob".toList] := by decide
    rw [this] at h1
    exact Option.some.inj h1 ▸ h
  · have h1 := entry_none h
    exact absurd h1 (by decide)

/-- The first of two lines counts. -/
example : uidGidHome (some "a:x:1000:1001:A:/home/a:/bin/sh\r\na:x:0:0::/:\nb".toList) "a".toList =
    .ok (1000, 1001, "/home/a".toList) := by decide

example : RecordOf "a:b\nc:d:e\r\n".toList "c".toList ["c".toList, "d".toList, "e".toList] := by
  refine ⟨["a:b".toList, "c:d:e".toList], ["a:b".toList], "c:d:e".toList, [], ?_, rfl, ?_, rfl, ?_⟩
  · exact .lf (l := "a:b".toList) (by decide) (by decide) (.crlf (l := "c:d:e".toList) (by decide) .nil)
  · exact .cons (f := ['c']) (by decide) (.cons (f := ['d']) (by decide) (.one (by decide)))
  · intro l' hl' fs' hf'
    simp only [List.mem_singleton] at hl'
    subst hl'
    have := fields_split hf'
    rw [← this]
    decide

end Verif.Text

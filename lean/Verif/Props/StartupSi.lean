import Verif.Model.StartupSi
import Verif.Props.StartupMfg
import Verif.Props.SiApi
import Verif.Props.SiPipeline
/-!
C97: a service info server gives what its settings say to whom they say, or does not start.
-/
namespace Verif.Startup
open Verif Verif.Settings

/-! ### Specification -/

/-- A text as a value. -/
def IsText (S : Reads) (x : Val) (t : List Char) : Prop := ∃ s u, x = .leaf s ∧ S.text s = some u ∧ t = u.toList

/-- A truth value. -/
def IsBool (S : Reads) (x : Val) (b : Bool) : Prop := ∃ s, x = .leaf s ∧ S.bool s = some b

/-- An array whose elements are described by `P`. -/
def IsList {α : Type} (S : Reads) (P : Val → α → Prop) (x : Val) (l : List α) : Prop :=
  ∃ s vs, x = .leaf s ∧ S.items s = some vs ∧ List.Forall₂ P vs l

/-- The setting is there, with this value. -/
def Entry {α : Type} (t : Val) (name : String) (P : Val → α → Prop) (a : α) : Prop := ∃ x, field t.fields name = some x ∧ P x a

/-- The setting is there, with this value, or there is none and no value. -/
def May {α : Type} (S : Reads) (t : Val) (name : String) (P : Val → α → Prop) : Option α → Prop
  | none => ¬ Has S.toScalars t name
  | some a => Has S.toScalars t name ∧ Entry t name P a

/-- A truth value that is false unless given. -/
def Flag (S : Reads) (t : Val) (name : String) (b : Bool) : Prop :=
  field t.fields name = none ∧ b = false ∨ Entry t name (IsBool S) b

def IsTable (x : Val) : Prop := ∃ l, x = .table l

structure SaysUser (S : Reads) (t : Val) (u : ServiceInfo.InitialUser) : Prop where
  table : IsTable t
  name : Entry t "username" (IsText S) u.username
  password : May S t "password" (IsText S) u.password
  keys : May S t "sshkeys" (IsList S (IsText S)) u.sshKeys

structure SaysFile (S : Reads) (t : Val) (f : SiApi.FileSetting) : Prop where
  table : IsTable t
  path : Entry t "path" (IsText S) f.path
  permissions : May S t "permissions" (IsText S) f.permissions
  source : Entry t "source_path" (IsText S) f.source

structure SaysCommand (S : Reads) (t : Val) (c : SiApi.Command) : Prop where
  table : IsTable t
  command : Entry t "command" (IsText S) c.command
  args : Entry t "args" (IsList S (IsText S)) c.args
  mayFail : Flag S t "may_fail" c.mayFail
  out : Flag S t "return_stdout" c.returnStdout
  err : Flag S t "return_stderr" c.returnStderr

structure SaysDisk (S : Reads) (t : Val) (d : SiApi.Disk) : Prop where
  table : IsTable t
  label : Entry t "disk_label" (IsText S) d.label
  binding : ∃ b, field t.fields "binding" = some b ∧ IsTable b ∧ Entry b "pin" (IsText S) d.pin ∧ Entry b "config" (IsText S) d.config
  reencrypt : Entry t "reencrypt" (IsBool S) d.reencrypt

/-- A key and a value, as an array of two. -/
def SaysPair (S : Reads) (x : Val) (p : List Char × List Char) : Prop :=
  ∃ s a b, x = .leaf s ∧ S.items s = some [a, b] ∧ IsText S a p.1 ∧ IsText S b p.2

/-- What is given for a module under its name. -/
def SaysModule (S : Reads) (e : String × Val) (p : Types.SiModule × List (List Char × List Char)) : Prop :=
  p.1 = Types.SiModule.fromStr e.1.toList ∧ IsList S (SaysPair S) e.2 p.2

/-- The section about service info. -/
structure Says (S : Reads) (t : Val) (x : SiApi.Settings) : Prop where
  user : May S t "initial_user" (SaysUser S) x.user
  files : May S t "files" (IsList S (SaysFile S)) x.files
  commands : May S t "commands" (IsList S (SaysCommand S)) x.commands
  disks : May S t "diskencryption_clevis" (IsList S (SaysDisk S)) x.disks
  additional : May S t "additional_serviceinfo" (fun y l => ∃ es, y = .table es ∧ List.Forall₂ (SaysModule S) es l) x.additional
  reboot : May S t "after_onboarding_reboot" (IsBool S) x.reboot

/-- Files that can be served: the source can be read, and the permissions are an octal number of at most 32 bits. -/
def Servable (W : SiWorld) (f : SiApi.FileSetting) : Prop :=
  (∃ b, W.file f.source = some b) ∧ ∀ p, f.permissions = some p → ∃ n, n < 2 ^ 32 ∧ SiPipeline.OctalOf p n

/-- A token in the settings. -/
def Token (S : Reads) (v : Val) (name : String) (t : List Char) : Prop :=
  ∃ s u, v.at [name] = some s ∧ S.isNull s = false ∧ S.text s = some u ∧ t = u.toList

/-! ### Reading -/

section
variable {S : Reads}

theorem textOf_iff {x : Val} {t : List Char} : textOf S x = .ok t ↔ IsText S x t := by
  unfold IsText
  cases x with
  | table l => constructor
               · intro h; cases h
               · rintro ⟨s, u, h, -⟩; cases h
  | leaf s =>
    simp only [textOf]
    cases h : S.text s with
    | none =>
      constructor
      · intro h'; cases h'
      · rintro ⟨s', u, h1, h2, -⟩; cases h1; rw [h] at h2; cases h2
    | some u =>
      constructor
      · intro h'; cases h'; exact ⟨s, u, rfl, h, rfl⟩
      · rintro ⟨s', u', h1, h2, rfl⟩; cases h1; rw [h] at h2; cases h2; rfl

theorem boolOf_iff {x : Val} {b : Bool} : boolOf S x = .ok b ↔ IsBool S x b := by
  unfold IsBool
  cases x with
  | table l => constructor
               · intro h; cases h
               · rintro ⟨s, h, -⟩; cases h
  | leaf s =>
    simp only [boolOf]
    cases h : S.bool s with
    | none =>
      constructor
      · intro h'; cases h'
      · rintro ⟨s', h1, h2⟩; cases h1; rw [h] at h2; cases h2
    | some u =>
      constructor
      · intro h'; cases h'; exact ⟨s, rfl, h⟩
      · rintro ⟨s', h1, h2⟩; cases h1; rw [h] at h2; cases h2; rfl

theorem each_iff {α : Type} {f : Val → Res Fail α} {P : Val → α → Prop} (hf : ∀ x a, f x = .ok a ↔ P x a) :
    ∀ {l : List Val} {r : List α}, each f l = .ok r ↔ List.Forall₂ P l r
  | [], r => by
    constructor
    · intro h; cases h; exact .nil
    · intro h; cases h; rfl
  | x :: l, r => by
    constructor
    · intro h
      obtain ⟨a, h1, h⟩ := Res.bind_eq_ok.1 h
      obtain ⟨b, h2, h⟩ := Res.bind_eq_ok.1 h
      cases h
      exact .cons ((hf _ _).1 h1) ((each_iff hf).1 h2)
    · intro h
      cases h with
      | cons h1 h2 => exact Res.bind_eq_ok.2 ⟨_, (hf _ _).2 h1, Res.bind_eq_ok.2 ⟨_, (each_iff hf).2 h2, rfl⟩⟩

theorem listOf_iff {α : Type} {f : Val → Res Fail α} {P : Val → α → Prop} (hf : ∀ x a, f x = .ok a ↔ P x a) {x : Val} {l : List α} :
    listOf S f x = .ok l ↔ IsList S P x l := by
  unfold IsList
  cases x with
  | table l => constructor
               · intro h; cases h
               · rintro ⟨s, u, h, -⟩; cases h
  | leaf s =>
    simp only [listOf]
    cases h : S.items s with
    | none =>
      constructor
      · intro h'; cases h'
      · rintro ⟨s', u, h1, h2, -⟩; cases h1; rw [h] at h2; cases h2
    | some u =>
      constructor
      · intro h'; exact ⟨s, u, rfl, h, (each_iff hf).1 h'⟩
      · rintro ⟨s', u', h1, h2, h3⟩; cases h1; rw [h] at h2; cases h2; exact (each_iff hf).2 h3

theorem required_iff {α : Type} {f : Val → Res Fail α} {P : Val → α → Prop} (hf : ∀ x a, f x = .ok a ↔ P x a) {v : Val} {name : String}
    {a : α} : required f v name = .ok a ↔ Entry v name P a := by
  constructor
  · intro h
    obtain ⟨x, h1, h2⟩ := required_ok h
    exact ⟨x, h1, (hf _ _).1 h2⟩
  · rintro ⟨x, h1, h2⟩
    unfold required
    rw [h1]
    exact (hf _ _).2 h2

theorem optional_iff {α : Type} {f : Val → Res Fail α} {P : Val → α → Prop} (hf : ∀ x a, f x = .ok a ↔ P x a) {v : Val} {name : String}
    {o : Option α} : optional S.toScalars f v name = .ok o ↔ May S v name P o := by
  by_cases hh : Has S.toScalars v name
  · constructor
    · intro h
      obtain ⟨x, a, h1, h2, rfl⟩ := optional_has h hh
      exact ⟨hh, x, h1, (hf _ _).1 h2⟩
    · intro h
      cases o with
      | none => exact absurd hh h
      | some a =>
        obtain ⟨-, x, h1, h2⟩ := h
        obtain ⟨y, hy, hn⟩ := hh
        rw [h1] at hy
        cases hy
        unfold optional
        rw [h1]
        cases x with
        | leaf s => simp only [hn s rfl, Bool.false_eq_true, if_false, (hf _ _).2 h2]
        | table l => simp only [(hf _ _).2 h2]
  · rw [optional_hasnt hh]
    constructor
    · intro h; cases h; exact hh
    · intro h
      cases o with
      | none => rfl
      | some a => exact absurd h.1 hh

theorem flagOf_iff {v : Val} {name : String} {b : Bool} : flagOf S v name = .ok b ↔ Flag S v name b := by
  unfold flagOf Flag Entry
  cases h : field v.fields name with
  | none =>
    constructor
    · intro h'; cases h'; exact .inl ⟨rfl, rfl⟩
    · rintro (⟨-, rfl⟩ | ⟨x, h', -⟩)
      · rfl
      · cases h'
  | some x =>
    constructor
    · intro h'; exact .inr ⟨x, rfl, boolOf_iff.1 h'⟩
    · rintro (⟨h', -⟩ | ⟨y, h1, h2⟩)
      · cases h'
      · cases h1; exact boolOf_iff.2 h2

theorem structOf_iff {α : Type} {f : Val → Res Fail α} {x : Val} {a : α} : structOf f x = .ok a ↔ IsTable x ∧ f x = .ok a := by
  cases x with
  | leaf s =>
    constructor
    · intro h; cases h
    · rintro ⟨⟨l, h⟩, -⟩; cases h
  | table l => exact ⟨fun h => ⟨⟨l, rfl⟩, h⟩, fun h => h.2⟩

theorem siUserOf_iff {x : Val} {u : ServiceInfo.InitialUser} : structOf (siUserOf S) x = .ok u ↔ SaysUser S x u := by
  rw [structOf_iff]
  constructor
  · rintro ⟨ht, h⟩
    obtain ⟨a, h1, h⟩ := Res.bind_eq_ok.1 h
    obtain ⟨b, h2, h⟩ := Res.bind_eq_ok.1 h
    obtain ⟨c, h3, h⟩ := Res.bind_eq_ok.1 h
    cases h
    exact ⟨ht, (required_iff fun _ _ => textOf_iff).1 h1, (optional_iff fun _ _ => textOf_iff).1 h2,
      (optional_iff fun _ _ => listOf_iff fun _ _ => textOf_iff).1 h3⟩
  · intro h
    exact ⟨h.table, Res.bind_eq_ok.2 ⟨_, (required_iff fun _ _ => textOf_iff).2 h.name, Res.bind_eq_ok.2 ⟨_,
      (optional_iff fun _ _ => textOf_iff).2 h.password, Res.bind_eq_ok.2 ⟨_,
      (optional_iff fun _ _ => listOf_iff fun _ _ => textOf_iff).2 h.keys, rfl⟩⟩⟩⟩

theorem siFileOf_iff {x : Val} {f : SiApi.FileSetting} : structOf (siFileOf S) x = .ok f ↔ SaysFile S x f := by
  rw [structOf_iff]
  constructor
  · rintro ⟨ht, h⟩
    obtain ⟨a, h1, h⟩ := Res.bind_eq_ok.1 h
    obtain ⟨b, h2, h⟩ := Res.bind_eq_ok.1 h
    obtain ⟨c, h3, h⟩ := Res.bind_eq_ok.1 h
    cases h
    exact ⟨ht, (required_iff fun _ _ => textOf_iff).1 h1, (optional_iff fun _ _ => textOf_iff).1 h2,
      (required_iff fun _ _ => textOf_iff).1 h3⟩
  · intro h
    exact ⟨h.table, Res.bind_eq_ok.2 ⟨_, (required_iff fun _ _ => textOf_iff).2 h.path, Res.bind_eq_ok.2 ⟨_,
      (optional_iff fun _ _ => textOf_iff).2 h.permissions, Res.bind_eq_ok.2 ⟨_,
      (required_iff fun _ _ => textOf_iff).2 h.source, rfl⟩⟩⟩⟩

theorem siCommandOf_iff {x : Val} {c : SiApi.Command} : structOf (siCommandOf S) x = .ok c ↔ SaysCommand S x c := by
  rw [structOf_iff]
  constructor
  · rintro ⟨ht, h⟩
    obtain ⟨a, h1, h⟩ := Res.bind_eq_ok.1 h
    obtain ⟨b, h2, h⟩ := Res.bind_eq_ok.1 h
    obtain ⟨c, h3, h⟩ := Res.bind_eq_ok.1 h
    obtain ⟨d, h4, h⟩ := Res.bind_eq_ok.1 h
    obtain ⟨e, h5, h⟩ := Res.bind_eq_ok.1 h
    cases h
    exact ⟨ht, (required_iff fun _ _ => textOf_iff).1 h1, (required_iff fun _ _ => listOf_iff fun _ _ => textOf_iff).1 h2,
      flagOf_iff.1 h3, flagOf_iff.1 h4, flagOf_iff.1 h5⟩
  · intro h
    exact ⟨h.table, Res.bind_eq_ok.2 ⟨_, (required_iff fun _ _ => textOf_iff).2 h.command, Res.bind_eq_ok.2 ⟨_,
      (required_iff fun _ _ => listOf_iff fun _ _ => textOf_iff).2 h.args, Res.bind_eq_ok.2 ⟨_, flagOf_iff.2 h.mayFail,
      Res.bind_eq_ok.2 ⟨_, flagOf_iff.2 h.out, Res.bind_eq_ok.2 ⟨_, flagOf_iff.2 h.err, rfl⟩⟩⟩⟩⟩⟩

theorem siDiskOf_iff {x : Val} {d : SiApi.Disk} : structOf (siDiskOf S) x = .ok d ↔ SaysDisk S x d := by
  rw [structOf_iff]
  constructor
  · rintro ⟨ht, h⟩
    obtain ⟨a, h1, h⟩ := Res.bind_eq_ok.1 h
    obtain ⟨b, h2, h⟩ := Res.bind_eq_ok.1 h
    obtain ⟨c, h3, h⟩ := Res.bind_eq_ok.1 h
    cases h
    obtain ⟨y, hy, h2⟩ := required_ok h2
    obtain ⟨hty, h2⟩ := structOf_iff.1 h2
    obtain ⟨p, g1, h2⟩ := Res.bind_eq_ok.1 h2
    obtain ⟨q, g2, h2⟩ := Res.bind_eq_ok.1 h2
    cases h2
    exact ⟨ht, (required_iff fun _ _ => textOf_iff).1 h1, ⟨y, hy, hty, (required_iff fun _ _ => textOf_iff).1 g1,
      (required_iff fun _ _ => textOf_iff).1 g2⟩, (required_iff fun _ _ => boolOf_iff).1 h3⟩
  · intro h
    obtain ⟨y, hy, hty, g1, g2⟩ := h.binding
    refine ⟨h.table, Res.bind_eq_ok.2 ⟨_, (required_iff fun _ _ => textOf_iff).2 h.label, Res.bind_eq_ok.2 ⟨(d.pin, d.config), ?_,
      Res.bind_eq_ok.2 ⟨_, (required_iff fun _ _ => boolOf_iff).2 h.reencrypt, rfl⟩⟩⟩⟩
    unfold required
    rw [hy]
    exact structOf_iff.2 ⟨hty, Res.bind_eq_ok.2 ⟨_, (required_iff fun _ _ => textOf_iff).2 g1, Res.bind_eq_ok.2 ⟨_,
      (required_iff fun _ _ => textOf_iff).2 g2, rfl⟩⟩⟩

theorem pairOf_iff {x : Val} {p : List Char × List Char} : pairOf S x = .ok p ↔ SaysPair S x p := by
  unfold SaysPair
  constructor
  · intro h
    unfold pairOf at h
    split at h
    · rename_i s
      split at h
      · rename_i a b hi
        obtain ⟨c, h1, h⟩ := Res.bind_eq_ok.1 h
        obtain ⟨d, h2, h⟩ := Res.bind_eq_ok.1 h
        cases h
        exact ⟨s, a, b, rfl, hi, textOf_iff.1 h1, textOf_iff.1 h2⟩
      · cases h
    · cases h
  · rintro ⟨s, a, b, rfl, hi, h1, h2⟩
    simp only [pairOf, hi]
    exact Res.bind_eq_ok.2 ⟨_, textOf_iff.2 h1, Res.bind_eq_ok.2 ⟨_, textOf_iff.2 h2, rfl⟩⟩

theorem entriesOf_iff : ∀ {l : List (String × Val)} {r : List (Types.SiModule × List (List Char × List Char))},
    entriesOf S l = .ok r ↔ List.Forall₂ (SaysModule S) l r
  | [], r => by
    constructor
    · intro h; cases h; exact .nil
    · intro h; cases h; rfl
  | (k, x) :: l, r => by
    constructor
    · intro h
      obtain ⟨a, h1, h⟩ := Res.bind_eq_ok.1 h
      obtain ⟨b, h2, h⟩ := Res.bind_eq_ok.1 h
      cases h
      exact .cons ⟨rfl, (listOf_iff fun _ _ => pairOf_iff).1 h1⟩ (entriesOf_iff.1 h2)
    · intro h
      cases h with
      | @cons _ p _ r h1 h2 =>
        obtain ⟨m, a⟩ := p
        obtain ⟨rfl, h1⟩ := h1
        exact Res.bind_eq_ok.2 ⟨_, (listOf_iff fun _ _ => pairOf_iff).2 h1, Res.bind_eq_ok.2 ⟨_, entriesOf_iff.2 h2, rfl⟩⟩

theorem additionalOf_iff {x : Val} {l : List (Types.SiModule × List (List Char × List Char))} :
    additionalOf S x = .ok l ↔ ∃ es, x = .table es ∧ List.Forall₂ (SaysModule S) es l := by
  cases x with
  | leaf s =>
    constructor
    · intro h; cases h
    · rintro ⟨es, h, -⟩; cases h
  | table es =>
    constructor
    · intro h; exact ⟨es, rfl, entriesOf_iff.1 h⟩
    · rintro ⟨es', h, h'⟩; cases h; exact entriesOf_iff.2 h'

theorem siSettingsOf_iff {t : Val} {x : SiApi.Settings} : siSettingsOf S t = .ok x ↔ Says S t x := by
  constructor
  · intro h
    obtain ⟨a, h1, h⟩ := Res.bind_eq_ok.1 h
    obtain ⟨b, h2, h⟩ := Res.bind_eq_ok.1 h
    obtain ⟨c, h3, h⟩ := Res.bind_eq_ok.1 h
    obtain ⟨d, h4, h⟩ := Res.bind_eq_ok.1 h
    obtain ⟨e, h5, h⟩ := Res.bind_eq_ok.1 h
    obtain ⟨f, h6, h⟩ := Res.bind_eq_ok.1 h
    cases h
    exact ⟨(optional_iff fun _ _ => siUserOf_iff).1 h1, (optional_iff fun _ _ => listOf_iff fun _ _ => siFileOf_iff).1 h2,
      (optional_iff fun _ _ => listOf_iff fun _ _ => siCommandOf_iff).1 h3,
      (optional_iff fun _ _ => listOf_iff fun _ _ => siDiskOf_iff).1 h4, (optional_iff fun _ _ => additionalOf_iff).1 h5,
      (optional_iff fun _ _ => boolOf_iff).1 h6⟩
  · intro h
    exact Res.bind_eq_ok.2 ⟨_, (optional_iff fun _ _ => siUserOf_iff).2 h.user, Res.bind_eq_ok.2 ⟨_,
      (optional_iff fun _ _ => listOf_iff fun _ _ => siFileOf_iff).2 h.files, Res.bind_eq_ok.2 ⟨_,
      (optional_iff fun _ _ => listOf_iff fun _ _ => siCommandOf_iff).2 h.commands, Res.bind_eq_ok.2 ⟨_,
      (optional_iff fun _ _ => listOf_iff fun _ _ => siDiskOf_iff).2 h.disks, Res.bind_eq_ok.2 ⟨_,
      (optional_iff fun _ _ => additionalOf_iff).2 h.additional, Res.bind_eq_ok.2 ⟨_,
      (optional_iff fun _ _ => boolOf_iff).2 h.reboot, rfl⟩⟩⟩⟩⟩⟩

end

/-! ### Files -/

theorem octalDigit_toNat {d : Nat} (h : d < 8) : (SiPipeline.octalDigit d).toNat = 48 + d := by
  have : ∀ d : Fin 8, (SiPipeline.octalDigit d).toNat = 48 + d := by decide
  exact this ⟨d, h⟩

theorem parseOctal_of {p : List Char} {n : Nat} (h : SiPipeline.OctalOf p n) (hn : n < 2 ^ 32) : SiApi.parseOctal p = some n := by
  obtain ⟨ds, hne, hd, hp, rfl⟩ := h
  have hall : (ds.map SiPipeline.octalDigit).all (fun ch => 48 ≤ ch.toNat && ch.toNat ≤ 55) = true := by
    simp only [List.all_map, List.all_eq_true, Function.comp]
    intro d h
    have := hd d h
    rw [octalDigit_toNat this]
    simp only [Bool.and_eq_true, decide_eq_true_eq]
    omega
  have hfold : ∀ (ds : List Nat) (a : Nat), (∀ d ∈ ds, d < 8) → (ds.map SiPipeline.octalDigit).foldl (fun n ch => 8 * n + (ch.toNat - 48)) a =
      ds.foldl (fun n d => 8 * n + d) a := by
    intro ds
    induction ds with
    | nil => intros; rfl
    | cons d ds ih =>
      intro a h
      rw [List.map_cons, List.foldl_cons, List.foldl_cons, octalDigit_toNat (h d (by simp)), ih _ (fun d hd => h d (by simp [hd]))]
      congr 2
      omega
  have hemp : (ds.map SiPipeline.octalDigit).isEmpty = false := by
    cases ds with
    | nil => exact absurd rfl hne
    | cons d ds => rfl
  have fin : ∀ q, q = ds.map SiPipeline.octalDigit → (if q.isEmpty || !q.all (fun ch => 48 ≤ ch.toNat && ch.toNat ≤ 55) then none
      else if q.foldl (fun n ch => 8 * n + (ch.toNat - 48)) 0 < 2 ^ 32 then some (q.foldl (fun n ch => 8 * n + (ch.toNat - 48)) 0)
      else none) = some (ds.foldl (fun n d => 8 * n + d) 0) := by
    rintro q rfl
    rw [hemp, hall, hfold ds 0 hd, if_pos hn]
    rfl
  unfold SiApi.parseOctal
  rcases hp with hp | hp
  · split
    · exfalso
      rw [← hp] at hall
      simp at hall
    · exact fin p hp
  · subst hp
    exact fin _ rfl

theorem prepareFile_iff {W : SiWorld} {f : SiApi.FileSetting} : (∃ g, SiApi.prepareFile W.file W.sha384 f = some g) ↔ Servable W f := by
  unfold SiApi.prepareFile Servable
  cases hp : f.permissions with
  | none =>
    cases hf : W.file f.source with
    | none => simp
    | some b => simp
  | some p =>
    simp only
    cases ho : SiApi.parseOctal p with
    | none =>
      constructor
      · rintro ⟨g, h⟩; cases h
      · rintro ⟨-, h⟩
        obtain ⟨n, h1, h2⟩ := h p rfl
        rw [parseOctal_of h2 h1] at ho
        cases ho
    | some n =>
      have := SiPipeline.parseOctal_some ho
      cases hf : W.file f.source with
      | none => simp
      | some b =>
        constructor
        · rintro -
          refine ⟨⟨b, rfl⟩, fun p' h => ?_⟩
          cases h
          exact ⟨n, this.2, this.1⟩
        · rintro -
          exact ⟨_, rfl⟩

theorem prepareFiles_iff {W : SiWorld} : ∀ {l : List SiApi.FileSetting},
    (∃ g, SiApi.prepareFiles W.file W.sha384 l = some g) ↔ ∀ f ∈ l, Servable W f
  | [] => ⟨fun _ f h => (nomatch h), fun _ => ⟨[], rfl⟩⟩
  | f :: l => by
    have ih := prepareFiles_iff (W := W) (l := l)
    rw [List.forall_mem_cons, ← ih, ← prepareFile_iff]
    rw [SiApi.prepareFiles.eq_2]
    constructor
    · rintro ⟨g, h⟩
      split at h
      · rename_i x l' h1 h2
        exact ⟨⟨x, h1⟩, l', h2⟩
      · cases h
    · rintro ⟨⟨x, h1⟩, l', h2⟩
      rw [h1, h2]
      exact ⟨_, rfl⟩

theorem fromSettings_iff {W : SiWorld} {x : SiApi.Settings} :
    (∃ c, SiApi.fromSettings W.file W.sha384 x = some c) ↔ ∀ f ∈ x.files.getD [], Servable W f := by
  unfold SiApi.fromSettings
  cases x.files with
  | none => exact ⟨fun _ f h => (nomatch h), fun _ => ⟨_, rfl⟩⟩
  | some l =>
    rw [Option.getD_some, ← prepareFiles_iff]
    constructor
    · rintro ⟨c, h⟩
      obtain ⟨a, ha, -⟩ := Option.map_eq_some_iff.1 h
      exact ⟨a, ha⟩
    · rintro ⟨a, ha⟩
      exact ⟨_, by simp only [ha]; rfl⟩

/-! ### C97 -/

section
variable {S : Reads} {W : SiWorld} {rest : Bool} {stored : List SiApi.AdminRequest} {v : Val}

/-- What start-up makes of the settings. -/
theorem serviceInfo_iff {s : SiApi.Server} : serviceInfo S W rest stored v = .ok s ↔ ∃ t x, field v.fields "service_info" = some t ∧
    IsTable t ∧ (∀ p ∈ t.fields, p.1 ∈ siNames) ∧ Says S t x ∧ May S v "service_info_auth_token" (IsText S) s.siToken ∧
    May S v "admin_auth_token" (IsText S) s.adminToken ∧ SiApi.fromSettings W.file W.sha384 x = some s.config ∧ rest = true ∧
    s.stored = stored := by
  constructor
  · intro h
    obtain ⟨x, h1, h⟩ := Res.bind_eq_ok.1 h
    obtain ⟨a, h2, h⟩ := Res.bind_eq_ok.1 h
    obtain ⟨b, h3, h⟩ := Res.bind_eq_ok.1 h
    split at h
    · cases h
    rename_i c hc
    split at h
    · rename_i hr
      cases h
      obtain ⟨t, ht, h1⟩ := required_ok h1
      obtain ⟨htt, h1⟩ := structOf_iff.1 h1
      unfold onlyFields at h1
      split at h1
      · rename_i hn
        refine ⟨t, x, ht, htt, fun p hp => ?_, siSettingsOf_iff.1 h1, (optional_iff fun _ _ => textOf_iff).1 h2,
          (optional_iff fun _ _ => textOf_iff).1 h3, hc, hr, rfl⟩
        have := List.all_eq_true.1 hn p hp
        exact List.contains_iff_mem.1 this
      · cases h1
    · cases h
  · rintro ⟨t, x, ht, htt, hn, h1, h2, h3, hc, rfl, rfl⟩
    refine Res.bind_eq_ok.2 ⟨x, ?_, Res.bind_eq_ok.2 ⟨_, (optional_iff fun _ _ => textOf_iff).2 h2, Res.bind_eq_ok.2 ⟨_,
      (optional_iff fun _ _ => textOf_iff).2 h3, ?_⟩⟩⟩
    · unfold required
      rw [ht]
      refine structOf_iff.2 ⟨htt, ?_⟩
      unfold onlyFields
      rw [if_pos (List.all_eq_true.2 fun p hp => List.contains_iff_mem.2 (hn p hp))]
      exact siSettingsOf_iff.2 h1
    · rw [hc]
      rfl

/-- **C97**, what is served: a server that starts was prepared from the settings in its section, all of whose names are known. -/
theorem C97_settings_partial {s : SiApi.Server} (h : serviceInfo S W rest stored v = .ok s) : ∃ t x,
    field v.fields "service_info" = some t ∧ Says S t x ∧ SiApi.fromSettings W.file W.sha384 x = some s.config ∧
    ∀ p ∈ t.fields, p.1 ∈ ["initial_user", "files", "commands", "diskencryption_clevis", "additional_serviceinfo",
      "after_onboarding_reboot"] := by
  obtain ⟨t, x, h1, -, h2, h3, -, -, h4, -, -⟩ := serviceInfo_iff.1 h
  exact ⟨t, x, h1, h3, h4, h2⟩

/-- **C97**, which settings work: the server starts if and only if its section has only known names and can be read, the tokens are
texts or not there, and the files can be served (and the address and the store are in order, `rest`). -/
theorem C97_starts : (∃ s, serviceInfo S W rest stored v = .ok s) ↔ rest = true ∧ ∃ t x token admin,
    field v.fields "service_info" = some t ∧ IsTable t ∧
    (∀ p ∈ t.fields, p.1 ∈ ["initial_user", "files", "commands", "diskencryption_clevis", "additional_serviceinfo",
      "after_onboarding_reboot"]) ∧ Says S t x ∧
    May S v "service_info_auth_token" (IsText S) token ∧ May S v "admin_auth_token" (IsText S) admin ∧
    ∀ f ∈ x.files.getD [], Servable W f := by
  constructor
  · rintro ⟨s, h⟩
    obtain ⟨t, x, h1, h1', h2, h3, h4, h5, h6, h7, -⟩ := serviceInfo_iff.1 h
    exact ⟨h7, t, x, _, _, h1, h1', h2, h3, h4, h5, fromSettings_iff.1 ⟨_, h6⟩⟩
  · rintro ⟨h7, t, x, token, admin, h1, h1', h2, h3, h4, h5, h6⟩
    obtain ⟨c, hc⟩ := fromSettings_iff.2 h6
    exact ⟨⟨c, token, admin, stored⟩, serviceInfo_iff.2 ⟨t, x, h1, h1', h2, h3, h4, h5, hc, h7, rfl⟩⟩

/-- **C97**, misspelt settings: with a name that is not known in the section about service info, the server does not start. -/
theorem C97_misspelt_partial {t : Val} {name : String} {y : Val} (ht : field v.fields "service_info" = some t) (hy : (name, y) ∈ t.fields)
    (hn : name ∉ ["initial_user", "files", "commands", "diskencryption_clevis", "additional_serviceinfo", "after_onboarding_reboot"])
    (s : SiApi.Server) : serviceInfo S W rest stored v ≠ .ok s := by
  intro h
  obtain ⟨t', x, h1, -, -, h2⟩ := C97_settings_partial h
  rw [ht] at h1
  cases h1
  exact hn (h2 _ hy)

theorem token_of {name : String} {o : Option (List Char)} {t : List Char} (h : May S v name (IsText S) o) (ho : o = some t) :
    Token S v name t := by
  subst ho
  obtain ⟨⟨y, hy, hn⟩, x, hx, s, u, rfl, hu, rfl⟩ := h
  rw [hx] at hy
  cases hy
  exact ⟨s, u, at_of_field hx, hn s rfl, hu, rfl⟩

theorem steps_kept (s : SiApi.Server) (l : List (SiApi.Oracle × SiApi.Request)) :
    (SiApi.steps s l).config = s.config ∧ (SiApi.steps s l).siToken = s.siToken ∧ (SiApi.steps s l).adminToken = s.adminToken := by
  induction l generalizing s with
  | nil => exact ⟨rfl, rfl, rfl⟩
  | cons x l ih =>
    obtain ⟨h1, h2, h3⟩ := ih (SiApi.step x.1 s x.2).1
    rcases SiApi.step_server x.1 s x.2 with h | ⟨_, _, _, _, _, _, h, _⟩
    · rw [h] at h1 h2 h3
      exact ⟨by rw [SiApi.steps, h]; exact h1, by rw [SiApi.steps, h]; exact h2, by rw [SiApi.steps, h]; exact h3⟩
    · rw [h] at h1 h2 h3
      exact ⟨by rw [SiApi.steps, h]; exact h1, by rw [SiApi.steps, h]; exact h2, by rw [SiApi.steps, h]; exact h3⟩

/-- **C97**, administration: whatever is stored after any requests was stored before the start, or came with the admin token in the
settings. Without one there, nothing is ever stored. -/
theorem C97_admin {s : SiApi.Server} (h : serviceInfo S W rest stored v = .ok s) (l : List (SiApi.Oracle × SiApi.Request)) :
    ∀ b ∈ (SiApi.steps s l).stored, b ∈ stored ∨ ∃ x ∈ l, ∃ t, Token S v "admin_auth_token" t ∧ x.2.body = some b ∧
      x.2.auth = some ("Bearer ".toList ++ t) := by
  obtain ⟨_, _, -, -, -, -, -, h5, -, -, h7⟩ := serviceInfo_iff.1 h
  intro b hb
  rcases SiApi.C57_stored s l b hb with hb | ⟨x, hx, tok, h1, h2, h3⟩
  · exact .inl (h7 ▸ hb)
  · exact .inr ⟨x, hx, tok, token_of h5 h2, h1, h3⟩

/-- **C97**, service info: with a token in the settings, after any requests, only requests that come with it get service info. -/
theorem C97_token_partial {s : SiApi.Server} (h : serviceInfo S W rest stored v = .ok s)
    (ht : Has S.toScalars v "service_info_auth_token") (l : List (SiApi.Oracle × SiApi.Request)) {o : SiApi.Oracle} {r : SiApi.Request}
    {s' : SiApi.Server} {x : ServiceInfo.ApiReply} (hs : SiApi.step o (SiApi.steps s l) r = (s', .info x)) :
    ∃ t, Token S v "service_info_auth_token" t ∧ r.auth = some ("Bearer ".toList ++ t) := by
  obtain ⟨_, _, -, -, -, -, h4, -, -, -, -⟩ := serviceInfo_iff.1 h
  cases hk : s.siToken with
  | none => rw [hk] at h4; exact absurd ht h4
  | some t => exact ⟨t, token_of h4 hk, SiApi.C57_info o _ s' r x t hs ((steps_kept s l).2.1.trans hk)⟩

/-- **C97**, the rightful owner server: with the token in the settings, or with any if there is none, it gets the reply made from the
settings, after any requests. -/
theorem C97_served {s : SiApi.Server} (h : serviceInfo S W rest stored v = .ok s) (l : List (SiApi.Oracle × SiApi.Request))
    {o : SiApi.Oracle} {a q : List Char} (ha : ∀ t, Token S v "service_info_auth_token" t → a = "Bearer ".toList ++ t)
    {query : SiApi.Query} {x : ServiceInfo.ApiReply} (hq : SiApi.parseQuery o.unescape q = some query)
    (hx : SiApi.handler s.config (o.perDevice query.guid) query = some x) :
    SiApi.step o (SiApi.steps s l) ⟨.get, ["device_info".toList], some a, q, none⟩ = (SiApi.steps s l, .info x) := by
  obtain ⟨_, _, -, -, -, -, h4, -, -, -, -⟩ := serviceInfo_iff.1 h
  obtain ⟨e1, e2, -⟩ := steps_kept s l
  exact SiApi.C57_info_accepted o _ a q [] none query x (fun t ht => ha t (token_of h4 (e2.symm.trans ht))) hq (by rw [e1]; exact hx)

end

/-- **C97**, through to the device: a server that was started from settings, after any requests, is asked for a device. The files the
device deploys are those in the settings, with the contents their sources had when the server was started. -/
theorem C97_files_partial {S : Reads} {h : SiClient.Host} {enc : ServiceInfo.Val → Bytes} {dec : Bytes → Option ServiceInfo.Val}
    {file : List Char → Option Bytes} {rest : Bool} {stored : List SiApi.AdminRequest} {v : Val} {s : SiApi.Server}
    (hs : serviceInfo S ⟨file, h.digest .sha384⟩ rest stored v = .ok s) (l : List (SiApi.Oracle × SiApi.Request)) {o : SiApi.Oracle}
    {token : Option (List Char)} {guid : Bytes} {mods : List Types.SiModule} {version : List Char} {m : ServiceInfo.OwnerSi}
    {x₀ : SiApi.Settings} (hS : SiPipeline.Setup h enc dec file x₀ o (SiApi.steps s l) token guid mods version m)
    (t : Trace SiClient.sig) : ∃ y x, field v.fields "service_info" = some y ∧ Says S y x ∧
    ((∀ z ∈ x.additional.getD [], z.1 ≠ .binaryFile) → ∃ gs,
      List.Forall₂ (SiPipeline.Configured file) (if .binaryFile ∈ mods then x.files.getD [] else []) gs ∧
      ∀ r, Prog.Ends (SiClient.process h (Types.siItems dec m.si)) t (.ok r) →
        SiClient.acts .binaryFile t = (gs.flatMap (SiClient.deployment h)).map fun a => (a, true)) := by
  obtain ⟨y, x, h1, h2, h3, -⟩ := C97_settings_partial hs
  refine ⟨y, x, h1, h2, fun hadd => ?_⟩
  obtain ⟨gs, g1, -, g2⟩ := SiPipeline.C53_files_partial { hS with config := by rw [(steps_kept s l).1]; exact h3 } hadd t
  exact ⟨gs, g1, g2⟩

/-- **C97**, through to the device: of the commands the device runs, up to every point, the first ones are those in the settings of the
server, in their order and with their arguments; if the device is done without a failure, these are all, and nothing else was run. -/
theorem C97_commands_partial {S : Reads} {h : SiClient.Host} {enc : ServiceInfo.Val → Bytes} {dec : Bytes → Option ServiceInfo.Val}
    {file : List Char → Option Bytes} {rest : Bool} {stored : List SiApi.AdminRequest} {v : Val} {s : SiApi.Server}
    (hs : serviceInfo S ⟨file, h.digest .sha384⟩ rest stored v = .ok s) (l : List (SiApi.Oracle × SiApi.Request)) {o : SiApi.Oracle}
    {token : Option (List Char)} {guid : Bytes} {mods : List Types.SiModule} {version : List Char} {m : ServiceInfo.OwnerSi}
    {x₀ : SiApi.Settings} (hS : SiPipeline.Setup h enc dec file x₀ o (SiApi.steps s l) token guid mods version m)
    (t : Trace SiClient.sig) : ∃ y x, field v.fields "service_info" = some y ∧ Says S y x ∧
    ((∀ z ∈ x.additional.getD [], z.1 ≠ .command) →
      ∀ cs : List SiClient.Cmd, cs = (if .command ∈ mods then x.commands.getD [] else []).map
        (fun c => ⟨c.command, c.args, c.mayFail, c.returnStdout, c.returnStderr⟩) →
      (Prog.Does (SiClient.process h (Types.siItems dec m.si)) t → SiClient.acts .command t = [] ∧ ∃ n,
        List.Forall₂ SiClient.Passed (cs.take n) (SiClient.ran .command t) ∨
        ∃ c t0 out, cs[n]? = some c ∧ t = t0 ++ [⟨.host .command (.run c.prog c.args none), out⟩] ∧
          List.Forall₂ SiClient.Passed (cs.take n) (SiClient.ran .command t0) ∧ ¬SiClient.Passed c ⟨c.prog, c.args, none, out⟩) ∧
      (∀ reboot out, Prog.Ends (SiClient.process h (Types.siItems dec m.si)) t (.ok (reboot, out)) →
        List.Forall₂ SiClient.Passed cs (SiClient.ran .command t))) := by
  obtain ⟨y, x, h1, h2, h3, -⟩ := C97_settings_partial hs
  refine ⟨y, x, h1, h2, fun hadd cs hcs => ?_⟩
  obtain ⟨g1, g2⟩ := SiPipeline.C53_commands_partial { hS with config := by rw [(steps_kept s l).1]; exact h3 } hadd t cs hcs
  exact ⟨g1, fun r out he => (g2 r out he).1⟩

end Verif.Startup

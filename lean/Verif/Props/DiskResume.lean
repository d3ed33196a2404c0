import Verif.Props.Disk
import Verif.Props.DeviceEnd
/-!
Starting again after onboarding (C75): nobody is contacted, and pending re-encryptions are gone on with.
-/
namespace Verif.Disk
open Verif

/-! ### Failures end a program -/

/-- An operation that has failed. -/
def Failed : sig.Deed → Prop
  | ⟨.tokenStatus _, a⟩ => (a : Option TokenInfo) = none
  | ⟨.tokenJson _, a⟩ => (a : Option Json) = none
  | ⟨.path, a⟩ => (a : Option (List Char)) = none
  | ⟨.load, a⟩ => (a : Bool) = false
  | ⟨.removeToken _, a⟩ => (a : Bool) = false
  | ⟨.destroySlot _, a⟩ => (a : Bool) = false
  | ⟨.run _ _ _, a⟩ => (a : Option Bytes) = none
  | ⟨.reencryptStatus, a⟩ => (a : Option Bool) = none
  | ⟨.openByName _, a⟩ => (a : Bool) = false
  | ⟨.listDevices, a⟩ => (a : Option (List (List Char))) = none
  | ⟨.deviceUuid _, a⟩ => (a : Option (Option (List Char))) = none

/-- A program that stops with an error at the first failure. -/
def Strict {α : Type} (p : Proc sig Err α) : Prop :=
  ∀ t d u r, Prog.Ends p (t ++ d :: u) r → Failed d → u = [] ∧ ∃ e, r = .err e

theorem strict_ret {α : Type} {r : Res Err α} : Strict (Prog.ret r : Proc sig Err α) := by
  intro t d u r' h _
  have := (Prog.ends_ret h).1
  simp at this

theorem strict_bind {α β : Type} {p : Proc sig Err α} {f : α → Proc sig Err β} (hp : Strict p) (hf : ∀ a, Strict (f a)) :
    Strict (p >>= f) := by
  intro t d u r h hd
  rcases Proc.ends_bind' h with ⟨a, t1, t2, e, h1, h2⟩ | ⟨e, h1, rfl⟩ | ⟨h1, rfl⟩
  · rw [List.append_eq_append_iff] at e
    rcases e with ⟨as, rfl, e⟩ | ⟨bs, rfl, e⟩
    · cases as with
      | nil =>
        rw [List.nil_append] at e
        subst e
        exact hf a [] d u r h2 hd
      | cons x as =>
        rw [List.cons_append, List.cons.injEq] at e
        obtain ⟨rfl, rfl⟩ := e
        obtain ⟨_, e, he⟩ := hp t d as _ h1 hd
        cases he
    · subst e
      exact hf a bs d u r h2 hd
  · exact ⟨(hp t d u _ h1 hd).1, e, rfl⟩
  · obtain ⟨h2, e, he⟩ := hp t d u _ h1 hd
    cases he

/-- A query whose failure is passed on. -/
theorem strict_query {α : Type} {o : Op} {f : o.Ans → Proc sig Err α} (hf : ∀ a, Strict (f a))
    (hn : ∀ a, Failed ⟨o, a⟩ → ∃ e, f a = Prog.ret (.err e)) : Strict (Proc.ask (S := sig) o >>= f) := by
  intro t d u r h hd
  obtain ⟨a, t', e, h'⟩ := Prog.ends_act h
  cases t with
  | nil =>
    rw [List.nil_append, List.cons.injEq] at e
    obtain ⟨rfl, rfl⟩ := e
    obtain ⟨e, he⟩ := hn a hd
    have h' : Prog.Ends (f a) u r := h'
    rw [he] at h'
    obtain ⟨rfl, rfl⟩ := Prog.ends_ret h'
    exact ⟨rfl, e, rfl⟩
  | cons x t =>
    rw [List.cons_append, List.cons.injEq] at e
    obtain ⟨rfl, rfl⟩ := e
    exact hf a t d u r h' hd

theorem strict_some? {α : Type} {e : Err} {o : Option α} : Strict (Proc.some? e o : Proc sig Err α) := by
  cases o <;> exact strict_ret

theorem strict_must {o : Op} {h : o.Ans = Bool} (hf : ∀ a : o.Ans, Failed ⟨o, a⟩ → (h ▸ a : Bool) = false) : Strict (must o h) := by
  refine strict_query (fun a => ?_) fun a ha => ⟨.host, ?_⟩
  · generalize (h ▸ a : Bool) = b
    cases b <;> exact strict_ret
  · rw [hf a ha]
    rfl

theorem strict_command {cmd : List Char} {args : List (List Char)} {input : Option Bytes} : Strict (command cmd args input) := by
  refine strict_query (fun _ => strict_some?) fun a ha => ⟨.host, ?_⟩
  have ha : a = none := ha
  rw [ha]
  rfl

theorem strict_findToken (l : List Nat) (a : Option Nat) : Strict (findToken l a) := by
  induction l generalizing a with
  | nil => exact strict_ret
  | cons i l ih =>
    refine strict_query (fun b => strict_bind strict_some? fun info => ?_) fun b hb => ⟨.host, ?_⟩
    · split
      · cases a with
        | some _ => exact strict_ret
        | none => exact ih _
      · exact ih _
    · have hb : b = none := hb
      rw [hb]
      rfl

theorem strict_path : Strict devicePath := by
  refine strict_query (fun _ => strict_some?) fun a ha => ⟨.host, ?_⟩
  have ha : a = none := ha
  rw [ha]
  rfl

theorem strict_getPass : Strict getClevisTokenSlotPass := by
  refine strict_bind (strict_bind (strict_findToken _ _) fun _ => strict_some?) fun i => strict_bind ?_ fun s => strict_bind strict_path fun p =>
    strict_bind strict_command fun _ => strict_ret
  refine strict_query (fun _ => strict_bind strict_some? fun _ => strict_some?) fun a ha => ⟨.host, ?_⟩
  have ha : a = none := ha
  rw [ha]
  rfl

theorem strict_rebind (pin config : List Char) : Strict (rebindClevis pin config) :=
  strict_bind strict_getPass fun _ => strict_bind (strict_bind strict_path fun _ => strict_bind strict_command fun _ => strict_must fun _ h => h)
    fun _ => strict_bind (strict_must fun _ h => h) fun _ => strict_must fun _ h => h

theorem strict_initiate : Strict initiateReencrypt :=
  strict_bind strict_getPass fun _ => strict_bind strict_path fun _ => strict_bind strict_command fun _ => strict_ret

theorem strict_perform (name : List Char) : Strict (performReencrypt name) := by
  refine strict_bind (strict_must fun _ h => h) fun _ => strict_bind (strict_must fun _ h => h) fun _ =>
    strict_query (fun _ => strict_bind strict_some? fun b => ?_) fun a ha => ⟨.host, ?_⟩
  · cases b with
    | true => exact strict_bind strict_getPass fun _ => strict_bind strict_command fun _ => strict_ret
    | false => exact strict_ret
  · have ha : a = none := ha
    rw [ha]
    rfl

theorem strict_each (l : List (List Char)) : Strict (performEach l) := by
  induction l with
  | nil => exact strict_ret
  | cons name l ih =>
    refine strict_query (fun _ => strict_bind strict_some? fun u => ?_) fun a ha => ⟨.host, ?_⟩
    · cases u with
      | none => exact ih
      | some u =>
        show Strict (if _ then _ else _)
        split
        · exact strict_bind (strict_perform name) fun _ => ih
        · exact ih
    · have ha : a = none := ha
      rw [ha]
      rfl

theorem strict_required : Strict performRequiredReencrypts := by
  refine strict_query (fun _ => strict_bind strict_some? fun l => strict_each l) fun a ha => ⟨.host, ?_⟩
  have ha : a = none := ha
  rw [ha]
  rfl

/-! ### What is done -/

/-- Getting the passphrase: a token of Clevis is found (and no other one among the first ten), the first keyslot it is for, the path
of the device; and `clevis` unseals it. -/
def Unsealed (t : Trace sig) (pass : Bytes) : Prop :=
  ∃ (i : Nat) (s : Nat) (j : Json) (path : List Char) (q : Trace sig),
    t = q ++ [⟨.tokenJson i, some j⟩, ⟨.path, some path⟩,
      ⟨.run clevis ["luks".toList, "pass".toList, "-d".toList, path, "-s".toList, decimal s] none, some pass⟩] ∧
    (⟨.tokenStatus i, some (.externalUnknown clevis)⟩ : sig.Deed) ∈ q ∧
    (∀ k, (⟨.tokenStatus k, some (.externalUnknown clevis)⟩ : sig.Deed) ∈ q → k = i) ∧ (∀ d ∈ q, ∃ k, d.1 = .tokenStatus k ∧ k < 10) ∧
    firstSlot j = some s

theorem ends_findToken {l : List Nat} {a x : Option Nat} {t : Trace sig} (h : Prog.Ends (findToken l a) t (.ok x)) :
    (∀ d ∈ t, ∃ k, d.1 = .tokenStatus k ∧ k ∈ l) ∧
    ((x = a ∧ ∀ k, (⟨.tokenStatus k, some (.externalUnknown clevis)⟩ : sig.Deed) ∉ t) ∨
     (a = none ∧ ∃ i, x = some i ∧ (⟨.tokenStatus i, some (.externalUnknown clevis)⟩ : sig.Deed) ∈ t ∧
        ∀ k, (⟨.tokenStatus k, some (.externalUnknown clevis)⟩ : sig.Deed) ∈ t → k = i)) := by
  induction l generalizing a t with
  | nil =>
    obtain ⟨rfl, e⟩ := Prog.ends_ret h
    cases e
    exact ⟨nofun, .inl ⟨rfl, nofun⟩⟩
  | cons i l ih =>
    replace h := Proc.ends_ask_bind h; obtain ⟨b, t', rfl, h⟩ := h
    replace h := Proc.ends_some_bind h; obtain ⟨info, hb, h⟩ := h
    have hb : b = some info := hb
    subst hb
    split at h
    · next hi =>
      subst hi
      cases a with
      | some a => exact (Proc.ends_fail h).elim
      | none =>
        obtain ⟨h1, h2⟩ := ih h
        refine ⟨fun d hd => ?_, ?_⟩
        · rcases List.mem_cons.1 hd with rfl | hd
          · exact ⟨i, rfl, List.mem_cons_self⟩
          · obtain ⟨k, hk, hk'⟩ := h1 d hd
            exact ⟨k, hk, List.mem_cons_of_mem _ hk'⟩
        · rcases h2 with ⟨rfl, h2⟩ | ⟨h2, _⟩
          · refine .inr ⟨rfl, i, rfl, List.mem_cons_self, fun k hk => ?_⟩
            rcases List.mem_cons.1 hk with hk | hk
            · cases hk; rfl
            · exact absurd hk (h2 k)
          · cases h2
    · next hi =>
      obtain ⟨h1, h2⟩ := ih h
      have hne : ∀ k, (⟨.tokenStatus k, some (.externalUnknown clevis)⟩ : sig.Deed) ≠ ⟨.tokenStatus i, some info⟩ := by
        intro k e
        cases e
        exact hi rfl
      refine ⟨fun d hd => ?_, ?_⟩
      · rcases List.mem_cons.1 hd with rfl | hd
        · exact ⟨i, rfl, List.mem_cons_self⟩
        · obtain ⟨k, hk, hk'⟩ := h1 d hd
          exact ⟨k, hk, List.mem_cons_of_mem _ hk'⟩
      · rcases h2 with ⟨rfl, h2⟩ | ⟨rfl, k, rfl, hk, hu⟩
        · exact .inl ⟨rfl, fun k hk => (List.mem_cons.1 hk).elim (hne k) (h2 k)⟩
        · exact .inr ⟨rfl, k, rfl, List.mem_cons_of_mem _ hk, fun k' hk' => (List.mem_cons.1 hk').elim (fun e => absurd e (hne k')) (hu k')⟩

theorem ends_command {cmd : List Char} {args : List (List Char)} {input : Option Bytes} {t : Trace sig} {o : Bytes}
    (h : Prog.Ends (command cmd args input) t (.ok o)) : t = [⟨.run cmd args input, some o⟩] := by
  replace h := Proc.ends_ask_bind h; obtain ⟨a, t', rfl, h⟩ := h
  obtain ⟨rfl, ha⟩ := Proc.ends_some? h
  have ha : a = some o := ha
  rw [ha]

theorem ends_getPass {t : Trace sig} {x : Nat × Nat × Bytes} (h : Prog.Ends getClevisTokenSlotPass t (.ok x)) : Unsealed t x.2.2 := by
  replace h := Proc.ends_bind h; obtain ⟨i, t1, t2, rfl, h1, h⟩ := h
  obtain ⟨fo, t3, t4, rfl, h2, h3⟩ := Proc.ends_bind h1
  obtain ⟨rfl, rfl⟩ := Proc.ends_some? h3
  obtain ⟨hq, hf⟩ := ends_findToken h2
  rcases hf with ⟨hf, _⟩ | ⟨_, i', e, hi, hu⟩
  · cases hf
  cases e
  replace h := Proc.ends_bind h; obtain ⟨s, t4, t5, rfl, h4, h⟩ := h
  replace h4 := Proc.ends_ask_bind h4; obtain ⟨a, t6, rfl, h4⟩ := h4
  replace h4 := Proc.ends_some_bind h4; obtain ⟨j, ha, h4⟩ := h4
  have ha : a = some j := ha
  subst ha
  obtain ⟨rfl, hs⟩ := Proc.ends_some? h4
  replace h := Proc.ends_bind h; obtain ⟨p, t6, t7, rfl, h5, h⟩ := h
  replace h5 := Proc.ends_ask_bind h5; obtain ⟨a, t8, rfl, h5⟩ := h5
  obtain ⟨rfl, ha⟩ := Proc.ends_some? h5
  have ha : a = some p := ha
  subst ha
  replace h := Proc.ends_bind h; obtain ⟨o, t8, t9, rfl, h6, h⟩ := h
  obtain rfl := ends_command h6
  obtain ⟨rfl, rfl⟩ := Proc.ends_pure h
  exact ⟨i, s, j, p, t3, by simp, hi, hu, fun d hd => by
    obtain ⟨k, hk, hk'⟩ := hq d hd
    exact ⟨k, hk, List.mem_range.1 hk'⟩, hs⟩

/-- What is done for the devices of a list: those with a UUID of LUKS2 are opened and asked for a pending re-encryption, and it is gone on with,
given the passphrase `clevis` has unsealed. -/
inductive Resumed : List (List Char) → Trace sig → Prop
  | nil : Resumed [] []
  | other {name : List Char} {l : List (List Char)} {u : Option (List Char)} {t : Trace sig}
      (hu : ∀ x, u ≠ some ("CRYPT-LUKS2-".toList ++ x)) (h : Resumed l t) : Resumed (name :: l) (⟨.deviceUuid name, some u⟩ :: t)
  | none {name x : List Char} {l : List (List Char)} {t : Trace sig} (h : Resumed l t) :
      Resumed (name :: l) ([⟨.deviceUuid name, some (some ("CRYPT-LUKS2-".toList ++ x))⟩, ⟨.openByName name, true⟩, ⟨.load, true⟩,
        ⟨.reencryptStatus, some false⟩] ++ t)
  | pending {name x : List Char} {l : List (List Char)} {q t : Trace sig} {pass o : Bytes} (hq : Unsealed q pass) (h : Resumed l t) :
      Resumed (name :: l) ([⟨.deviceUuid name, some (some ("CRYPT-LUKS2-".toList ++ x))⟩, ⟨.openByName name, true⟩, ⟨.load, true⟩,
        ⟨.reencryptStatus, some true⟩] ++ q ++ [⟨.run "cryptsetup".toList ["reencrypt".toList, "--resume-only".toList, "--active-name".toList, name,
          "--key-file".toList, "-".toList] (some pass), some o⟩] ++ t)

theorem ends_must {o : Op} {ho : o.Ans = Bool} {t : Trace sig} (h : Prog.Ends (must o ho) t (.ok ())) :
    ∃ a : o.Ans, (ho ▸ a : Bool) = true ∧ t = [⟨o, a⟩] := by
  replace h := Proc.ends_ask_bind h; obtain ⟨a, t', rfl, h⟩ := h
  obtain ⟨rfl, ha⟩ := Proc.ends_check h
  exact ⟨a, ha, rfl⟩

theorem ends_each {l : List (List Char)} {t : Trace sig} (h : Prog.Ends (performEach l) t (.ok ())) : Resumed l t := by
  induction l generalizing t with
  | nil =>
    obtain ⟨rfl, _⟩ := Prog.ends_ret h
    exact .nil
  | cons name l ih =>
    replace h := Proc.ends_ask_bind h; obtain ⟨a, t', rfl, h⟩ := h
    replace h := Proc.ends_some_bind h; obtain ⟨u, ha, h⟩ := h
    have ha : a = some u := ha
    subst ha
    cases u with
    | none => exact .other nofun (ih h)
    | some u =>
      dsimp only at h
      by_cases hp : "CRYPT-LUKS2-".toList.isPrefixOf u = true
      · rw [if_pos hp] at h
        obtain ⟨x, rfl⟩ := List.isPrefixOf_iff_prefix.1 hp
        obtain ⟨_, t1, t2, rfl, h1, h2⟩ := Proc.ends_bind h
        replace h1 := Proc.ends_bind h1; obtain ⟨_, t3, t4, rfl, h3, h1⟩ := h1
        obtain ⟨a, ha, rfl⟩ := ends_must h3
        have ha : a = true := ha
        subst ha
        replace h1 := Proc.ends_bind h1; obtain ⟨_, t3, t5, rfl, h3, h1⟩ := h1
        obtain ⟨a, ha, rfl⟩ := ends_must h3
        have ha : a = true := ha
        subst ha
        replace h1 := Proc.ends_ask_bind h1; obtain ⟨a, t3, rfl, h1⟩ := h1
        replace h1 := Proc.ends_some_bind h1; obtain ⟨b, ha, h1⟩ := h1
        have ha : a = some b := ha
        subst ha
        cases b with
        | false =>
          obtain ⟨rfl, _⟩ := Proc.ends_pure h1
          exact .none (ih h2)
        | true =>
          have h1 : Prog.Ends (do
              let (_, _, pass) ← getClevisTokenSlotPass
              let _ ← command "cryptsetup".toList ["reencrypt".toList, "--resume-only".toList, "--active-name".toList, name,
                "--key-file".toList, "-".toList] (some pass)
              pure () : Proc sig Err Unit) t3 (.ok ()) := h1
          obtain ⟨⟨i, s, pass⟩, t4, t5, rfl, h4, h5⟩ := Proc.ends_bind h1
          obtain ⟨o, t6, t7, rfl, h6, h7⟩ := Proc.ends_bind h5
          obtain rfl := ends_command h6
          obtain ⟨rfl, _⟩ := Proc.ends_pure h7
          have := Resumed.pending (name := name) (x := x) (o := o) (ends_getPass h4) (ih h2)
          simpa using this
      · rw [if_neg hp] at h
        refine .other (fun x e => hp ?_) (ih h)
        cases e
        exact List.isPrefixOf_iff_prefix.2 ⟨x, rfl⟩

/-- **C75**, pending re-encryptions: if the client has ended well with a marked device, then for every device known to the device mapper, in
order: it is not of LUKS2, or it has no pending re-encryption, or that was gone on with to the end. (Missing: a failure at one device, see
`C75_others_violated`.) -/
theorem C75_resumed_partial {t : Trace sig} (h : Prog.Ends performRequiredReencrypts t (.ok ())) :
    ∃ l t', t = ⟨.listDevices, some l⟩ :: t' ∧ Resumed l t' := by
  replace h := Proc.ends_ask_bind h; obtain ⟨a, t', rfl, h⟩ := h
  replace h := Proc.ends_some_bind h; obtain ⟨l, ha, h⟩ := h
  have ha : a = some l := ha
  subst ha
  exact ⟨l, t', rfl, ends_each h⟩

/-- **C75** is violated when something fails at one device: then nothing is done any more for those after it. -/
theorem C75_others_violated {t u : Trace sig} {d : sig.Deed} {r : Res Err Unit} (h : Prog.Ends performRequiredReencrypts (t ++ d :: u) r)
    (hd : Failed d) : u = [] ∧ ∃ e, r = .err e := strict_required t d u r h hd

/-- The same for binding and starting to re-encrypt: the first failure ends it and is reported. -/
theorem C74_reported {t u : Trace sig} {d : sig.Deed} {r : Res Err Unit} (pin config : List Char)
    (h : Prog.Ends (rebindClevis pin config) (t ++ d :: u) r ∨ Prog.Ends initiateReencrypt (t ++ d :: u) r) (hd : Failed d) :
    u = [] ∧ ∃ e, r = .err e :=
  h.elim (fun h => strict_rebind pin config t d u r h hd) (fun h => strict_initiate t d u r h hd)

/-- Two devices to go on with, and the first cannot be opened. -/
example : Prog.Ends performRequiredReencrypts [⟨.listDevices, some ["a".toList, "b".toList]⟩,
    ⟨.deviceUuid "a".toList, some (some "CRYPT-LUKS2-1".toList)⟩, ⟨.openByName "a".toList, false⟩] (.err .host) :=
  .cons (.cons (.cons (.nil _)))

/-- Re-encryption is started with the passphrase that was unsealed, for the keyslot it is of. -/
theorem C75_initiated {t : Trace sig} (h : Prog.Ends initiateReencrypt t (.ok ())) :
    ∃ q pass path s o, t = q ++ [⟨.path, some path⟩, ⟨.run "cryptsetup".toList ["reencrypt".toList, "--init-only".toList, path,
      "--key-file".toList, "-".toList, "--key-slot".toList, decimal s] (some pass), some o⟩] ∧ Unsealed q pass ∧
      ∃ path', (⟨.run clevis ["luks".toList, "pass".toList, "-d".toList, path', "-s".toList, decimal s] none, some pass⟩ : sig.Deed) ∈ q := by
  replace h := Proc.ends_bind h; obtain ⟨⟨i, s, pass⟩, t1, t2, rfl, h1, h⟩ := h
  replace h := Proc.ends_bind h; obtain ⟨p, t3, t4, rfl, h2, h⟩ := h
  replace h2 := Proc.ends_ask_bind h2; obtain ⟨a, t5, rfl, h2⟩ := h2
  obtain ⟨rfl, ha⟩ := Proc.ends_some? h2
  have ha : a = some p := ha
  subst ha
  replace h := Proc.ends_bind h; obtain ⟨o, t5, t6, rfl, h3, h⟩ := h
  obtain rfl := ends_command h3
  obtain ⟨rfl, _⟩ := Proc.ends_pure h
  refine ⟨t1, pass, p, s, o, by simp, ends_getPass h1, ?_⟩
  replace h1 := Proc.ends_bind h1; obtain ⟨i', t3, t4, rfl, h4, h1⟩ := h1
  replace h1 := Proc.ends_bind h1; obtain ⟨s', t5, t6, rfl, h5, h1⟩ := h1
  replace h1 := Proc.ends_bind h1; obtain ⟨p', t7, t8, rfl, h6, h1⟩ := h1
  replace h1 := Proc.ends_bind h1; obtain ⟨o', t9, t10, rfl, h7, h1⟩ := h1
  obtain rfl := ends_command h7
  obtain ⟨rfl, e⟩ := Proc.ends_pure h1
  cases e
  exact ⟨p', by simp⟩

end Verif.Disk

namespace Verif.Device
open Verif
variable {R : DevEnv} {c : Bool} {A : Http.Aead}

/-- **C75**, nobody is contacted: the client does nothing on a marked device but going on with re-encryptions, nothing at all on one without a
credential, and only reads the credential of one that has been deactivated. -/
theorem C75_quiet (w : Credential.Surroundings) (h : SiClient.Host) (n : Nat) {t : Trace (sig R)}
    (hd : Prog.Does (main (R := R) c A w h n) t) :
    (w.exists? (markerPath w) = true → t = [] ∨ ∃ a, t = [⟨.app .reencrypt, a⟩]) ∧
    (w.exists? (markerPath w) = false → Credential.find w = none → t = []) ∧
    (∀ l b cr t', w.exists? (markerPath w) = false → Credential.find w = some (.ok l) → R.codec.dec b = some cr → cr.active = false →
      t = ⟨.app (.fs (.read l.path)), (some b : Option Bytes)⟩ :: t' → t' = []) := by
  refine ⟨fun hm => ?_, fun hm hf => ?_, fun l b cr t' hm hf hb ha e => ?_⟩
  · unfold main at hd
    rw [if_pos hm] at hd
    rcases Proc.does_bind hd with h1 | ⟨a, t1, t2, rfl, h1, h2⟩
    · rcases Proc.does_ask h1 with rfl | ⟨a, rfl⟩
      · exact .inl rfl
      · exact .inr ⟨a, rfl⟩
    · obtain ⟨a', ha, rfl⟩ := Http.ends_app h1
      obtain rfl := Proc.does_check h2
      exact .inr ⟨a', rfl⟩
  · unfold main at hd
    rw [if_neg (by simp [hm]), hf] at hd
    exact Proc.does_pure hd
  · subst e
    unfold main at hd
    rw [if_neg (by simp [hm]), hf] at hd
    rcases Proc.does_bind hd with h1 | ⟨cr', t1, t2, e, h1, h2⟩
    · obtain ⟨q, h1⟩ := h1
      cases h1 with
      | cons h1 =>
        have h2 : Prog.Steps (Proc.mapErr (fun _ => DevErr.io) (files (R := R) (Proc.some? Credential.CredErr.parse (R.codec.dec b)))) t' q := h1
        rw [hb] at h2
        exact (Prog.steps_ret h2).1
    · obtain ⟨b', h1, hb'⟩ := ends_files_readCred h1
      subst h1
      cases e
      rw [hb] at hb'
      cases hb'
      unfold start at h2
      rw [if_pos (by simp [ha])] at h2
      exact Proc.does_pure h2

end Verif.Device

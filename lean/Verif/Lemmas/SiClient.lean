import Verif.Model.SiClient
import Verif.Lemmas.Hoare
import Mathlib.Data.List.Forall2
/-!
Facts about the model of the service info client: which effects its parts have, what they leave alone, and the rule for
its loop.
-/
namespace Verif.SiClient
open Verif Verif.Types Verif.ServiceInfo

/-! ### Parts of a trace -/

/-- The changes of a deed made on behalf of a module, with their outcome. -/
def actOf (m : SiModule) : sig.Deed → List (Act × Bool)
  | ⟨.host m' (.does a), ok⟩ => if m' = m then [(a, ok)] else []
  | _ => []

/-- The changes made on behalf of a module, with their outcomes. -/
def acts (m : SiModule) (t : Trace sig) : List (Act × Bool) := t.flatMap (actOf m)

/-- A program that was run. -/
structure Ran where
  prog : List Char
  args : List (List Char)
  input : Option (List Char)
  output : Option Output

/-- The programs of a deed. -/
def ranOf (m : SiModule) : sig.Deed → List Ran
  | ⟨.host m' (.run p a i), o⟩ => if m' = m then [⟨p, a, i, o⟩] else []
  | _ => []

/-- The programs run on behalf of a module. -/
def ran (m : SiModule) (t : Trace sig) : List Ran := t.flatMap (ranOf m)

theorem acts_append (m : SiModule) (t u : Trace sig) : acts m (t ++ u) = acts m t ++ acts m u := by simp [acts]

theorem ran_append (m : SiModule) (t u : Trace sig) : ran m (t ++ u) = ran m t ++ ran m u := by simp [ran]

/-- Effects on behalf of a module. -/
def By (m : SiModule) (e : Eff) : Prop := ∃ op, e = .host m op

theorem actOf_by {m m' : SiModule} {d : sig.Deed} (h : By m d.1) (hm : m ≠ m') : actOf m' d = [] := by
  obtain ⟨e, a⟩ := d
  obtain ⟨op, rfl⟩ := h
  cases op <;> simp [actOf, hm]

theorem ranOf_by {m m' : SiModule} {d : sig.Deed} (h : By m d.1) (hm : m ≠ m') : ranOf m' d = [] := by
  obtain ⟨e, a⟩ := d
  obtain ⟨op, rfl⟩ := h
  cases op <;> simp [ranOf, hm]

theorem acts_by {m m' : SiModule} {t : Trace sig} (h : ∀ d ∈ t, By m d.1) (hm : m ≠ m') : acts m' t = [] := by
  simp only [acts, List.flatMap_eq_nil_iff]
  exact fun d hd => actOf_by (h d hd) hm

theorem ran_by {m m' : SiModule} {t : Trace sig} (h : ∀ d ∈ t, By m d.1) (hm : m ≠ m') : ran m' t = [] := by
  simp only [ran, List.flatMap_eq_nil_iff]
  exact fun d hd => ranOf_by (h d hd) hm

/-! ### Effects of the parts -/

section only
variable {α β : Type} {P : Eff → Prop}

theorem only_bind {p : Proc sig Err α} {f : α → Proc sig Err β} (hp : Prog.Only P p) (hf : ∀ a, Prog.Only P (f a)) :
    Prog.Only P (p >>= f : Proc sig Err β) :=
  Prog.only_bind hp fun r => by
    cases r with
    | ok a => exact hf a
    | err e => exact Prog.only_ret
    | panic => exact Prog.only_ret

theorem only_pure {a : α} : Prog.Only P (pure a : Proc sig Err α) := Prog.only_ret
theorem only_fail {e : Err} : Prog.Only P (Proc.fail e : Proc sig Err α) := Prog.only_ret
theorem only_lift {r : Res Err α} : Prog.Only P (Proc.lift r : Proc sig Err α) := Prog.only_ret
theorem only_check {e : Err} {b : Bool} : Prog.Only P (Proc.check e b : Proc sig Err Unit) := by
  cases b <;> exact Prog.only_ret
theorem only_some? {e : Err} {o : Option α} : Prog.Only P (Proc.some? e o : Proc sig Err α) := by
  cases o <;> exact Prog.only_ret

theorem only_ask {m : SiModule} {op : Op} : Prog.Only (By m) (ask m op) :=
  Prog.only_act ⟨op, rfl⟩ fun _ => Prog.only_ret

theorem only_must {m : SiModule} {a : Act} : Prog.Only (By m) (must m a) :=
  only_bind only_ask fun _ => only_check

theorem only_there {m : SiModule} {p : Path} : Prog.Only (By m) (there m p) := only_ask

theorem only_run {m : SiModule} {p : List Char} {a : List (List Char)} {i : Option (List Char)} :
    Prog.Only (By m) (run m p a i) := only_bind only_ask fun _ => only_some?

theorem only_ite {c : Prop} [Decidable c] {p q : Proc sig Err α} (hp : c → Prog.Only P p) (hq : ¬c → Prog.Only P q) :
    Prog.Only P (if c then p else q) := by
  cases ‹Decidable c› with
  | isTrue h => exact hp h
  | isFalse h => exact hq h

theorem only_when {b : Bool} {p : Proc sig Err Unit} (hp : Prog.Only P p) : Prog.Only P (when b p) :=
  only_ite (fun _ => hp) fun _ => only_pure

end only

theorem only_userExists {u : List Char} : Prog.Only (By .sshKey) (userExists u) :=
  only_bind only_ask fun _ => only_lift

theorem only_createUser {u : List Char} : Prog.Only (By .sshKey) (createUser u) :=
  only_bind only_userExists fun _ => only_ite (fun _ => only_pure) fun _ => only_bind only_run fun _ => only_check

theorem only_encrypt {h : Host} {p : List Char} : Prog.Only (By .sshKey) (encrypt h p) :=
  only_ite (fun _ => only_pure) fun _ => only_bind only_run fun o => by
    split
    · exact only_lift
    · exact only_pure

theorem only_createUserWithPassword {h : Host} {u p : List Char} :
    Prog.Only (By .sshKey) (createUserWithPassword h u p) :=
  only_bind only_userExists fun _ => only_ite (fun _ => only_pure) fun _ =>
    only_bind only_encrypt fun _ => only_bind only_run fun _ => only_check

theorem only_installKey {h : Host} {u k : List Char} : Prog.Only (By .sshKey) (installKey h u k) := by
  refine only_bind only_ask fun _ => only_bind only_lift fun ⟨uid, gid, home⟩ => only_bind ?_ fun p =>
    only_bind only_there fun b => only_bind ?_ fun c => only_bind only_must fun _ => only_bind only_must fun _ =>
      only_bind only_must fun _ => only_must
  · cases h.sshPath with
    | some p => exact only_pure
    | none =>
      exact only_bind only_there fun b => only_bind (only_when
        (only_bind only_must fun _ => only_bind only_must fun _ => only_must)) fun _ => only_pure
  · exact only_ite (fun _ => only_bind only_ask fun _ => only_some?) fun _ => only_pure

theorem only_installKeys {h : Host} {u : List Char} : ∀ {l : List (List Char)},
    Prog.Only (By .sshKey) (installKeys h u l)
  | [] => only_pure
  | _ :: _ => only_bind only_installKey fun _ => only_installKeys

theorem only_setUpUser {h : Host} {u : UserSt} : Prog.Only (By .sshKey) (setUpUser h u) := by
  refine only_bind only_some? fun user => only_bind only_check fun _ => only_bind ?_ fun _ => ?_
  · split
    · exact only_createUserWithPassword
    · exact only_pure
  · split
    · exact only_bind only_createUser fun _ => only_installKeys
    · exact only_pure

theorem only_rhsm {r : RhsmSt} : Prog.Only (By .subscriptionManager) (rhsm r) := by
  unfold rhsm
  split
  · exact only_bind only_run fun _ => only_when (only_bind only_run fun _ => only_pure)
  · exact only_fail

theorem only_userItem {P : Eff → Prop} {k : List Char} {v : Val} {u : UserSt} : Prog.Only P (userItem k v u) := by
  unfold userItem
  repeat' split
  all_goals first | exact only_pure | exact only_bind only_some? fun _ => only_pure

theorem only_rhsmItem {P : Eff → Prop} {k : List Char} {v : Val} {u : RhsmSt} : Prog.Only P (rhsmItem k v u) := by
  unfold rhsmItem
  repeat' split
  all_goals first | exact only_pure | exact only_bind only_some? fun _ => only_pure

theorem only_deploy {h : Host} {p : Path} {c : Bytes} {m : Option Nat} : Prog.Only (By .binaryFile) (deploy h p c m) := by
  refine only_bind only_some? fun path => ?_
  split
  · exact only_lift
  · exact only_bind only_must fun _ => only_bind only_must fun _ => only_bind only_must fun _ =>
      only_bind only_must fun _ => only_must

theorem only_fileItem {h : Host} {k : List Char} {v : Val} {f : FileSt} : Prog.Only (By .binaryFile) (fileItem h k v f) := by
  unfold fileItem
  refine only_ite (fun _ => only_ite (fun _ => only_fail) fun _ => only_bind only_some? fun _ => only_pure) fun _ =>
    only_ite (fun _ => only_ite (fun _ => only_fail) fun _ => only_bind only_some? fun _ =>
      only_ite (fun _ => only_pure) fun _ => only_lift) fun _ => only_ite (fun _ => ?_) fun _ =>
    only_ite (fun _ => only_ite (fun _ => only_fail) fun _ => only_bind only_some? fun _ => only_pure) fun _ =>
    only_ite (fun _ => ?_) fun _ => only_pure
  · split
    · exact only_fail
    · exact only_bind only_some? fun _ => only_pure
  · exact only_bind only_some? fun _ => only_bind only_some? fun _ => only_bind only_check fun _ =>
      only_bind only_some? fun _ => only_bind only_some? fun ⟨_, _⟩ => only_bind only_check fun _ =>
      only_bind only_lift fun _ => only_bind only_deploy fun _ => only_pure

theorem only_execute {c : CmdSt} {out : List Item} : Prog.Only (By .command) (execute c out) := by
  unfold execute
  split
  · exact only_lift
  · exact only_bind only_run fun _ => only_bind only_check fun _ => only_pure

theorem only_cmdItem {k : List Char} {v : Val} {c : CmdSt} {out : List Item} :
    Prog.Only (By .command) (cmdItem k v c out) := by
  unfold cmdItem
  repeat' split
  all_goals first
    | exact only_pure
    | exact only_fail
    | exact only_bind only_some? fun _ => only_pure
    | exact only_bind only_execute fun _ => only_pure

theorem only_diskExecute {d : DiskSt} {out : List Item} : Prog.Only (By .diskEncryptionClevis) (diskExecute d out) :=
  only_bind only_some? fun _ => only_bind only_some? fun _ => only_bind only_some? fun _ => only_bind only_must fun _ =>
    only_bind only_must fun _ => only_bind only_must fun _ =>
    only_bind (only_when only_must) fun _ => only_pure

theorem only_diskItem {k : List Char} {v : Val} {d : DiskSt} {out : List Item} :
    Prog.Only (By .diskEncryptionClevis) (diskItem k v d out) := by
  unfold diskItem
  repeat' split
  all_goals first
    | exact only_pure
    | exact only_fail
    | exact only_bind only_some? fun _ => only_pure
    | exact only_bind only_diskExecute fun _ => only_pure

/-- An instruction has effects only on behalf of its module. -/
theorem only_obey {h : Host} {s : St} {m : SiModule} {k : List Char} {v : Val} :
    Prog.Only (By m) (obey h s m k v) := by
  cases m with
  | sshKey => exact only_bind only_userItem fun _ => only_pure
  | reboot => exact only_ite (fun _ => only_bind only_some? fun _ => only_pure) fun _ => only_pure
  | subscriptionManager => exact only_bind only_rhsmItem fun _ => only_pure
  | binaryFile => exact only_bind only_fileItem fun _ => only_pure
  | command => exact only_bind only_cmdItem fun ⟨_, _⟩ => only_pure
  | diskEncryptionClevis => exact only_bind only_diskItem fun ⟨_, _⟩ => only_pure
  | devMod => exact only_pure
  | unsupported n => exact only_pure

/-- Only these modules have effects. -/
def Supported (m : SiModule) : Prop :=
  m = .sshKey ∨ m = .subscriptionManager ∨ m = .binaryFile ∨ m = .command ∨ m = .diskEncryptionClevis

theorem only_obey_none {h : Host} {s : St} {m : SiModule} {k : List Char} {v : Val}
    (hm : m ≠ .binaryFile ∧ m ≠ .command ∧ m ≠ .diskEncryptionClevis) :
    Prog.Only (fun _ => False) (obey h s m k v) := by
  cases m with
  | sshKey => exact only_bind only_userItem fun _ => only_pure
  | reboot => exact only_ite (fun _ => only_bind only_some? fun _ => only_pure) fun _ => only_pure
  | subscriptionManager => exact only_bind only_rhsmItem fun _ => only_pure
  | binaryFile => exact absurd rfl hm.1
  | command => exact absurd rfl hm.2.1
  | diskEncryptionClevis => exact absurd rfl hm.2.2
  | devMod => exact only_pure
  | unsupported n => exact only_pure

/-! ### What the parts leave alone -/

theorem obey_sshKey {h : Host} {s s' : St} {k : List Char} {v : Val} {t : Trace sig}
    (he : Prog.Ends (obey h s .sshKey k v) t (.ok s')) : ∃ u, Prog.Ends (userItem k v s.user) t (.ok u) ∧
      s' = { s with user := u } := by
  obtain ⟨u, t1, t2, rfl, h1, h2⟩ := Proc.ends_bind he
  obtain ⟨rfl, rfl⟩ := Proc.ends_pure h2
  exact ⟨u, by rw [List.append_nil]; exact h1, rfl⟩

theorem obey_reboot {h : Host} {s s' : St} {k : List Char} {v : Val} {t : Trace sig}
    (he : Prog.Ends (obey h s .reboot k v) t (.ok s')) :
    (k = "reboot".toList ∧ ∃ b, v = .bool b ∧ s' = { s with reboot := b }) ∨ (k ≠ "reboot".toList ∧ s' = s) := by
  unfold obey at he
  simp only at he
  split at he
  · next hk =>
    obtain ⟨b, t1, t2, rfl, h1, h2⟩ := Proc.ends_bind he
    obtain ⟨rfl, rfl⟩ := Proc.ends_pure h2
    obtain ⟨rfl, hb⟩ := Proc.ends_some? h1
    refine .inl ⟨hk, b, ?_, rfl⟩
    cases v <;> simp [asBool] at hb
    rw [hb]
  · next hk =>
    obtain ⟨rfl, rfl⟩ := Proc.ends_pure he
    exact .inr ⟨hk, rfl⟩

theorem obey_rhsm {h : Host} {s s' : St} {k : List Char} {v : Val} {t : Trace sig}
    (he : Prog.Ends (obey h s .subscriptionManager k v) t (.ok s')) : ∃ u, Prog.Ends (rhsmItem k v s.rhsm) t (.ok u) ∧
      s' = { s with rhsm := u } := by
  obtain ⟨u, t1, t2, rfl, h1, h2⟩ := Proc.ends_bind he
  obtain ⟨rfl, rfl⟩ := Proc.ends_pure h2
  exact ⟨u, by rw [List.append_nil]; exact h1, rfl⟩

theorem obey_file {h : Host} {s s' : St} {k : List Char} {v : Val} {t : Trace sig}
    (he : Prog.Ends (obey h s .binaryFile k v) t (.ok s')) : ∃ u, Prog.Ends (fileItem h k v s.file) t (.ok u) ∧
      s' = { s with file := u } := by
  obtain ⟨u, t1, t2, rfl, h1, h2⟩ := Proc.ends_bind he
  obtain ⟨rfl, rfl⟩ := Proc.ends_pure h2
  exact ⟨u, by rw [List.append_nil]; exact h1, rfl⟩

theorem obey_command {h : Host} {s s' : St} {k : List Char} {v : Val} {t : Trace sig}
    (he : Prog.Ends (obey h s .command k v) t (.ok s')) : ∃ u out, Prog.Ends (cmdItem k v s.cmd s.out) t (.ok (u, out)) ∧
      s' = { s with cmd := u, out := out } := by
  obtain ⟨⟨u, out⟩, t1, t2, rfl, h1, h2⟩ := Proc.ends_bind he
  obtain ⟨rfl, rfl⟩ := Proc.ends_pure h2
  exact ⟨u, out, by rw [List.append_nil]; exact h1, rfl⟩

theorem obey_disk {h : Host} {s s' : St} {k : List Char} {v : Val} {t : Trace sig}
    (he : Prog.Ends (obey h s .diskEncryptionClevis k v) t (.ok s')) :
    ∃ u out, Prog.Ends (diskItem k v s.disk s.out) t (.ok (u, out)) ∧ s' = { s with disk := u, out := out } := by
  obtain ⟨⟨u, out⟩, t1, t2, rfl, h1, h2⟩ := Proc.ends_bind he
  obtain ⟨rfl, rfl⟩ := Proc.ends_pure h2
  exact ⟨u, out, by rw [List.append_nil]; exact h1, rfl⟩

/-- What the instruction of another module leaves alone. -/
structure Apart (m : SiModule) (s s' : St) : Prop where
  active : s'.active = s.active
  user : m ≠ .sshKey → s'.user = s.user
  rhsm : m ≠ .subscriptionManager → s'.rhsm = s.rhsm
  file : m ≠ .binaryFile → s'.file = s.file
  cmd : m ≠ .command → s'.cmd = s.cmd
  disk : m ≠ .diskEncryptionClevis → s'.disk = s.disk
  reboot : m ≠ .reboot → s'.reboot = s.reboot
  out : m ≠ .command → m ≠ .diskEncryptionClevis → s'.out = s.out

theorem obey_apart {h : Host} {s s' : St} {m : SiModule} {k : List Char} {v : Val} {t : Trace sig}
    (he : Prog.Ends (obey h s m k v) t (.ok s')) : Apart m s s' := by
  cases m with
  | sshKey =>
    obtain ⟨u, -, rfl⟩ := obey_sshKey he
    exact ⟨rfl, fun h => absurd rfl h, fun _ => rfl, fun _ => rfl, fun _ => rfl, fun _ => rfl, fun _ => rfl, fun _ _ => rfl⟩
  | reboot =>
    rcases obey_reboot he with ⟨-, b, -, rfl⟩ | ⟨-, rfl⟩
    · exact ⟨rfl, fun _ => rfl, fun _ => rfl, fun _ => rfl, fun _ => rfl, fun _ => rfl, fun h => absurd rfl h, fun _ _ => rfl⟩
    · exact ⟨rfl, fun _ => rfl, fun _ => rfl, fun _ => rfl, fun _ => rfl, fun _ => rfl, fun h => absurd rfl h, fun _ _ => rfl⟩
  | subscriptionManager =>
    obtain ⟨u, -, rfl⟩ := obey_rhsm he
    exact ⟨rfl, fun _ => rfl, fun h => absurd rfl h, fun _ => rfl, fun _ => rfl, fun _ => rfl, fun _ => rfl, fun _ _ => rfl⟩
  | binaryFile =>
    obtain ⟨u, -, rfl⟩ := obey_file he
    exact ⟨rfl, fun _ => rfl, fun _ => rfl, fun h => absurd rfl h, fun _ => rfl, fun _ => rfl, fun _ => rfl, fun _ _ => rfl⟩
  | command =>
    obtain ⟨u, out, -, rfl⟩ := obey_command he
    exact ⟨rfl, fun _ => rfl, fun _ => rfl, fun _ => rfl, fun h => absurd rfl h, fun _ => rfl, fun _ => rfl, fun h => absurd rfl h⟩
  | diskEncryptionClevis =>
    obtain ⟨u, out, -, rfl⟩ := obey_disk he
    exact ⟨rfl, fun _ => rfl, fun _ => rfl, fun _ => rfl, fun _ => rfl, fun h => absurd rfl h, fun _ => rfl,
      fun _ h => absurd rfl h⟩
  | devMod =>
    obtain ⟨rfl, rfl⟩ := Proc.ends_pure he
    exact ⟨rfl, fun _ => rfl, fun _ => rfl, fun _ => rfl, fun _ => rfl, fun _ => rfl, fun _ => rfl, fun _ _ => rfl⟩
  | unsupported n =>
    obtain ⟨rfl, rfl⟩ := Proc.ends_pure he
    exact ⟨rfl, fun _ => rfl, fun _ => rfl, fun _ => rfl, fun _ => rfl, fun _ => rfl, fun _ => rfl, fun _ _ => rfl⟩

/-! ### Rules -/

theorem err_ne_ok {ε α : Type} {e : ε} {a : α} : Res.err e ≠ Res.ok a := nofun
theorem panic_ne_ok {ε α : Type} {a : α} : (Res.panic : Res ε α) ≠ Res.ok a := nofun

section rules
variable {α : Type} {I : Trace sig → Prop}

/-- A part with limited effects keeps what these effects keep. -/
theorem hoare_only {P : Eff → Prop} {J : Trace sig → Prop} {p : Prog sig α} (hp : Prog.Only P p)
    (hJ : ∀ t d, P d.1 → J t → J (t ++ [d])) : Hoare remember J J p fun _ t => J t := by
  have key : ∀ (u t : Trace sig), (∀ d ∈ u, P d.1) → J t → J (t ++ u) := by
    intro u
    induction u with
    | nil => intro t _ h; simpa using h
    | cons d u ih =>
      intro t hu h
      have := ih (t ++ [d]) (fun d' hd' => hu d' (List.mem_cons_of_mem _ hd')) (hJ t d (hu d List.mem_cons_self) h)
      simpa using this
  intro t u t' ht hr
  cases remember_runs hr
  exact ⟨fun hd => key u t (hp u hd) ht, fun a he => key u t (hp u ⟨_, he⟩) ht⟩

/-- Adding what is known about results. -/
theorem hoare_and {p : Prog sig α} {P : Trace sig → Prop} {Q : α → Trace sig → Prop} {R : α → Prop} (hp : Hoare remember I P p Q)
    (hR : ∀ t a, Prog.Ends p t a → R a) : Hoare remember I P p fun a t => Q a t ∧ R a := fun t u t' ht hr =>
  ⟨(hp t u t' ht hr).1, fun a he => ⟨(hp t u t' ht hr).2 a he, hR u a he⟩⟩

end rules

/-- One round of the loop: switching a module, obeying an active one, or failing. -/
theorem hoare_item {h : Host} {s : St} {m : SiModule} {k : List Char} {v : Val} {I P : Trace sig → Prop}
    {Q : Res Err St → Trace sig → Prop} (hPI : ∀ t, P t → I t) (hErr : ∀ t e, P t → Q (.err e) t)
    (hOn : k = "active".toList → v = .bool true → ∀ t, P t → Q (.ok { s with active := m :: s.active }) t)
    (hOff : k = "active".toList → v = .bool false →
      ∀ t, P t → Q (.ok { s with active := s.active.filter (· ≠ m) }) t)
    (hObey : k ≠ "active".toList → m ∈ s.active → Hoare remember I P (obey h s m k v) Q)
    : Hoare remember I P (item h s (m, k, v)) Q := by
  unfold item
  simp only
  split
  · next hk =>
    cases v with
    | bool b =>
      refine Hoare.ret hPI ?_
      cases b with
      | true => exact hOn hk rfl
      | false => exact hOff hk rfl
    | _ => exact Hoare.ret hPI fun t ht => hErr t _ ht
  · next hk =>
    split
    · next hm => exact hObey hk hm
    · exact Hoare.ret hPI fun t ht => hErr t _ ht

/-- The rule for the loop: `Inv a s t` holds when the instructions `a` have been processed. -/
theorem hoare_items {h : Host} {I : Trace sig → Prop} (Inv : List Item → St → Trace sig → Prop) (l : List Item)
    (hI : ∀ a s t, a <+: l → Inv a s t → I t)
    (hs : ∀ a x s, a ++ [x] <+: l → Hoare remember I (Inv a s) (item h s x)
      fun r t => I t ∧ ∀ s', r = .ok s' → Inv (a ++ [x]) s' t) :
    ∀ (r a : List Item) (s : St), a ++ r <+: l → Hoare remember I (Inv a s) (items h s r)
      fun o t => I t ∧ ∀ s', o = .ok s' → Inv (a ++ r) s' t := by
  intro r
  induction r with
  | nil =>
    intro a s hl
    rw [List.append_nil] at hl ⊢
    exact Hoare.pure (fun t ht => hI a s t hl ht) fun t ht => ⟨hI a s t hl ht, fun s' h => by cases h; exact ht⟩
  | cons x r ih =>
    intro a s hl
    have e : a ++ x :: r = (a ++ [x]) ++ r := by simp
    rw [e] at hl ⊢
    have h1 : a ++ [x] <+: l := (List.prefix_append _ _).trans hl
    refine Hoare.bind (M := fun s' t => Inv (a ++ [x]) s' t) ((hs a x s h1).post fun o t ho => ?_) (fun _ _ h => h.1)
      fun s' => ih (a ++ [x]) s' hl
    cases o with
    | ok s' => exact ho.2 s' rfl
    | err e => exact ⟨ho.1, fun s' h => absurd h err_ne_ok⟩
    | panic => exact ⟨ho.1, fun s' h => absurd h panic_ne_ok⟩

/-- The loop followed by the end. -/
theorem hoare_process {h : Host} {I : Trace sig → Prop} (Inv : List Item → St → Trace sig → Prop) (l : List Item)
    {Q : Res Err (Bool × List Item) → Trace sig → Prop} (h0 : Inv [] {} []) (hI : ∀ a s t, a <+: l → Inv a s t → I t)
    (hs : ∀ a x s, a ++ [x] <+: l → Hoare remember I (Inv a s) (item h s x)
      fun r t => I t ∧ ∀ s', r = .ok s' → Inv (a ++ [x]) s' t)
    (hQ : ∀ r t, Q r t → I t) (hErr : ∀ t e, I t → Q (.err e) t) (hPanic : ∀ t, I t → Q .panic t)
    (hf : ∀ s, Hoare remember I (Inv l s) (finish h s) Q) :
    Hoare remember I (fun t => t = []) (process h l) Q := by
  refine Hoare.bind (M := fun s t => Inv l s t) (Hoare.pre ((hoare_items Inv l hI hs l [] {} (List.prefix_refl _)).post
    fun o t ho => ?_) (by rintro t rfl; exact h0)) hQ hf
  cases o with
  | ok s => exact ho.2 s rfl
  | err e => exact hErr t e ho.1
  | panic => exact hPanic t ho.1

end Verif.SiClient

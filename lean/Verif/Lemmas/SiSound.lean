import Verif.Props.SiPanics
/-!
When the device fails while processing service info that is as it should be: only because of its host.
-/
namespace Verif.SiClient
open Verif Verif.Types Verif.ServiceInfo

variable {h : Host} {α β : Type} {user : List Char}

/-- Specification: an answer of the host that makes the device give up: an operation failed, a program could not be run, was
not successful or wrote something that is not text, a file could not be read, or the user database has no proper entry
for the user. -/
def Trouble (user : List Char) (d : sig.Deed) : Prop :=
  (∃ m a, d = ⟨.host m (.does a), false⟩) ∨
  (∃ m p args i, ∃ o : Option Output, d = ⟨.host m (.run p args i), o⟩ ∧
    ∀ out, o = some out → out.code ≠ some 0 ∨ String.fromUTF8? ⟨out.stdout.toArray⟩ = none) ∨
  (∃ m p, d = ⟨.host m (.readText p), (none : Option (List Char))⟩) ∨
  (∃ m, ∃ f : Option (List Char), d = ⟨.host m .passwd, f⟩ ∧ ∀ x, Text.uidGidHome f user ≠ .ok x)

/-- The result is a success with `Q`, or the last answer was trouble. -/
def Fine (user : List Char) (Q : α → Prop) (t : Trace sig) : Res Err α → Prop
  | .ok a => Q a
  | .err _ => ∃ t0 d, t = t0 ++ [d] ∧ Trouble user d
  | .panic => ∃ t0 d, t = t0 ++ [d] ∧ Trouble user d

/-- If the program succeeds, then with `Q`; if it does not, then right after an answer that is trouble. -/
def Sound (user : List Char) (p : Proc sig Err α) (Q : α → Prop) : Prop := ∀ t r, Prog.Ends p t r → Fine user Q t r

theorem fine_append {Q : α → Prop} {t u : Trace sig} {r : Res Err α} (hf : Fine user Q u r) : Fine user Q (t ++ u) r := by
  cases r with
  | ok b => exact hf
  | err e =>
    obtain ⟨t0, d, rfl, hd⟩ := hf
    exact ⟨t ++ t0, d, by simp, hd⟩
  | panic =>
    obtain ⟨t0, d, rfl, hd⟩ := hf
    exact ⟨t ++ t0, d, by simp, hd⟩

theorem sound_bind {p : Proc sig Err α} {f : α → Proc sig Err β} {Q : α → Prop} {R : β → Prop} (hp : Sound user p Q)
    (hf : ∀ a, Q a → Sound user (f a) R) : Sound user (p >>= f : Proc sig Err β) R := by
  intro t r he
  rcases Proc.ends_bind' he with ⟨a, t1, t2, rfl, h1, h2⟩ | ⟨e, h1, rfl⟩ | ⟨h1, rfl⟩
  · exact fine_append (hf a (hp t1 _ h1) t2 r h2)
  · exact hp t _ h1
  · exact hp t _ h1

theorem sound_mono {p : Proc sig Err α} {Q R : α → Prop} (hp : Sound user p Q) (hQ : ∀ a, Q a → R a) : Sound user p R := by
  intro t r he
  have := hp t r he
  cases r with
  | ok a => exact hQ a this
  | err e => exact this
  | panic => exact this

theorem sound_pure {a : α} {Q : α → Prop} (ha : Q a) : Sound user (pure a) Q := by
  intro t r he
  obtain ⟨-, rfl⟩ := Prog.ends_ret he
  exact ha

theorem sound_some? {e : Err} {a : α} {Q : α → Prop} (ha : Q a) : Sound user (Proc.some? e (some a)) Q := sound_pure ha

theorem sound_check {e : Err} {b : Bool} (hb : b = true) : Sound user (Proc.check e b) fun _ => True := by
  subst hb
  exact sound_pure trivial

theorem sound_ite {c : Prop} [i : Decidable c] {p q : Proc sig Err α} {Q : α → Prop} (hp : c → Sound user p Q)
    (hq : ¬c → Sound user q Q) : Sound user (if c then p else q) Q := by
  cases i with
  | isTrue h => exact hp h
  | isFalse h => exact hq h

theorem sound_when {b : Bool} {p : Proc sig Err Unit} (hp : Sound user p fun _ => True) : Sound user (when b p) fun _ => True := by
  cases b
  · exact sound_pure trivial
  · exact hp

theorem sound_there {m : SiModule} {p : Path} : Sound user (there m p) fun _ => True := by
  intro t r he
  obtain ⟨a, rfl, -⟩ := Proc.ends_ask he
  trivial

theorem sound_must {m : SiModule} {a : Act} : Sound user (must m a) fun _ => True := by
  have key : ∀ (ok : Bool) (r : Res Err Unit), Prog.Ends (Proc.check (S := sig) .io ok) [] r → Fine user (fun _ => True) [⟨.host m (.does a), ok⟩] r := by
    intro ok r he
    cases ok with
    | true =>
      obtain ⟨-, rfl⟩ := Prog.ends_ret he
      trivial
    | false =>
      obtain ⟨-, rfl⟩ := Prog.ends_ret he
      exact ⟨[], _, rfl, .inl ⟨m, a, rfl⟩⟩
  intro t r he
  rcases Proc.ends_bind' he with ⟨ok, t1, t2, rfl, h1, h2⟩ | ⟨e, h1, rfl⟩ | ⟨h1, rfl⟩
  · obtain ⟨ok', h, rfl⟩ := Proc.ends_ask h1
    cases h
    have h3 : t2 = [] := Proc.does_check ⟨_, h2⟩
    subst h3
    exact key ok r h2
  · obtain ⟨_, h, -⟩ := Proc.ends_ask h1
    cases h
  · obtain ⟨_, h, -⟩ := Proc.ends_ask h1
    cases h

/-- Running a program and going on at once with a decision about its output. -/
theorem sound_run {m : SiModule} {p : List Char} {args : List (List Char)} {i : Option (List Char)} {f : Output → Proc sig Err β}
    {Q : β → Prop} (hf : ∀ out, (out.code = some 0 ∧ String.fromUTF8? ⟨out.stdout.toArray⟩ ≠ none → Sound user (f out) Q) ∧
      (¬(out.code = some 0 ∧ String.fromUTF8? ⟨out.stdout.toArray⟩ ≠ none) →
        ∀ t r, Prog.Ends (f out) t r → t = [] ∧ (∀ a, r ≠ .ok a) ∨ Fine user Q t r)) :
    Sound user (run m p args i >>= f : Proc sig Err β) Q := by
  intro t r he
  rcases Proc.ends_bind' he with ⟨out, t1, t2, rfl, h1, h2⟩ | ⟨e, h1, rfl⟩ | ⟨h1, rfl⟩
  · rw [ends_run h1]
    by_cases hc : out.code = some 0 ∧ String.fromUTF8? ⟨out.stdout.toArray⟩ ≠ none
    · exact fine_append ((hf out).1 hc t2 r h2)
    · have := (hf out).2 hc t2 r h2
      have hT : Trouble user ⟨.host m (.run p args i), (some out : Option Output)⟩ := by
        refine .inr (.inl ⟨m, p, args, i, some out, rfl, fun o ho => ?_⟩)
        cases ho
        by_cases h0 : out.code = some 0
        · refine .inr ?_
          by_contra hn
          exact hc ⟨h0, hn⟩
        · exact .inl h0
      rcases this with ⟨rfl, hr⟩ | h
      · cases r with
        | ok b => exact absurd rfl (hr b)
        | err e => exact ⟨[], _, rfl, hT⟩
        | panic => exact ⟨[], _, rfl, hT⟩
      · exact fine_append h
  · rcases Proc.ends_bind' h1 with ⟨o, t1, t2, rfl, h1, h2⟩ | ⟨e', h1, h⟩ | ⟨h1, h⟩
    · obtain ⟨o', h, rfl⟩ := Proc.ends_ask h1
      cases h
      have h3 : t2 = [] := Proc.does_some? ⟨_, h2⟩
      subst h3
      have key : ∀ o : Option Output, Prog.Ends (Proc.some? (S := sig) Err.io o) [] (.err e) → Trouble user ⟨.host m (.run p args i), o⟩ := by
        intro o ho
        cases o with
        | none => exact .inr (.inl ⟨m, p, args, i, none, rfl, fun o ho => by cases ho⟩)
        | some o => cases (Prog.ends_ret ho).2
      exact ⟨[], _, rfl, key o h2⟩
    · obtain ⟨_, h, -⟩ := Proc.ends_ask h1
      cases h
    · obtain ⟨_, h, -⟩ := Proc.ends_ask h1
      cases h
  · exfalso
    rcases Proc.ends_bind' h1 with ⟨o, t1, t2, rfl, h1, h2⟩ | ⟨e', h1, h⟩ | ⟨h1, h⟩
    · have key : ∀ o : Option Output, ¬Prog.Ends (Proc.some? (S := sig) Err.io o) t2 .panic := by
        intro o ho
        cases o <;> cases (Prog.ends_ret ho).2
      exact key o h2
    · cases h
    · obtain ⟨_, h, -⟩ := Proc.ends_ask h1
      cases h

/-- Running a program that must be successful. -/
theorem sound_run_check {m : SiModule} {p : List Char} {args : List (List Char)} {i : Option (List Char)} :
    Sound user (run m p args i >>= fun o => Proc.check .failed o.success : Proc sig Err Unit) fun _ => True := by
  refine sound_run fun out => ⟨fun ⟨h0, _⟩ => sound_check (by simp [Output.success, h0]), fun _ t r he => ?_⟩
  have := Proc.does_check ⟨_, he⟩
  cases r with
  | ok b => exact .inr trivial
  | err e => exact .inl ⟨this, fun _ h => by cases h⟩
  | panic => exact .inl ⟨this, fun _ h => by cases h⟩

/-! ### Users -/

theorem sound_userExists : Sound user (userExists user) fun _ => True := by
  have key : ∀ (f : Option (List Char)) (t : Trace sig) (r : Res Err Bool),
      Prog.Ends (Proc.lift (S := sig) (users (Text.isUser f user))) t r → Fine user (fun _ => True) ([⟨.host .sshKey .passwd, f⟩] ++ t) r := by
    intro f t r he
    obtain ⟨rfl, h⟩ := Proc.ends_lift he
    cases f with
    | none =>
      have h : Res.err Err.users = r := h
      subst h
      exact ⟨[], _, rfl, .inr (.inr (.inr ⟨.sshKey, none, rfl, fun x h => by cases h⟩))⟩
    | some f =>
      have h : Res.ok (Text.entry f user).isSome = r := h
      subst h
      trivial
  intro t r he
  rcases Proc.ends_bind' he with ⟨f, t1, t2, rfl, h1, h2⟩ | ⟨e, h1, rfl⟩ | ⟨h1, rfl⟩
  · obtain ⟨_, h, rfl⟩ := Proc.ends_ask h1
    cases h
    exact key f t2 r h2
  · obtain ⟨_, h, -⟩ := Proc.ends_ask h1
    cases h
  · obtain ⟨_, h, -⟩ := Proc.ends_ask h1
    cases h

theorem sound_createUser : Sound user (createUser user) fun _ => True :=
  sound_bind sound_userExists fun _ _ => sound_ite (fun _ => sound_pure trivial) fun _ => sound_run_check

theorem sound_encrypt {pw : List Char} : Sound user (encrypt h pw) fun _ => True := by
  refine sound_ite (fun _ => sound_pure trivial) fun _ => sound_run fun out => ⟨fun ⟨_, h0⟩ => ?_, fun _ t r he => ?_⟩
  · split
    · next hn => exact absurd hn h0
    · exact sound_pure trivial
  · cases r with
    | ok b => exact .inr trivial
    | err e =>
      split at he
      · cases (Prog.ends_ret he).2
      · cases (Prog.ends_ret he).2
    | panic =>
      split at he
      · exact .inl ⟨(Prog.ends_ret he).1, fun _ h => by cases h⟩
      · cases (Prog.ends_ret he).2

theorem sound_createUserWithPassword {pw : List Char} : Sound user (createUserWithPassword h user pw) fun _ => True :=
  sound_bind sound_userExists fun _ _ => sound_ite (fun _ => sound_pure trivial) fun _ => sound_bind sound_encrypt fun _ _ =>
    sound_run_check

theorem sound_installKey {key : List Char} : Sound user (installKey h user key) fun _ => True := by
  have rest : ∀ x : Nat × Nat × List Char, Sound user (do
      let path ← (match h.sshPath with
        | some p => pure p
        | none => do
          let dir := joinPath x.2.2 ".ssh".toList
          let b ← there .sshKey dir
          when (!b) do
            must .sshKey (.mkdir dir)
            must .sshKey (.setMode dir 0o700)
            must .sshKey (.chown dir x.1 x.2.1)
          pure (joinPath dir "authorized_keys".toList) : Proc sig Err Path)
      let b ← there .sshKey path
      let contents ← (if b then do
          let c ← ask .sshKey (.readText path)
          Proc.some? .io (c : Option (List Char))
        else pure [] : Proc sig Err (List Char))
      must .sshKey (.create path)
      must .sshKey (.append path (String.ofList (keyBlock contents key)).toUTF8.toList)
      must .sshKey (.setMode path 0o600)
      must .sshKey (.chown path x.1 x.2.1) : Proc sig Err Unit) fun _ => True := by
    intro x
    refine sound_bind (Q := fun _ => True) ?_ fun p _ => sound_bind sound_there fun b _ => sound_bind (Q := fun _ => True) ?_
      fun c _ => sound_bind sound_must fun _ _ => sound_bind sound_must fun _ _ => sound_bind sound_must fun _ _ => sound_must
    · split
      · exact sound_pure trivial
      · exact sound_bind sound_there fun b _ => sound_bind (sound_when (sound_bind sound_must fun _ _ =>
          sound_bind sound_must fun _ _ => sound_must)) fun _ _ => sound_pure trivial
    · refine sound_ite (fun _ => ?_) fun _ => sound_pure trivial
      have key : ∀ (c : Option (List Char)) (t : Trace sig) (r : Res Err (List Char)),
          Prog.Ends (Proc.some? (S := sig) Err.io c) t r → Fine user (fun _ => True) ([⟨.host .sshKey (.readText p), c⟩] ++ t) r := by
        intro c t r he
        cases c with
        | none =>
          obtain ⟨rfl, rfl⟩ := Prog.ends_ret he
          exact ⟨[], _, rfl, .inr (.inr (.inl ⟨.sshKey, p, rfl⟩))⟩
        | some c =>
          obtain ⟨rfl, rfl⟩ := Prog.ends_ret he
          trivial
      intro t r he
      rcases Proc.ends_bind' he with ⟨c, t1, t2, rfl, h1, h2⟩ | ⟨e, h1, rfl⟩ | ⟨h1, rfl⟩
      · obtain ⟨_, h, rfl⟩ := Proc.ends_ask h1
        cases h
        exact key c t2 r h2
      · obtain ⟨_, h, -⟩ := Proc.ends_ask h1
        cases h
      · obtain ⟨_, h, -⟩ := Proc.ends_ask h1
        cases h
  intro t r he
  rcases Proc.ends_bind' he with ⟨f, t1, t2, rfl, h1, h2⟩ | ⟨e, h1, rfl⟩ | ⟨h1, rfl⟩
  · obtain ⟨_, hh, rfl⟩ := Proc.ends_ask h1
    cases hh
    have key : ∀ (f : Option (List Char)) (t : Trace sig), (∀ x, Text.uidGidHome f user ≠ .ok x) →
        ∃ t0 d, [(⟨.host .sshKey .passwd, f⟩ : sig.Deed)] ++ [] = t0 ++ [d] ∧ Trouble user d := fun f t hf =>
      ⟨[], _, rfl, .inr (.inr (.inr ⟨.sshKey, f, rfl, hf⟩))⟩
    rcases Proc.ends_bind' h2 with ⟨x, t3, t4, rfl, h3, h4⟩ | ⟨e, h3, rfl⟩ | ⟨h3, rfl⟩
    · obtain ⟨rfl, -⟩ := Proc.ends_lift h3
      exact fine_append (rest x t4 r h4)
    · obtain ⟨rfl, hu⟩ := Proc.ends_lift h3
      refine key f [] fun x hx => ?_
      have hx : Text.uidGidHome (f : Option (List Char)) user = .ok x := hx
      rw [hx] at hu
      cases hu
    · obtain ⟨rfl, hu⟩ := Proc.ends_lift h3
      refine key f [] fun x hx => ?_
      have hx : Text.uidGidHome (f : Option (List Char)) user = .ok x := hx
      rw [hx] at hu
      cases hu
  · obtain ⟨_, h, -⟩ := Proc.ends_ask h1
    cases h
  · obtain ⟨_, h, -⟩ := Proc.ends_ask h1
    cases h

theorem sound_installKeys : ∀ ks, Sound user (installKeys h user ks) fun _ => True
  | [] => sound_pure trivial
  | _ :: r => sound_bind sound_installKey fun _ _ => sound_installKeys r

theorem sound_setUpUser {u : UserSt} (hu : u.user = some user) (hk : (u.keys.isSome || u.password.isSome) = true) :
    Sound user (setUpUser h u) fun _ => True := by
  unfold setUpUser
  rw [hu]
  refine sound_bind (sound_some? rfl) fun a ha => ?_
  subst ha
  refine sound_bind (sound_check hk) fun _ _ => sound_bind (Q := fun _ => True) ?_ fun _ _ => ?_
  · split
    · exact sound_createUserWithPassword
    · exact sound_pure trivial
  · split
    · exact sound_bind sound_createUser fun _ _ => sound_installKeys _
    · exact sound_pure trivial

/-! ### Instructions -/

theorem sound_deploy {p : Path} {c : Bytes} {m : Option Nat} {q dir : Path} (hq : destination h p = some q)
    (hd : parent q = some dir) : Sound user (deploy h p c m) fun _ => True := by
  unfold deploy
  rw [hq]
  refine sound_bind (sound_some? rfl) fun a ha => ?_
  subst ha
  rw [hd]
  exact sound_bind sound_must fun _ _ => sound_bind sound_must fun _ _ => sound_bind sound_must fun _ _ =>
    sound_bind sound_must fun _ _ => sound_must

theorem items_cons {s : St} {x : Item} {r : List Item} : items h s (x :: r) = (item h s x >>= fun s => items h s r) := rfl

/-- The instructions lead from state `s` to states with `Q`. -/
def Leads (h : Host) (user : List Char) (s : St) (l : List Item) (Q : St → Prop) : Prop :=
  ∀ (rest : List Item) (R : St → Prop), (∀ s', Q s' → Sound user (items h s' rest) R) → Sound user (items h s (l ++ rest)) R

theorem leads_nil {s : St} {Q : St → Prop} (hs : Q s) : Leads h user s [] Q := fun _ _ hr => hr s hs

theorem leads_cons {s : St} {x : Item} {l : List Item} {Q R : St → Prop} (hx : Sound user (item h s x) Q)
    (hl : ∀ s', Q s' → Leads h user s' l R) : Leads h user s (x :: l) R := fun rest T hr =>
  sound_bind hx fun s' hs => hl s' hs rest T hr

theorem leads_append {s : St} {a b : List Item} {Q R : St → Prop} (ha : Leads h user s a Q)
    (hb : ∀ s', Q s' → Leads h user s' b R) : Leads h user s (a ++ b) R := fun rest T hr => by
  rw [List.append_assoc]
  exact ha _ _ fun s' hs => hb s' hs rest T hr

theorem leads_sound {s : St} {l : List Item} {Q : St → Prop} (hl : Leads h user s l Q) : Sound user (items h s l) Q := by
  have := hl [] Q fun s' hs => sound_pure hs
  rwa [List.append_nil] at this

theorem leads_flatMap {s : St} {as : List α} {f : α → List Item} {I : St → Prop} (hs : I s)
    (hf : ∀ a ∈ as, ∀ s, I s → Leads h user s (f a) I) : Leads h user s (as.flatMap f) I := by
  induction as generalizing s with
  | nil => exact leads_nil hs
  | cons a as ih =>
    rw [List.flatMap_cons]
    exact leads_append (hf a (by simp) s hs) fun s' hs' => ih hs' fun a ha => hf a (by simp [ha])

theorem sound_active {s : St} {m : SiModule} :
    Sound user (item h s (m, "active".toList, .bool true)) fun s' => s' = { s with active := m :: s.active } := by
  have e : item h s (m, "active".toList, .bool true) = pure { s with active := m :: s.active } := by
    simp only [item, if_true, asBool]
    rfl
  rw [e]
  exact sound_pure rfl

theorem sound_item {s : St} {m : SiModule} {k : List Char} {v : Val} {Q : St → Prop} (hk : k ≠ "active".toList)
    (hm : m ∈ s.active) (ho : Sound user (obey h s m k v) Q) : Sound user (item h s (m, k, v)) Q := by
  simp only [item, if_neg hk, if_pos hm]
  exact ho

end Verif.SiClient

import Verif.Spec.AioRun
import Verif.Lemmas.Proc
import Verif.Lemmas.Hoare
import Verif.Props.Aio
/-!
C84: starting, watching and stopping the servers of an all-in-one set-up.
-/
namespace Verif.AioRun
open Verif Verif.Aio

/-! ### Traces -/

/-- One more deed. -/
def after (l : List Daemon) (d : sig.Deed) : List Daemon :=
  match d with
  | ⟨.spawn x _, b⟩ => if (show Bool from b) then l ++ [x] else l
  | ⟨.kill x, _⟩ => l.filter (· ≠ x)
  | _ => l

theorem left_snoc (t : Trace sig) (d : sig.Deed) : left (t ++ [d]) = after (left t) d := List.foldl_concat ..

theorem slept_snoc (t : Trace sig) (d : sig.Deed) : slept (t ++ [d]) = slept t + slept [d] := by
  unfold slept
  rw [List.map_append, List.sum_append]

/-- Effects that have nothing to do with servers. -/
def Quiet (o : Op) : Prop := (∃ s, o = .setup s) ∨ ∃ p, o = .config p

theorem left_quiet {t u : Trace sig} (h : ∀ d ∈ t, Quiet d.1) : left (t ++ u) = left u := by
  have : ∀ l, t.foldl after l = l := by
    intro l
    induction t generalizing l with
    | nil => rfl
    | cons d t ih =>
      have hd := h d (by simp)
      obtain ⟨o, b⟩ := d
      rcases hd with ⟨s, rfl⟩ | ⟨p, rfl⟩ <;> exact ih (fun d hd => h d (by simp [hd])) l
  show List.foldl after [] (t ++ u) = _
  rw [List.foldl_append, this]
  rfl

theorem slept_quiet {t u : Trace sig} (h : ∀ d ∈ t, Quiet d.1) : slept (t ++ u) = slept u := by
  unfold slept
  rw [List.map_append, List.sum_append]
  have : (t.map slept.one).sum = 0 := by
    induction t with
    | nil => rfl
    | cons d t ih =>
      have hd := h d (by simp)
      obtain ⟨o, b⟩ := d
      rw [List.map_cons, List.sum_cons, ih fun d hd => h d (by simp [hd])]
      rcases hd with ⟨s, rfl⟩ | ⟨p, rfl⟩ <;> rfl
  omega

theorem Answered.snoc {a : Args} {t : Trace sig} {x : Daemon} (h : Answered a t x) (u : Trace sig) : Answered a (t ++ u) x := by
  obtain ⟨u1, v, rfl, hx⟩ := h
  exact ⟨u1, v ++ u, by simp, hx⟩

theorem Clock.prefix {t u : Trace sig} (h : Clock (t ++ u)) : Clock t := by
  rintro u1 e v rfl
  exact h u1 e (v ++ u) (by simp)

/-- Where a deed is in a longer trace. -/
theorem snoc_split {t u v : Trace sig} {d e : sig.Deed} (h : t ++ [e] = u ++ d :: v) : (u = t ∧ d = e ∧ v = []) ∨ ∃ v', t = u ++ d :: v' := by
  rcases List.eq_nil_or_concat v with rfl | ⟨v', x, rfl⟩
  · have h := List.append_inj' h rfl
    exact .inl ⟨h.1.symm, (List.cons.inj h.2).1.symm, rfl⟩
  · refine .inr ⟨v', ?_⟩
    rw [List.concat_eq_append, ← List.cons_append, ← List.append_assoc] at h
    exact (List.append_inj' h rfl).1

/-! ### Before the servers -/

theorem quiet_ask (o : Aio.Op) : Prog.Only (S := sig) Quiet (ask o) := Proc.only_ask (.inl ⟨o, rfl⟩)

theorem quiet_valid (p : String) (l : List Binary) : Prog.Only (S := sig) Quiet (validPath p l) := by
  induction l with
  | nil => exact Proc.only_pure
  | cons b r ih => exact Proc.only_bind (quiet_ask _) fun _ => Proc.only_ite ih Proc.only_pure

theorem quiet_usual (l : List String) : Prog.Only (S := sig) Quiet (usualPath l) := by
  induction l with
  | nil => exact Proc.only_fail
  | cons p r ih =>
    refine Proc.only_bind (quiet_ask _) fun q => ?_
    cases q with
    | none => exact ih
    | some q => exact Proc.only_bind (quiet_valid _ _) fun _ => Proc.only_ite Proc.only_pure ih

theorem quiet_find (o : Option String) : Prog.Only (S := sig) Quiet (findBinaries o) := by
  cases o with
  | none => exact quiet_usual _
  | some p => exact Proc.only_bind (quiet_ask _) fun _ => Proc.only_bind Proc.only_some? fun _ => Proc.only_bind (quiet_valid _ _) fun _ =>
      Proc.only_bind Proc.only_check fun _ => Proc.only_pure

theorem quiet_embed {α : Type} (p : Prog Aio.sig α) : Prog.Only (S := sig) Quiet (embed p) := by
  induction p with
  | ret a => exact Prog.only_ret
  | act e k ih => exact Prog.only_act (.inl ⟨e, rfl⟩) ih

variable {showIp : Bytes → String}

theorem quiet_generate (d : String) (a : Args) : Prog.Only (S := sig) Quiet (generate showIp d a) :=
  Prog.only_bind (quiet_embed _) fun _ => Prog.only_ret

theorem quiet_directory (o : Option String) : Prog.Only (S := sig) Quiet (directoryOf o) := by
  cases o with
  | some d => exact Proc.only_pure
  | none => exact Proc.only_bind (quiet_ask _) fun _ => Proc.only_bind Proc.only_check fun _ => Proc.only_pure

theorem quiet_settle (d : String) : Prog.Only (S := sig) Quiet (settleDirectory d) :=
  Proc.only_bind (quiet_ask _) fun _ => Proc.only_ite
    (Proc.only_bind (quiet_ask _) fun _ => Proc.only_bind Proc.only_some? fun _ => Proc.only_bind (quiet_ask _) fun _ =>
      Proc.only_bind Proc.only_check fun _ => Proc.only_pure) Proc.only_pure

theorem quiet_ensure (d : String) (b : Bool) : Prog.Only (S := sig) Quiet (ensure showIp d b) := by
  cases b with
  | true => exact Proc.only_pure
  | false => exact quiet_generate _ _

theorem quiet_configured (d : String) : Prog.Only (S := sig) Quiet (configured showIp d) :=
  Proc.only_bind (quiet_ask _) fun _ => Proc.only_bind (quiet_ensure _ _) fun _ =>
    Proc.only_bind (Proc.only_ask (.inr ⟨_, rfl⟩)) fun _ => Proc.only_bind Proc.only_some? fun _ => Proc.only_bind (quiet_ask _) fun _ =>
    Proc.only_bind Proc.only_some? fun _ => Proc.only_pure

theorem valid_ends {p : String} {l : List Binary} : ∀ {t : Trace sig}, Prog.Ends (validPath p l) t (.ok true) →
    ∀ b ∈ l, (⟨.setup (.exists? (p ++ "/" ++ b.name)), true⟩ : sig.Deed) ∈ t := by
  induction l with
  | nil => intro t _ b hb; cases hb
  | cons b r ih =>
    intro t h b' hb'
    obtain ⟨there, t', rfl, g1⟩ := Proc.ends_ask_bind (S := sig) h
    cases there with
    | false =>
      obtain ⟨-, h⟩ := Proc.ends_pure g1
      cases h
    | true =>
      rcases List.mem_cons.1 hb' with rfl | hb'
      · exact List.mem_cons_self
      · exact List.mem_cons_of_mem _ (ih g1 b' hb')

theorem all_programs {p : String} {t : Trace sig} (h : Prog.Ends (validPath p allBinaries) t (.ok true)) :
    ∀ n ∈ programs, (⟨.setup (.exists? (p ++ "/" ++ n)), true⟩ : sig.Deed) ∈ t := by
  intro n hn
  have : n ∈ allBinaries.map Binary.name := hn
  obtain ⟨b, hb, rfl⟩ := List.mem_map.1 this
  exact valid_ends h b hb

theorem usual_ends {l : List String} : ∀ {t : Trace sig} {q : String}, Prog.Ends (usualPath l) t (.ok q) →
    (∀ n ∈ programs, (⟨.setup (.exists? (q ++ "/" ++ n)), true⟩ : sig.Deed) ∈ t) ∧
    ∃ p ∈ l, (⟨.setup (.canonical p), some q⟩ : sig.Deed) ∈ t := by
  induction l with
  | nil => intro t q h; exact absurd h Proc.ends_fail
  | cons p r ih =>
    intro t q h
    obtain ⟨a, t', rfl, g1⟩ := Proc.ends_ask_bind (S := sig) h
    have skip : ∀ {t'' : Trace sig} {x : sig.Deed}, Prog.Ends (usualPath r) t'' (.ok q) → ∀ (w : Trace sig),
        (∀ n ∈ programs, (⟨.setup (.exists? (q ++ "/" ++ n)), true⟩ : sig.Deed) ∈ x :: (w ++ t'')) ∧
        ∃ p' ∈ p :: r, (⟨.setup (.canonical p'), some q⟩ : sig.Deed) ∈ x :: (w ++ t'') := by
      intro t'' x h w
      obtain ⟨h1, p', h2, h3⟩ := ih h
      exact ⟨fun n hn => List.mem_cons_of_mem _ (List.mem_append_right _ (h1 n hn)), p', List.mem_cons_of_mem _ h2,
        List.mem_cons_of_mem _ (List.mem_append_right _ h3)⟩
    cases a with
    | none => exact skip g1 []
    | some q' =>
      obtain ⟨ok, t1, t2, rfl, h1, h2⟩ := Proc.ends_bind g1
      cases ok with
      | false => exact skip h2 t1
      | true =>
        obtain ⟨rfl, rfl⟩ := Proc.ends_pure h2
        exact ⟨fun n hn => List.mem_cons_of_mem _ (List.mem_append_left _ (all_programs h1 n hn)), p, List.mem_cons_self, List.mem_cons_self⟩

theorem find_ends {o : Option String} {t : Trace sig} {q : String} (h : Prog.Ends (findBinaries o) t (.ok q)) :
    (∀ n ∈ programs, (⟨.setup (.exists? (q ++ "/" ++ n)), true⟩ : sig.Deed) ∈ t) ∧
    ∃ p, (o = some p ∨ o = none ∧ p ∈ ["/usr/bin", "/usr/libexec/fdo"]) ∧ (⟨.setup (.canonical p), some q⟩ : sig.Deed) ∈ t := by
  cases o with
  | none =>
    obtain ⟨h1, p, h2, h3⟩ := usual_ends h
    exact ⟨h1, p, .inr ⟨rfl, h2⟩, h3⟩
  | some p =>
    obtain ⟨a, t', rfl, g1⟩ := Proc.ends_ask_bind (S := sig) h
    obtain ⟨q', rfl, g2⟩ := Proc.ends_some_bind g1
    obtain ⟨ok, t1, t2, rfl, h1, h2⟩ := Proc.ends_bind g2
    obtain ⟨rfl, h2⟩ := Proc.ends_check_bind h2
    obtain ⟨rfl, rfl⟩ := Proc.ends_pure h2
    exact ⟨fun n hn => List.mem_cons_of_mem _ (List.mem_append_left _ (all_programs h1 n hn)), p, .inl rfl, List.mem_cons_self⟩

theorem directory_ends {o : Option String} {t : Trace sig} {d : String} (h : Prog.Ends (directoryOf o) t (.ok d)) :
    o = some d ∨ o = none ∧ d = "/etc/fdo/aio" := by
  cases o with
  | some d' =>
    obtain ⟨-, rfl⟩ := Proc.ends_pure h
    exact .inl rfl
  | none =>
    obtain ⟨a, t', rfl, g1⟩ := Proc.ends_ask_bind (S := sig) h
    obtain ⟨-, g2⟩ := Proc.ends_check_bind g1
    obtain ⟨-, rfl⟩ := Proc.ends_pure g2
    exact .inr ⟨rfl, rfl⟩

theorem settle_ends {d d' : String} {t : Trace sig} (h : Prog.Ends (settleDirectory d) t (.ok d')) :
    d' = d ∨ (⟨.setup (.canonical d), some d'⟩ : sig.Deed) ∈ t := by
  obtain ⟨there, t', rfl, g1⟩ := Proc.ends_ask_bind (S := sig) h
  cases there with
  | false =>
    obtain ⟨-, rfl⟩ := Proc.ends_pure g1
    exact .inl rfl
  | true =>
    obtain ⟨a, t', rfl, g2⟩ := Proc.ends_ask_bind (S := sig) g1
    obtain ⟨q', rfl, g3⟩ := Proc.ends_some_bind g2
    obtain ⟨ok, t', rfl, g4⟩ := Proc.ends_ask_bind (S := sig) g3
    obtain ⟨-, g5⟩ := Proc.ends_check_bind g4
    obtain ⟨-, rfl⟩ := Proc.ends_pure g5
    exact .inr (by simp)

theorem configured_ends {d : String} {t : Trace sig} {q : String × Args} (h : Prog.Ends (configured showIp d) t (.ok q)) :
    (⟨.setup (.canonical d), some q.1⟩ : sig.Deed) ∈ t ∧ (⟨.config (d ++ "/aio_configuration"), some q.2⟩ : sig.Deed) ∈ t := by
  obtain ⟨there, t', rfl, g1⟩ := Proc.ends_ask_bind (S := sig) h
  obtain ⟨u, t1, t2, rfl, -, g2⟩ := Proc.ends_bind g1
  obtain ⟨a, t', rfl, g3⟩ := Proc.ends_ask_bind (S := sig) g2
  obtain ⟨a', rfl, g4⟩ := Proc.ends_some_bind g3
  obtain ⟨c, t', rfl, g5⟩ := Proc.ends_ask_bind (S := sig) g4
  obtain ⟨c', rfl, g6⟩ := Proc.ends_some_bind g5
  obtain ⟨rfl, rfl⟩ := Proc.ends_pure g6
  exact ⟨by simp, by simp⟩

theorem quiet_of {α : Type} {p : Proc sig Fail α} (h : Prog.Only (S := sig) Quiet p) {t : Trace sig} {q : Proc sig Fail α} (ht : Prog.Steps p t q) :
    ∀ d ∈ t, Quiet d.1 := h t ⟨q, ht⟩

theorem quiet_append {t u : Trace sig} (h : ∀ d ∈ t, Quiet d.1) (h' : ∀ d ∈ u, Quiet d.1) : ∀ d ∈ t ++ u, Quiet d.1 := fun d hd =>
  (List.mem_append.1 hd).elim (h d) (h' d)

/-- What comes after the preparation. -/
def rest (n : Nat) (args : AioArgs) (bin dir : String) (a : Args) : Option (Proc sig Fail Unit) :=
  match args.command with
  | some (.generate _) => none
  | some (.device loc c) => some (device dir bin a loc c)
  | _ => some (execute n dir bin a)

theorem main_steps {n : Nat} {args : AioArgs} {t : Trace sig} {q : Proc sig Fail Unit} (h : Prog.Steps (main showIp n args) t q) :
    (∀ d ∈ t, Quiet d.1) ∨ ∃ t1 t2 bin dir a p, t = t1 ++ t2 ∧ (∀ d ∈ t1, Quiet d.1) ∧ Prepared args t1 bin dir a ∧
      rest n args bin dir a = some p ∧ Prog.Steps p t2 q := by
  rcases Proc.steps_bind h with ⟨p', h⟩ | ⟨bin, t1, t2, rfl, h1, h⟩
  · exact .inl (quiet_of (quiet_find _) h)
  have q1 := quiet_of (quiet_find _) h1
  rcases Proc.steps_bind h with ⟨p', h⟩ | ⟨d, t3, t4, rfl, h2, h⟩
  · exact .inl (quiet_append q1 (quiet_of (quiet_directory _) h))
  have q2 := quiet_of (quiet_directory _) h2
  rcases Proc.steps_bind h with ⟨p', h⟩ | ⟨d', t5, t6, rfl, h3, h⟩
  · exact .inl (quiet_append q1 (quiet_append q2 (quiet_of (quiet_settle _) h)))
  have q3 := quiet_of (quiet_settle _) h3
  have go : ∀ {f : String × Args → Proc sig Fail Unit} {q : Proc sig Fail Unit}, Prog.Steps (configured showIp d' >>= f : Proc sig Fail Unit) t6 q →
      (∀ d ∈ t1 ++ (t3 ++ (t5 ++ t6)), Quiet d.1) ∨ ∃ t1' t2' x, t1 ++ (t3 ++ (t5 ++ t6)) = t1' ++ t2' ∧ (∀ d ∈ t1', Quiet d.1) ∧
        Prepared args t1' bin x.1 x.2 ∧ Prog.Steps (f x) t2' q := by
    intro f q h
    rcases Proc.steps_bind h with ⟨p', h⟩ | ⟨x, t7, t8, rfl, h4, h⟩
    · exact .inl (quiet_append q1 (quiet_append q2 (quiet_append q3 (quiet_of (quiet_configured _) h))))
    have q4 := quiet_of (quiet_configured _) h4
    refine .inr ⟨t1 ++ (t3 ++ (t5 ++ t7)), t8, x, by simp, quiet_append q1 (quiet_append q2 (quiet_append q3 q4)), ?_, h⟩
    obtain ⟨f1, p, f2, f3⟩ := find_ends h1
    obtain ⟨c1, c2⟩ := configured_ends h4
    refine ⟨fun n hn => List.mem_append_left _ (f1 n hn), ⟨p, f2, List.mem_append_left _ f3⟩, d, d', directory_ends h2, ?_, ?_, ?_⟩
    · exact (settle_ends h3).imp id fun h => List.mem_append_right _ (List.mem_append_right _ (List.mem_append_left _ h))
    · exact List.mem_append_right _ (List.mem_append_right _ (List.mem_append_right _ c1))
    · exact List.mem_append_right _ (List.mem_append_right _ (List.mem_append_right _ c2))
  unfold rest
  cases hc : args.command with
  | none =>
    rw [hc] at h
    rcases go h with h | ⟨t1, t2, x, h1, h2, h3, h4⟩
    · exact .inl h
    · exact .inr ⟨t1, t2, bin, x.1, x.2, _, h1, h2, h3, rfl, h4⟩
  | some k =>
    rw [hc] at h
    cases k with
    | generate a => exact .inl (quiet_append q1 (quiet_append q2 (quiet_append q3 (quiet_of (quiet_generate _ _) h))))
    | run =>
      rcases go h with h | ⟨t1, t2, x, h1, h2, h3, h4⟩
      · exact .inl h
      · exact .inr ⟨t1, t2, bin, x.1, x.2, _, h1, h2, h3, rfl, h4⟩
    | device loc c =>
      rcases go h with h | ⟨t1, t2, x, h1, h2, h3, h4⟩
      · exact .inl h
      · exact .inr ⟨t1, t2, bin, x.1, x.2, _, h1, h2, h3, rfl, h4⟩

/-! ### The servers -/

/-- What is true when something is done. -/
def Cond (dir bin : String) (a : Args) (u : Trace sig) : sig.Deed → Prop
  | ⟨.spawn x c, _⟩ => c = serverCommand dir bin x ∧ x ∉ left u
  | ⟨.next, _⟩ => left u = daemons ∧ ∀ x, Answered a u x
  | ⟨.setup _, _⟩ | ⟨.config _, _⟩ | ⟨.run _, _⟩ => False
  | _ => True

section
variable {dir bin : String} {a : Args}

variable (dir bin a) in
/-- This holds for all that was done. -/
def Inv (t : Trace sig) : Prop := ∀ u d v, t = u ++ d :: v → Cond dir bin a u d

theorem Inv.snoc {t : Trace sig} {d : sig.Deed} (h : Inv dir bin a t) (hd : Cond dir bin a t d) : Inv dir bin a (t ++ [d]) := by
  intro u e v he
  rcases snoc_split he with ⟨rfl, rfl, rfl⟩ | ⟨v', rfl⟩
  · exact hd
  · exact h u e v' rfl

variable (dir bin a) in
/-- The servers `L` are running, and `D` have answered. -/
structure St (L D : List Daemon) (t : Trace sig) : Prop where
  inv : Inv dir bin a t
  left : left t = L
  done : ∀ x ∈ D, Answered a t x

theorem St.snoc {L D : List Daemon} {t : Trace sig} {d : sig.Deed} (h : St dir bin a L D t) (hd : Cond dir bin a t d) :
    St dir bin a (after L d) D (t ++ [d]) :=
  ⟨h.inv.snoc hd, by rw [left_snoc, h.left], fun x hx => (h.done x hx).snoc _⟩

theorem st_ask {L D : List Daemon} {o : Op} {Q : Res Fail (sig.Ans o) → Trace sig → Prop} (hc : ∀ t b, St dir bin a L D t → Cond dir bin a t ⟨o, b⟩)
    (hI : ∀ r t, Q r t → Inv dir bin a t) (hQ : ∀ t b, St dir bin a L D t → St dir bin a (after L ⟨o, b⟩) D (t ++ [⟨o, b⟩]) → Q (.ok b) (t ++ [⟨o, b⟩])) :
    Hoare remember (Inv dir bin a) (St dir bin a L D) (Proc.ask (S := sig) o : Proc sig Fail _) Q :=
  Hoare.ask (fun _ h => h.inv) hI fun t b t' h ht => by
    cases (show t' = _ from ht)
    exact hQ t b h (h.snoc (hc t b h))

theorem mid_inv {α β : Type} {I : Trace sig → Prop} {M : α → Trace sig → Prop} {Q : Res Fail β → Trace sig → Prop} (hM : ∀ x t, M x t → I t)
    (hQ : ∀ r t, Q r t → I t) (r : Res Fail α) (t : Trace sig) (h : Hoare.Mid M Q r t) : I t := by
  cases r with
  | ok x => exact hM x t h
  | err e => exact hQ _ t h
  | panic => exact hQ _ t h

/-- Servers after starting one. -/
def Upon (dir bin : String) (a : Args) (L L' D D' : List Daemon) : Res Fail Unit → Trace sig → Prop
  | .ok _ => St dir bin a L' D'
  | _ => St dir bin a L D

theorem upon_inv {L L' D D' : List Daemon} (r : Res Fail Unit) (t : Trace sig) (h : Upon dir bin a L L' D D' r t) : Inv dir bin a t := by
  cases r <;> exact St.inv h

theorem start_h {L : List Daemon} {x : Daemon} (hx : x ∉ L) :
    Hoare remember (Inv dir bin a) (St dir bin a L []) (startBinary dir bin x) (Upon dir bin a L (L ++ [x]) [] []) := by
  have log : ∀ (p : String) {f : Bool → Proc sig Fail Unit}, (∀ b, Hoare remember (Inv dir bin a) (St dir bin a L []) (f b) (Upon dir bin a L (L ++ [x]) [] [])) →
      Hoare remember (Inv dir bin a) (St dir bin a L []) (Proc.ask (S := sig) (.log p) >>= f : Proc sig Fail Unit) (Upon dir bin a L (L ++ [x]) [] []) := by
    intro p f hf
    refine Hoare.bind (M := fun _ => St dir bin a L []) (st_ask (fun _ _ _ => trivial) (mid_inv (fun _ _ h => h.inv) upon_inv) fun t b _ h => h) upon_inv fun b => hf b
  have chk : ∀ {b : Bool} {e : Fail} {f : Unit → Proc sig Fail Unit}, Hoare remember (Inv dir bin a) (St dir bin a L []) (f ()) (Upon dir bin a L (L ++ [x]) [] []) →
      Hoare remember (Inv dir bin a) (St dir bin a L []) (Proc.check e b >>= f : Proc sig Fail Unit) (Upon dir bin a L (L ++ [x]) [] []) := by
    intro b e f hf
    refine Hoare.bind (M := fun _ => St dir bin a L []) (Hoare.check (fun _ h => h.inv) (fun _ _ h => h) fun _ _ h => h) upon_inv fun _ => hf
  refine log _ fun b => chk (log _ fun b => chk ?_)
  refine Hoare.bind (M := fun b => St dir bin a (if (show Bool from b) then L ++ [x] else L) [])
    (st_ask (fun t b h => ⟨rfl, h.left ▸ hx⟩) (mid_inv (fun _ _ h => h.inv) upon_inv) fun t b _ h => h) upon_inv fun b => ?_
  cases b with
  | true => exact Hoare.check (fun _ h => h.inv) (fun _ _ h => h) (nofun)
  | false => exact Hoare.check (fun _ h => h.inv) nofun (fun _ _ h => h)

theorem startAll_h (l : List Daemon) : ∀ (L : List Daemon), (L ++ l).Nodup →
    Hoare remember (Inv dir bin a) (St dir bin a L []) (startAll dir bin l L)
      (fun s t => St dir bin a s.1 [] t ∧ (∀ u, s.2 = .ok u → s.1 = L ++ l)) := by
  induction l with
  | nil =>
    intro L _
    exact Hoare.ret (fun _ h => h.inv) fun t h => ⟨h, fun _ _ => by simp⟩
  | cons x l ih =>
    intro L hn
    have hx : x ∉ L := by
      intro h
      have := List.nodup_append.1 hn
      exact this.2.2 x h x (by simp) rfl
    refine Hoare.progBind (start_h hx) fun r => ?_
    cases r with
    | ok u => 
      refine (ih (L ++ [x]) (by simpa using hn)).post fun s t h => ⟨h.1, fun u hu => by simpa using h.2 u hu⟩
    | err e => exact Hoare.ret (fun _ h => h.inv) fun t h => ⟨h, nofun⟩
    | panic => exact Hoare.ret (fun _ h => h.inv) fun t h => ⟨h, nofun⟩

theorem port_eq (x : Daemon) : port a x = portOf a x := by cases x <;> rfl

theorem awaitOne_h {L D : List Daemon} {x : Daemon} (hx : x ∈ L) (n : Nat) :
    Hoare remember (Inv dir bin a) (St dir bin a L D) (awaitOne a L x n) (Upon dir bin a L L D (x :: D)) := by
  have chk : ∀ {b : Bool} {e : Fail} {f : Unit → Proc sig Fail Unit}, Hoare remember (Inv dir bin a) (St dir bin a L D) (f ()) (Upon dir bin a L L D (x :: D)) →
      Hoare remember (Inv dir bin a) (St dir bin a L D) (Proc.check e b >>= f : Proc sig Fail Unit) (Upon dir bin a L L D (x :: D)) := by
    intro b e f hf
    refine Hoare.bind (M := fun _ => St dir bin a L D) (Hoare.check (fun _ h => h.inv) (fun _ _ h => h) fun _ _ h => h) upon_inv fun _ => hf
  have some : ∀ {o : Option (Option Status)} {e : Fail} {f : Option Status → Proc sig Fail Unit}, (∀ b, Hoare remember (Inv dir bin a) (St dir bin a L D) (f b) (Upon dir bin a L L D (x :: D))) →
      Hoare remember (Inv dir bin a) (St dir bin a L D) (Proc.some? e o >>= f : Proc sig Fail Unit) (Upon dir bin a L L D (x :: D)) := by
    intro b e f hf
    refine Hoare.bind (M := fun _ => St dir bin a L D) (Hoare.some? (fun _ h => h.inv) (fun _ _ _ h => h) fun _ _ h => h) upon_inv fun _ => hf _
  have act : ∀ (o : Op) {f : o.Ans → Proc sig Fail Unit}, (∀ t b, Cond dir bin a t ⟨o, b⟩) → (∀ b, after L ⟨o, b⟩ = L) → (∀ b, Hoare remember (Inv dir bin a) (St dir bin a L D) (f b) (Upon dir bin a L L D (x :: D))) →
      Hoare remember (Inv dir bin a) (St dir bin a L D) (Proc.ask (S := sig) o >>= f : Proc sig Fail Unit) (Upon dir bin a L L D (x :: D)) := by
    intro o f hc ho hf
    refine Hoare.bind (M := fun _ => St dir bin a L D) (st_ask (fun t b _ => hc t b) (mid_inv (fun _ _ h => h.inv) upon_inv) fun t b _ h => ?_) upon_inv fun b => hf b
    rw [ho b] at h
    exact h
  induction n with
  | zero => exact Hoare.fail (fun _ h => h.inv) fun _ h => h
  | succ n ih =>
    refine Hoare.bind (M := fun b => St dir bin a L (if (show Bool from b) then x :: D else D))
      (st_ask (fun _ _ _ => trivial) (mid_inv (fun _ _ h => h.inv) upon_inv) fun t b h0 h => ?_) upon_inv fun b => ?_
    · have h : St dir bin a L D (t ++ [⟨.post (pingUrl a x), b⟩]) := h
      cases b with
      | false => exact h
      | true =>
        refine ⟨h.inv, h.left, fun y hy => ?_⟩
        rcases List.mem_cons.1 hy with rfl | hy
        · refine ⟨t, [], ?_, h0.left ▸ hx⟩
          rw [← port_eq]
          rfl
        · exact h.done y hy
    · cases b with
      | true => exact Hoare.pure (fun _ h => h.inv) fun _ h => h
      | false =>
        refine act .elapsed (fun _ _ => trivial) (fun _ => rfl) fun e => chk ?_
        rw [if_pos hx]
        exact act (.poll x) (fun _ _ => trivial) (fun _ => rfl) fun s => some fun s => chk (act (.sleep pause) (fun _ _ => trivial) (fun _ => rfl) fun _ => ih)

theorem awaitAll_h {L : List Daemon} (n : Nat) (l : List Daemon) : ∀ (D : List Daemon), (∀ x ∈ l, x ∈ L) →
    Hoare remember (Inv dir bin a) (St dir bin a L D) (awaitAll n a L l) (fun r => match r with | .ok _ => St dir bin a L (l.reverse ++ D) | _ => St dir bin a L []) := by
  induction l with
  | nil => intro D _; exact Hoare.pure (fun _ h => h.inv) fun _ h => h
  | cons x l ih =>
    intro D hl
    refine Hoare.bind (M := fun _ => St dir bin a L (x :: D)) ((awaitOne_h (hl x (by simp)) n).post fun r t h => ?_)
      (fun r t h => by cases r <;> exact h.inv) fun _ => ?_
    · cases r with
      | ok u => exact h
      | err e => exact ⟨h.inv, h.left, nofun⟩
      | panic => exact ⟨h.inv, h.left, nofun⟩
    · refine (ih (x :: D) fun y hy => hl y (by simp [hy])).post fun r t h => ?_
      cases r with
      | ok u => simpa using h
      | err e => exact h
      | panic => exact h

theorem serve_h (n : Nat) : Hoare remember (Inv dir bin a) (St dir bin a daemons []) (serve n a daemons) (fun _ => St dir bin a daemons []) := by
  have weak : ∀ {D : List Daemon} {t : Trace sig}, St dir bin a daemons D t → St dir bin a daemons [] t := fun h => ⟨h.inv, h.left, nofun⟩
  refine Hoare.bind (M := fun _ => St dir bin a daemons (daemons.reverse ++ [])) ((awaitAll_h n daemons [] fun _ h => h).post fun r t h => ?_)
    (fun r t h => h.inv) fun _ => ?_
  · cases r <;> exact h
  refine Hoare.bind (M := fun _ => St dir bin a daemons (daemons.reverse ++ [])) (st_ask (fun _ _ _ => trivial) (mid_inv (fun _ _ h => h.inv) fun _ _ h => h.inv) fun t b _ h => h)
    (fun r t h => h.inv) fun _ => ?_
  refine Hoare.bind (M := fun _ => St dir bin a daemons (daemons.reverse ++ [])) (Hoare.check (fun _ h => h.inv) (fun _ _ h => h) fun _ _ h => weak h)
    (fun r t h => h.inv) fun _ => ?_
  refine Hoare.bind (M := fun _ => St dir bin a daemons []) (st_ask (fun t b h => ⟨h.left, fun x => h.done x (by cases x <;> decide)⟩)
    (mid_inv (fun _ _ h => h.inv) fun _ _ h => h.inv) fun t b _ h => weak h) (fun r t h => h.inv) fun e => ?_
  cases e <;> exact Hoare.pure (fun _ h => h.inv) fun _ h => h

theorem drop_h (l : List Daemon) : ∀ (L : List Daemon), (∀ x ∈ L, x ∈ l) →
    Hoare remember (Inv dir bin a) (St dir bin a L []) (dropAll l) (fun _ => St dir bin a [] []) := by
  induction l with
  | nil =>
    intro L hL
    cases L with
    | nil => exact Hoare.ret (fun _ h => h.inv) fun _ h => h
    | cons x r => exact absurd (hL x (by simp)) List.not_mem_nil
  | cons x l ih =>
    intro L hL
    refine Hoare.act (fun _ h => h.inv) fun u => (ih (L.filter (· ≠ x)) fun y hy => ?_).pre ?_
    · obtain ⟨h1, h2⟩ := List.mem_filter.1 hy
      exact (List.mem_cons.1 (hL y h1)).resolve_left (by simpa using h2)
    · rintro t' ⟨t, h, ht⟩
      cases (show t' = _ from ht)
      exact h.snoc (d := ⟨.kill x, u⟩) trivial

theorem execute_h (n : Nat) : Hoare remember (Inv dir bin a) (St dir bin a [] []) (execute n dir bin a) (fun _ => St dir bin a [] []) := by
  refine Hoare.progBind (startAll_h daemons [] (by decide)) fun s => ?_
  refine Hoare.progBind (M := fun _ => St dir bin a s.1 []) ?_ fun r =>
    Hoare.progBind (drop_h s.1 s.1 fun _ h => h) fun _ => Hoare.ret (fun _ h => h.inv) fun _ h => h
  obtain ⟨L, r⟩ := s
  cases r with
  | ok u =>
    intro t0 t t' h hr
    have hL : L = daemons := h.2 u rfl
    subst hL
    exact serve_h n t0 t t' h.1 hr
  | err e => exact Hoare.ret (fun _ h => h.1.inv) fun _ h => h.1
  | panic => exact Hoare.ret (fun _ h => h.1.inv) fun _ h => h.1

theorem st_nil : St dir bin a [] [] [] := ⟨fun u d v h => by simp at h, rfl, nofun⟩

theorem execute_does {n : Nat} {t : Trace sig} (h : Prog.Does (execute n dir bin a) t) : Inv dir bin a t :=
  (((execute_h n).pre fun t h => by cases (show t = [] from h); exact st_nil).trace t).1 h

theorem execute_ends {n : Nat} {t : Trace sig} {r : Res Fail Unit} (h : Prog.Ends (execute n dir bin a) t r) : left t = [] :=
  ((((execute_h n).pre fun t h => by cases (show t = [] from h); exact st_nil).trace t).2 r h).left

end

theorem device_only {dir bin : String} {a : Args} {loc : String} {c : DeviceCommand} :
    Prog.Only (S := sig) (fun o => ∃ c, o = .run c) (device dir bin a loc c) := by
  have run : ∀ c, Prog.Only (S := sig) (fun o => ∃ c, o = .run c) (runOk c) := fun c =>
    Proc.only_bind (Proc.only_ask ⟨c, rfl⟩) fun _ => Proc.only_bind Proc.only_some? fun _ => Proc.only_check
  cases c with
  | manufacture info => exact Proc.only_bind (run _) fun _ => run _
  | analyze => exact run _
  | run kdf => exact run _

/-! ### C84 -/

theorem foldl_runs {t : Trace sig} (h : ∀ d ∈ t, ∃ c, d.1 = .run c) (l : List Daemon) : t.foldl after l = l := by
  induction t with
  | nil => rfl
  | cons d t ih =>
    obtain ⟨o, b⟩ := d
    obtain ⟨c, hc⟩ := h _ List.mem_cons_self
    cases hc
    exact ih fun d hd => h d (List.mem_cons_of_mem _ hd)

theorem not_quiet {o : Op} (h : ∀ s, o ≠ .setup s) (h' : ∀ p, o ≠ .config p) : ¬ Quiet o :=
  fun hq => hq.elim (fun ⟨s, e⟩ => h s e) fun ⟨p, e⟩ => h' p e

theorem rest_cases {n : Nat} {args : AioArgs} {bin dir : String} {a : Args} {p : Proc sig Fail Unit} (h : rest n args bin dir a = some p) :
    p = execute n dir bin a ∨ ∃ loc c, args.command = some (.device loc c) ∧ p = device dir bin a loc c := by
  unfold rest at h
  split at h
  · cases h
  · rename_i loc c hc
    cases h
    exact .inr ⟨loc, c, hc, rfl⟩
  · cases h
    exact .inl rfl

/-- A deed that has to do with servers is one of running them. -/
theorem main_reaches {n : Nat} {args : AioArgs} {t v : Trace sig} {d : sig.Deed} (h : Prog.Does (main showIp n args) (t ++ d :: v))
    (hd : ¬ Quiet d.1 ∧ ∀ c, d.1 ≠ .run c) : ∃ t1 t2 bin dir a, t = t1 ++ t2 ∧ (∀ d ∈ t1, Quiet d.1) ∧ Prepared args t1 bin dir a ∧
      Prog.Does (execute n dir bin a) (t2 ++ d :: v) := by
  obtain ⟨q, h⟩ := h
  rcases main_steps h with h | ⟨t1, t2, bin, dir, a, p, he, h1, h2, h3, h4⟩
  · exact absurd (h d (by simp)) hd.1
  rcases List.append_eq_append_iff.1 he with ⟨x, rfl, hx⟩ | ⟨x, rfl, rfl⟩
  · cases x with
    | nil =>
      rw [List.nil_append] at hx
      subst hx
      refine ⟨t, [], bin, dir, a, by simp, by simpa using h1, by simpa using h2, ?_⟩
      rcases rest_cases h3 with rfl | ⟨loc, c, -, rfl⟩
      · exact ⟨q, h4⟩
      · obtain ⟨c, hc⟩ := device_only _ ⟨q, h4⟩ d (by simp)
        exact absurd hc (hd.2 c)
    | cons y x =>
      rw [List.cons_append, List.cons.injEq] at hx
      obtain ⟨rfl, -⟩ := hx
      exact absurd (h1 d (by simp)) hd.1
  · refine ⟨t1, x, bin, dir, a, rfl, h1, h2, ?_⟩
    rcases rest_cases h3 with rfl | ⟨loc, c, -, rfl⟩
    · exact ⟨q, h4⟩
    · obtain ⟨c, hc⟩ := device_only _ ⟨q, h4⟩ d (by simp)
      exact absurd hc (hd.2 c)

theorem Prepared.mono {args : AioArgs} {t u : Trace sig} {bin dir : String} {a : Args} (h : Prepared args t bin dir a) : Prepared args (t ++ u) bin dir a := by
  obtain ⟨h1, ⟨p, h2, h3⟩, d, d', h4, h5, h6, h7⟩ := h
  exact ⟨fun n hn => List.mem_append_left _ (h1 n hn), ⟨p, h2, List.mem_append_left _ h3⟩, d, d', h4, h5.imp id (List.mem_append_left _),
    List.mem_append_left _ h6, List.mem_append_left _ h7⟩

theorem Answered.quiet {a : Args} {t u : Trace sig} {x : Daemon} (ht : ∀ d ∈ t, Quiet d.1) (h : Answered a u x) : Answered a (t ++ u) x := by
  obtain ⟨u1, v, rfl, hx⟩ := h
  exact ⟨t ++ u1, v, by simp, by rw [left_quiet ht]; exact hx⟩

/-- **C84**, starting: whenever a server is started, all programs have been found in one place and the configuration of the directory has
been read; it is the server's program from there, told the settings made for it in this directory in the way in which it looks for
its settings, and it has not been started before without having been stopped. -/
theorem C84_started {n : Nat} {args : AioArgs} {t v : Trace sig} {x : Daemon} {c : Command} {b : Bool}
    (h : Prog.Does (main showIp n args) (t ++ (⟨.spawn x c, b⟩ : sig.Deed) :: v)) :
    ∃ bin dir a, Prepared args t bin dir a ∧ c.program = bin ++ "/fdo-" ++ x.component ∧ c.args = [] ∧ c.dir = some (dir ++ "/work") ∧
      c.env = [("LOG_LEVEL", "trace"), (Settings.confEnv x.component, dir ++ "/configs/" ++ x.file)] ∧ x ∉ left t := by
  obtain ⟨t1, t2, bin, dir, a, rfl, h1, h2, h3⟩ := main_reaches h ⟨not_quiet nofun nofun, nofun⟩
  obtain ⟨rfl, h4⟩ := execute_does h3 t2 _ v rfl
  refine ⟨bin, dir, a, h2.mono, ?_, rfl, rfl, ?_, by rw [left_quiet h1]; exact h4⟩
  · show bin ++ "/" ++ (Binary.server x).name = _
    rw [show (Binary.server x).name = "fdo-" ++ x.component by cases x <;> decide +kernel, String.append_assoc, ← String.append_assoc (s₁ := "/"), ← String.append_assoc]
    rfl
  · rw [← C81_started]
    rfl

/-- **C84**, readiness: the program waits for the end of the set-up only after all four servers were started, none of them has been stopped
by it, and after its start something has answered on the port of each. (Whether it was this server is not checked, see
`C84_foreign_violated`.) -/
theorem C84_ready_partial {n : Nat} {args : AioArgs} {t v : Trace sig} {e : Event} (h : Prog.Does (main showIp n args) (t ++ (⟨.next, e⟩ : sig.Deed) :: v)) :
    ∃ bin dir a, Prepared args t bin dir a ∧ left t = [.manufacturing, .owner, .rendezvous, .api] ∧ ∀ x, Answered a t x := by
  obtain ⟨t1, t2, bin, dir, a, rfl, h1, h2, h3⟩ := main_reaches h ⟨not_quiet nofun nofun, nofun⟩
  obtain ⟨h4, h5⟩ := execute_does h3 t2 _ v rfl
  exact ⟨bin, dir, a, h2.mono, by rw [left_quiet h1]; exact h4, fun x => (h5 x).quiet h1⟩

/-- **C84**, stopping: when the program comes to an end by itself, with or without success, no server is left. -/
theorem C84_stopped {n : Nat} {args : AioArgs} {t : Trace sig} {r : Res Fail Unit} (h : Prog.Ends (main showIp n args) t r) : left t = [] := by
  rcases main_steps h with h | ⟨t1, t2, bin, dir, a, p, rfl, h1, h2, h3, h4⟩
  · have := left_quiet (u := []) h
    rw [List.append_nil] at this
    exact this
  · rw [left_quiet h1]
    rcases rest_cases h3 with rfl | ⟨loc, c, -, rfl⟩
    · exact execute_ends h4
    · exact foldl_runs (device_only _ ⟨_, h4⟩) []

/-! ### Results -/

/-- Not waiting for the end. -/
def Early (o : Op) : Prop := o ≠ .next

theorem early_await (a : Args) (L : List Daemon) (x : Daemon) (n : Nat) : Prog.Only (S := sig) Early (awaitOne a L x n) := by
  induction n with
  | zero => exact Proc.only_fail
  | succ n ih =>
    exact Proc.only_bind (Proc.only_ask nofun) fun _ => Proc.only_ite Proc.only_pure <|
      Proc.only_bind (Proc.only_ask nofun) fun _ => Proc.only_bind Proc.only_check fun _ => Proc.only_ite
        (Proc.only_bind (Proc.only_ask nofun) fun _ => Proc.only_bind Proc.only_some? fun _ => Proc.only_bind Proc.only_check fun _ =>
          Proc.only_bind (Proc.only_ask nofun) fun _ => ih) Proc.only_lift

theorem early_all (n : Nat) (a : Args) (L l : List Daemon) : Prog.Only (S := sig) Early (awaitAll n a L l) := by
  induction l with
  | nil => exact Proc.only_pure
  | cons x l ih => exact Proc.only_bind (early_await _ _ _ _) fun _ => ih

theorem early_start (dir bin : String) (l : List Daemon) : ∀ L, Prog.Only (S := sig) Early (startAll dir bin l L) := by
  induction l with
  | nil => intro L; exact Prog.only_ret
  | cons x l ih =>
    intro L
    refine Prog.only_bind (Proc.only_bind (Proc.only_ask nofun) fun _ => Proc.only_bind Proc.only_check fun _ => Proc.only_bind (Proc.only_ask nofun) fun _ =>
      Proc.only_bind Proc.only_check fun _ => Proc.only_bind (Proc.only_ask nofun) fun _ => Proc.only_check) fun r => ?_
    cases r with
    | ok u => exact ih _
    | err e => exact Prog.only_ret
    | panic => exact Prog.only_ret

theorem early_drop (l : List Daemon) : Prog.Only (S := sig) Early (dropAll l) := by
  induction l with
  | nil => exact Prog.only_ret
  | cons x l ih => exact Prog.only_act nofun fun _ => ih

/-- Either the program got to waiting, and succeeds, or not. -/
def Fate (t : Trace sig) (r : Res Fail Unit) : Prop :=
  (∃ e, (⟨.next, e⟩ : sig.Deed) ∈ t) ∧ r = .ok () ∨ (∀ e, (⟨.next, e⟩ : sig.Deed) ∉ t) ∧ r ≠ .ok ()

theorem early_not {α : Type} {p : Prog sig α} (h : Prog.Only (S := sig) Early p) {t : Trace sig} {x : α} (ht : Prog.Ends p t x) (e : Event) :
    (⟨.next, e⟩ : sig.Deed) ∉ t := fun hm => h t ⟨_, ht⟩ _ hm rfl

theorem serve_fate {n : Nat} {a : Args} {L : List Daemon} {t : Trace sig} {r : Res Fail Unit} (h : Prog.Ends (serve n a L) t r) : Fate t r := by
  rcases Proc.ends_bind' h with ⟨u, t1, t2, rfl, h1, g1⟩ | ⟨e, g1, rfl⟩ | ⟨g1, rfl⟩
  · have n1 := early_not (early_all _ _ _ _) h1
    obtain ⟨ok, t3, rfl, g2⟩ := Prog.ends_act g1
    rcases Proc.ends_bind' (p := Proc.check (S := sig) Fail.handler ok) g2 with ⟨u, t4, t5, rfl, h2, g3⟩ | ⟨e, g3, rfl⟩ | ⟨g3, rfl⟩
    · obtain ⟨rfl, -⟩ := Proc.ends_check h2
      obtain ⟨e, t6, rfl, g4⟩ := Prog.ends_act g3
      refine .inl ⟨⟨e, by simp⟩, ?_⟩
      cases e <;> exact (Prog.ends_ret g4).2.symm
    · have := Proc.does_check (S := sig) ⟨_, g3⟩
      subst this
      exact .inr ⟨fun e he => by simp [n1 e] at he, nofun⟩
    · have := Proc.does_check (S := sig) ⟨_, g3⟩
      subst this
      exact .inr ⟨fun e he => by simp [n1 e] at he, nofun⟩
  · exact .inr ⟨early_not (early_all _ _ _ _) g1, nofun⟩
  · exact .inr ⟨early_not (early_all _ _ _ _) g1, nofun⟩

theorem execute_fate {n : Nat} {dir bin : String} {a : Args} {t : Trace sig} {r : Res Fail Unit} (h : Prog.Ends (execute n dir bin a) t r) : Fate t r := by
  obtain ⟨⟨L, r1⟩, t1, t2, rfl, h1, h⟩ := Prog.ends_bind h
  obtain ⟨r2, t3, t4, rfl, h2, h⟩ := Prog.ends_bind h
  obtain ⟨u, t5, t6, rfl, h3, h⟩ := Prog.ends_bind h
  obtain ⟨rfl, rfl⟩ := Prog.ends_ret h
  have n1 := early_not (early_start _ _ _ _) h1
  have n3 := early_not (early_drop _) h3
  have f : Fate t3 r2 := by
    cases r1 with
    | ok u => exact serve_fate h2
    | err e =>
      obtain ⟨rfl, rfl⟩ := Prog.ends_ret h2
      exact .inr ⟨by simp, nofun⟩
    | panic =>
      obtain ⟨rfl, rfl⟩ := Prog.ends_ret h2
      exact .inr ⟨by simp, nofun⟩
  rcases f with ⟨⟨e, he⟩, rfl⟩ | ⟨h1, h2⟩
  · exact .inl ⟨⟨e, by simp [he]⟩, rfl⟩
  · exact .inr ⟨fun e he => by simp [n1 e, n3 e, h1 e] at he, h2⟩

/-- **C84**, result: running the set-up is reported as a success only if it was ready (see `C84_ready_partial`). -/
theorem C84_success {n : Nat} {args : AioArgs} {t : Trace sig} (hc : args.command = none ∨ args.command = some .run)
    (h : Prog.Ends (main showIp n args) t (.ok ())) : ∃ e, (⟨.next, e⟩ : sig.Deed) ∈ t := by
  rcases main_steps h with h' | ⟨t1, t2, bin, dir, a, p, rfl, h1, h2, h3, h4⟩
  · exfalso
    obtain ⟨bin, t1, t2, rfl, h1, h⟩ := Proc.ends_bind h
    obtain ⟨d, t3, t4, rfl, h2, h⟩ := Proc.ends_bind h
    obtain ⟨d', t5, t6, rfl, h3, h⟩ := Proc.ends_bind h
    have h : ∃ f : String × Args → Proc sig Fail Unit, (∀ q, f q = execute n q.1 bin q.2) ∧ Prog.Ends (configured showIp d' >>= f : Proc sig Fail Unit) t6 (.ok ()) := by
      rcases hc with hc | hc <;> rw [hc] at h <;> exact ⟨_, fun _ => rfl, h⟩
    obtain ⟨f, hf, h⟩ := h
    obtain ⟨q, t7, t8, rfl, h4, h⟩ := Proc.ends_bind h
    rw [hf] at h
    rcases execute_fate h with ⟨⟨e, he⟩, -⟩ | ⟨-, h⟩
    · exact not_quiet (o := .next) nofun nofun (h' ⟨.next, e⟩ (by simp [he]))
    · exact h rfl
  · have : p = execute n dir bin a := by
      unfold rest at h3
      rcases hc with hc | hc <;> rw [hc] at h3 <;> cases h3 <;> rfl
    subst this
    rcases execute_fate h4 with ⟨⟨e, he⟩, -⟩ | ⟨-, h⟩
    · exact ⟨e, by simp [he]⟩
    · exact absurd rfl h

/-- **C84 is violated** (failures): however a server ends, whether it failed or was killed, the program reports success. -/
theorem C84_failure_violated {n : Nat} {args : AioArgs} {t : Trace sig} {r : Res Fail Unit} (h : Prog.Ends (main showIp n args) t r)
    {x : Daemon} {s : Status} (_hs : s.success = false) (hx : (⟨.next, .ended x (some s)⟩ : sig.Deed) ∈ t) : r = .ok () := by
  rcases main_steps h with h' | ⟨t1, t2, bin, dir, a, p, rfl, h1, h2, h3, h4⟩
  · exact absurd (h' _ hx) (not_quiet nofun nofun)
  rcases List.mem_append.1 hx with hx | hx
  · exact absurd (h1 _ hx) (not_quiet nofun nofun)
  rcases rest_cases h3 with rfl | ⟨loc, c, -, rfl⟩
  · rcases execute_fate h4 with ⟨-, h⟩ | ⟨h, -⟩
    · exact h
    · exact absurd hx (h _)
  · obtain ⟨c, hc⟩ := device_only _ ⟨_, h4⟩ _ hx
    cases hc

/-! ### Waiting -/

theorem slept_append (t u : Trace sig) : slept (t ++ u) = slept t + slept u := by simp [slept]

theorem Clock.left {t u : Trace sig} (h : Clock (t ++ u)) : Clock t := by
  rintro u' e v rfl
  exact h u' e (v ++ u) (by simp)

/-- What is known of the time if the clock goes right. -/
def Timed (φ : Nat → Prop) (t : Trace sig) : Prop := Clock t → φ (slept t)

theorem timed_quiet {φ ψ : Nat → Prop} (hψ : ∀ k, φ k → ψ k) {o : Op} (ho : ∀ b, slept.one ⟨o, b⟩ = 0) {α : Type} {f : o.Ans → Proc sig Fail α}
    {Q : Res Fail α → Trace sig → Prop} (hQ : ∀ r t, Q r t → Timed ψ t)
    (hf : ∀ b, Hoare remember (Timed ψ) (Timed φ) (f b) Q) :
    Hoare remember (Timed ψ) (Timed φ) (Proc.ask (S := sig) o >>= f : Proc sig Fail α) Q := by
  refine Hoare.bind (M := fun _ => Timed φ) (Hoare.ask (fun _ h hc => hψ _ (h hc)) (mid_inv (fun _ _ h hc => hψ _ (h hc)) hQ) fun t b t' h ht => ?_) hQ hf
  cases ht
  have : Timed φ (t ++ [⟨o, b⟩]) := fun hc => by
    have := h hc.left
    rw [slept_append]
    simpa [slept, ho b] using this
  exact this

/-- What is known when a step of waiting ends. -/
def Waited (r : Res Fail Unit) (t : Trace sig) : Prop := Clock t → slept t ≤ 2500 ∧ r ≠ .err .cut

theorem waited_timed (r : Res Fail Unit) (t : Trace sig) (h : Waited r t) : Timed (· ≤ 2500) t := fun hc => (h hc).1

theorem awaitOne_c (a : Args) (L : List Daemon) (x : Daemon) (n : Nat) :
    Hoare remember (Timed (· ≤ 2500)) (Timed fun k => k ≤ 2500 ∧ 3000 ≤ k + 500 * n) (awaitOne a L x n) Waited := by
  induction n with
  | zero => exact Hoare.fail (fun _ h hc => (h hc).1) fun _ h hc => by have := h hc; omega
  | succ n ih =>
    refine timed_quiet (fun _ h => h.1) (fun _ => rfl) waited_timed fun b => ?_
    cases b with
    | true => exact Hoare.pure (fun _ h hc => (h hc).1) fun _ h hc => ⟨(h hc).1, nofun⟩
    | false =>
      refine Hoare.bind (M := fun e => Timed fun k => k ≤ 2500 ∧ 3000 ≤ k + 500 * (n + 1) ∧ k ≤ (show Nat from e))
        (Hoare.ask (fun _ h hc => (h hc).1) (mid_inv (fun _ _ h hc => (h hc).1) waited_timed) fun t e t' h ht => ?_) waited_timed fun e => ?_
      · cases ht
        have h1 : ∀ hc : Clock (t ++ [⟨.elapsed, e⟩]), _ := fun hc => h hc.left
        have h2 : slept (t ++ [⟨.elapsed, e⟩]) = slept t := by rw [slept_append]; simp [slept, slept.one]
        have h3 : Timed (fun k => k ≤ 2500 ∧ 3000 ≤ k + 500 * (n + 1) ∧ k ≤ (show Nat from e)) (t ++ [⟨.elapsed, e⟩]) := fun hc => by
          rw [h2]
          exact ⟨(h1 hc).1, (h1 hc).2, hc t e [] rfl⟩
        exact h3
      · refine Hoare.bind (M := fun _ => Timed fun k => k ≤ 2000 ∧ 3000 ≤ k + 500 * (n + 1))
          (Hoare.check (fun _ h hc => (h hc).1) (fun t hb h hc => ?_) fun _ t h hc => ⟨(h hc).1, nofun⟩) waited_timed fun _ => ?_
        · have h1 := h hc
          have h2 : (show Nat from e) ≤ maxWait := by simpa using hb
          have h3 : maxWait = 2000 := rfl
          exact ⟨by omega, h1.2.1⟩
        · split
          · refine timed_quiet (fun _ h => by omega) (fun _ => rfl) waited_timed fun s => ?_
            refine Hoare.bind (M := fun _ => Timed fun k => k ≤ 2000 ∧ 3000 ≤ k + 500 * (n + 1))
              (Hoare.some? (fun _ h hc => by have := h hc; omega) (fun _ _ _ h => h) fun _ t h hc => ⟨by have := h hc; omega, nofun⟩) waited_timed fun s => ?_
            refine Hoare.bind (M := fun _ => Timed fun k => k ≤ 2000 ∧ 3000 ≤ k + 500 * (n + 1))
              (Hoare.check (fun _ h hc => by have := h hc; omega) (fun _ _ h => h) fun _ t h hc => ⟨by have := h hc; omega, nofun⟩) waited_timed fun s => ?_
            refine Hoare.bind (M := fun _ => Timed fun k => k ≤ 2500 ∧ 3000 ≤ k + 500 * n)
              (Hoare.ask (fun _ h hc => by have := h hc; omega) (mid_inv (fun _ _ h hc => (h hc).1) waited_timed) fun t b t' h ht => ?_) waited_timed fun _ => ih
            cases ht
            have h1 : slept (t ++ [⟨.sleep pause, b⟩]) = slept t + 500 := by rw [slept_append]; simp [slept, slept.one, pause]
            have h2 : Timed (fun k => k ≤ 2500 ∧ 3000 ≤ k + 500 * n) (t ++ [⟨.sleep pause, b⟩]) := fun hc => by
              have := h hc.left
              rw [h1]
              omega
            exact h2
          · exact Hoare.lift (fun _ h hc => by have := h hc; omega) fun _ h hc => ⟨by have := h hc; omega, nofun⟩

theorem awaitAll_c (a : Args) (L : List Daemon) {n : Nat} (hn : 6 ≤ n) (l : List Daemon) :
    Hoare remember (Timed (· ≤ 2500)) (Timed (· ≤ 2500)) (awaitAll n a L l) Waited := by
  induction l with
  | nil => exact Hoare.pure (fun _ h => h) fun _ h hc => ⟨h hc, nofun⟩
  | cons x l ih =>
    refine Hoare.bind (M := fun _ => Timed (· ≤ 2500)) (((awaitOne_c a L x n).pre fun t h hc => ⟨h hc, by omega⟩).post fun r t h => ?_) waited_timed fun _ => ih
    cases r with
    | ok u => exact waited_timed _ _ h
    | err e => exact fun hc => ⟨(h hc).1, fun h' => (h hc).2 (by cases h'; rfl)⟩
    | panic => exact fun hc => ⟨(h hc).1, nofun⟩

theorem serve_c (a : Args) (L : List Daemon) {n : Nat} (hn : 6 ≤ n) :
    Hoare remember (Timed (· ≤ 2500)) (Timed (· ≤ 2500)) (serve n a L) Waited := by
  refine Hoare.bind (M := fun _ => Timed (· ≤ 2500)) ((awaitAll_c a L hn _).post fun r t h => ?_) waited_timed fun _ => ?_
  · cases r with
    | ok u => exact waited_timed _ _ h
    | err e => exact fun hc => ⟨(h hc).1, fun h' => (h hc).2 (by cases h'; rfl)⟩
    | panic => exact fun hc => ⟨(h hc).1, nofun⟩
  · refine timed_quiet (fun _ h => h) (fun _ => rfl) waited_timed fun ok => ?_
    refine Hoare.bind (M := fun _ => Timed (· ≤ 2500)) (Hoare.check (fun _ h => h) (fun _ _ h => h) fun _ t h hc => ⟨h hc, nofun⟩) waited_timed fun _ => ?_
    refine timed_quiet (fun _ h => h) (fun _ => rfl) waited_timed fun e => ?_
    cases e <;> exact Hoare.pure (fun _ h => h) fun _ h hc => ⟨h hc, nofun⟩

/-- What does not sleep. -/
def Awake (o : Op) : Prop := ∀ b, slept.one ⟨o, b⟩ = 0

theorem slept_awake {t : Trace sig} (h : ∀ d ∈ t, Awake d.1) : slept t = 0 := by
  induction t with
  | nil => rfl
  | cons d t ih =>
    have h1 : slept.one d = 0 := h d List.mem_cons_self d.2
    have h2 := ih fun d hd => h d (List.mem_cons_of_mem _ hd)
    simp only [slept, List.map_cons, List.sum_cons] at h2 ⊢
    omega

theorem start_awake (dir bin : String) (l : List Daemon) : ∀ L, Prog.Only (S := sig) Awake (startAll dir bin l L) := by
  induction l with
  | nil => intro L; exact Prog.only_ret
  | cons x l ih =>
    intro L
    refine Prog.only_bind (Proc.only_bind (Proc.only_ask fun _ => rfl) fun _ => Proc.only_bind Proc.only_check fun _ => Proc.only_bind (Proc.only_ask fun _ => rfl) fun _ =>
      Proc.only_bind Proc.only_check fun _ => Proc.only_bind (Proc.only_ask fun _ => rfl) fun _ => Proc.only_check) fun r => ?_
    cases r with
    | ok u => exact ih _
    | err e => exact Prog.only_ret
    | panic => exact Prog.only_ret

theorem start_err (dir bin : String) (l : List Daemon) : ∀ (L L' : List Daemon) (t : Trace sig) (r : Res Fail Unit),
    Prog.Ends (startAll dir bin l L) t (L', r) → r ≠ .err .cut := by
  induction l with
  | nil => intro L L' t r h; cases (Prog.ends_ret h).2; nofun
  | cons x l ih =>
    intro L L' t r h
    obtain ⟨r1, t1, t2, rfl, h1, h⟩ := Prog.ends_bind h
    cases r1 with
    | ok u => exact ih _ _ _ _ h
    | panic => cases (Prog.ends_ret h).2; nofun
    | err e =>
      cases (Prog.ends_ret h).2
      intro hr
      cases hr
      obtain ⟨ok, t3, rfl, g1⟩ := Prog.ends_act h1
      rcases Proc.ends_bind' (p := Proc.check (S := sig) _ (show Bool from ok)) g1 with ⟨u, t4, t5, rfl, h2, g2⟩ | ⟨e, g2, hg⟩ | ⟨g2, hg⟩
      · obtain ⟨ok, t3, rfl, g3⟩ := Prog.ends_act g2
        rcases Proc.ends_bind' (p := Proc.check (S := sig) _ (show Bool from ok)) g3 with ⟨u, t4, t5, rfl, h2, g4⟩ | ⟨e, g4, hg⟩ | ⟨g4, hg⟩
        · obtain ⟨ok, t3, rfl, g5⟩ := Prog.ends_act g4
          cases ok <;> cases (Prog.ends_ret g5).2
        · cases ok <;> cases (Prog.ends_ret g4).2 <;> cases hg
        · cases hg
      · cases ok <;> cases (Prog.ends_ret g2).2 <;> cases hg
      · cases hg

theorem drop_awake (l : List Daemon) : Prog.Only (S := sig) Awake (dropAll l) := by
  induction l with
  | nil => exact Prog.only_ret
  | cons x l ih => exact Prog.only_act (fun _ => rfl) fun _ => ih

theorem Clock.right {t u : Trace sig} (ht : slept t = 0) (h : Clock (t ++ u)) : Clock u := by
  rintro u' e v rfl
  have := h (t ++ u') e v (by simp)
  rw [slept_append, ht] at this
  omega

theorem awake_c {α : Type} {φ ψ : Nat → Prop} (hψ : ∀ k, φ k → ψ k) {p : Prog sig α} (h : Prog.Only (S := sig) Awake p) :
    Hoare remember (Timed ψ) (Timed φ) p fun x t => Timed φ t ∧ ∃ u, Prog.Ends p u x := by
  intro s t s' hs hr
  cases remember_runs hr
  have key : Prog.Does p t → Timed φ (s ++ t) := fun hd hc => by
    rw [slept_append, slept_awake (h t hd)]
    exact hs hc.left
  exact ⟨fun hd hc => hψ _ (key hd hc), fun x he => ⟨key ⟨_, he⟩, t, he⟩⟩

theorem execute_c {n : Nat} (hn : 6 ≤ n) (dir bin : String) (a : Args) :
    Hoare remember (Timed (· ≤ 2500)) (Timed (· ≤ 2500)) (execute n dir bin a) Waited := by
  have h0 := awake_c (φ := (· ≤ 2500)) (ψ := (· ≤ 2500)) (fun _ h => h) (start_awake dir bin daemons [])
  refine Hoare.progBind h0 fun ⟨L, r⟩ => ?_
  refine Hoare.progBind (M := Waited) ?_ fun r => ?_
  · cases r with
    | ok u => exact (serve_c a L hn).pre fun _ h => h.1
    | err e => exact Hoare.ret (fun _ h => h.1) fun _ h hc => ⟨h.1 hc, start_err _ _ _ _ _ _ _ h.2.choose_spec⟩
    | panic => exact Hoare.ret (fun _ h => h.1) fun _ h hc => ⟨h.1 hc, nofun⟩
  · have h1 : Hoare remember (Timed (· ≤ 2500)) (Waited r) (dropAll L) fun _ => Waited r := by
      intro s t s' hs hr'
      cases remember_runs hr'
      have key : Prog.Does (dropAll L) t → Waited r (s ++ t) := fun hd hc => by
        rw [slept_append, slept_awake (drop_awake L t hd)]
        exact hs hc.left
      exact ⟨fun hd => waited_timed _ _ (key hd), fun x he => key ⟨_, he⟩⟩
    exact Hoare.progBind h1 fun _ => Hoare.ret (waited_timed _) fun _ h => h

/-- **C84**, waiting: if sleeping takes its time, this program sleeps at most two and a half seconds before it is ready or gives up. -/
theorem C84_wait {n : Nat} (hn : 6 ≤ n) {args : AioArgs} {t : Trace sig} (hc : Clock t) (h : Prog.Does (main showIp n args) t) : slept t ≤ 2500 := by
  have quiet : ∀ {t : Trace sig}, (∀ d ∈ t, Quiet d.1) → slept t = 0 := fun h => slept_awake fun d hd b => by
    rcases h d hd with ⟨s, e⟩ | ⟨p, e⟩ <;> rw [show slept.one ⟨d.1, b⟩ = 0 by revert b; rw [e]; exact fun _ => rfl]
  obtain ⟨q, h⟩ := h
  rcases main_steps h with h | ⟨t1, t2, bin, dir, a, p, rfl, h1, h2, h3, h4⟩
  · rw [quiet h]
    omega
  · rw [slept_append, quiet h1]
    rcases rest_cases h3 with rfl | ⟨loc, c, -, rfl⟩
    · have := (Hoare.trace ((execute_c hn dir bin a).pre fun t (ht : t = []) _ => by simp [ht, slept]) t2).1 ⟨q, h4⟩ (hc.right (quiet h1))
      omega
    · rw [slept_awake fun d hd b => by
        obtain ⟨c, e⟩ := device_only _ ⟨_, h4⟩ d hd
        rw [show slept.one ⟨d.1, b⟩ = 0 by revert b; rw [e]; exact fun _ => rfl]]
      omega

/-- The bound `n` on the number of steps of waiting for one server, of the model, is not a restriction. -/
theorem C84_bound {n : Nat} (hn : 6 ≤ n) {dir bin : String} {a : Args} {t : Trace sig} (hc : Clock t) {r : Res Fail Unit}
    (h : Prog.Ends (execute n dir bin a) t r) : r ≠ .err .cut :=
  ((Hoare.trace ((execute_c hn dir bin a).pre fun t (ht : t = []) _ => by simp [ht, slept]) t).2 r h hc).2

/-! ### What does not hold -/

/-- Surroundings in which everything can be done, the configuration is `a`, something answers on all ports, and then `e` happens. -/
def smooth (a : Args) (e : Event) : (o : Op) → o.Ans
  | .setup (.exists? _) => true
  | .setup (.empty? _) => some false
  | .setup (.canonical p) => some p
  | .setup (.mkdir _) => true
  | .setup (.mkdirs _) => true
  | .setup (.isDir _) => true
  | .setup .keyPair => none
  | .setup .token => none
  | .setup .interfaces => none
  | .setup (.write _ _) => true
  | .config _ => some a
  | .log _ => true
  | .spawn _ _ => true
  | .post _ => true
  | .elapsed => (0 : Nat)
  | .poll _ => none
  | .sleep _ => ()
  | .handler => true
  | .next => e
  | .kill _ => ()
  | .run _ => none

/-- What is done then. -/
def smoothly (showIp : Bytes → String) (n : Nat) (args : AioArgs) (a : Args) (e : Event) : Trace sig :=
  Prog.doings (S := sig) (fun (_ : Unit) o => ((), smooth a e o)) () (main showIp n args)

theorem smoothly_ends (n : Nat) (dir bin : String) (a : Args) (e : Event) : Prog.Ends (main showIp (n + 1) ⟨some dir, some bin, some .run⟩)
    (smoothly showIp (n + 1) ⟨some dir, some bin, some .run⟩ a e) (.ok ()) := by
  have := Prog.exec_ends (S := sig) (fun (_ : Unit) o => ((), smooth a e o)) () (main showIp (n + 1) ⟨some dir, some bin, some .run⟩)
  have h : (Prog.exec (S := sig) (fun (_ : Unit) o => ((), smooth a e o)) () (main showIp (n + 1) ⟨some dir, some bin, some .run⟩)).2 = .ok () := by
    cases e <;> rfl
  rw [h] at this
  exact this

theorem smoothly_next (n : Nat) (dir bin : String) (a : Args) (e : Event) :
    ∃ v, smoothly showIp (n + 1) ⟨some dir, some bin, some .run⟩ a e =
      (smoothly showIp (n + 1) ⟨some dir, some bin, some .run⟩ a e).take 31 ++ ⟨.next, e⟩ :: v :=
  ⟨(smoothly showIp (n + 1) ⟨some dir, some bin, some .run⟩ a e).drop 32, by cases e <;> rfl⟩

/-- Whether a server is looked at. -/
def polls : Op → Bool
  | .poll _ => true
  | _ => false

/-- **C84 is violated** (readiness): the set-up may be taken for ready, and its end for a success, although this program has never looked
whether any server runs. It suffices that something answers on the ports: such as another set-up. -/
theorem C84_foreign_violated (n : Nat) (dir bin : String) (a : Args) (e : Event) :
    ∃ t, Prog.Ends (main showIp (n + 1) ⟨some dir, some bin, some .run⟩) t (.ok ()) ∧ (⟨.next, e⟩ : sig.Deed) ∈ t ∧
      (⟨.config (dir ++ "/aio_configuration"), some a⟩ : sig.Deed) ∈ t ∧ ∀ x s, (⟨.poll x, s⟩ : sig.Deed) ∉ t := by
  refine ⟨smoothly showIp (n + 1) ⟨some dir, some bin, some .run⟩ a e, smoothly_ends n dir bin a e, ?_, ?_, fun x s hx => ?_⟩
  · obtain ⟨v, h⟩ := smoothly_next (showIp := showIp) n dir bin a e
    rw [h]
    simp
  · have : (smoothly showIp (n + 1) ⟨some dir, some bin, some .run⟩ a e)[12]? = some ⟨.config (dir ++ "/aio_configuration"), some a⟩ := by
      cases e <;> rfl
    exact List.mem_of_getElem? this
  · have : (smoothly showIp (n + 1) ⟨some dir, some bin, some .run⟩ a e).any (fun d => polls d.1) = false := by cases e <;> rfl
    have h := List.any_eq_false.1 this _ hx
    exact h rfl

/-- **C84 is violated** (stopping): if this program is ended by other means than an interrupt while the servers run, they are left
running. -/
theorem C84_terminated_violated (n : Nat) (dir bin : String) (a : Args) :
    ∃ t k, Prog.Steps (main showIp (n + 1) ⟨some dir, some bin, some .run⟩) t (.act (S := sig) .next k) ∧
      (⟨.config (dir ++ "/aio_configuration"), some a⟩ : sig.Deed) ∈ t ∧ left t = [.manufacturing, .owner, .rendezvous, .api] := by
  obtain ⟨v, h⟩ := smoothly_next (showIp := showIp) n dir bin a .interrupt
  have h1 := smoothly_ends (showIp := showIp) n dir bin a .interrupt
  rw [h] at h1
  obtain ⟨q, h2, h3⟩ := Prog.steps_split h1
  cases h3 with
  | cons h3 =>
    refine ⟨_, _, h2, ?_, rfl⟩
    have : ((smoothly showIp (n + 1) ⟨some dir, some bin, some .run⟩ a .interrupt).take 31)[12]? = some ⟨.config (dir ++ "/aio_configuration"), some a⟩ := rfl
    exact List.mem_of_getElem? this

/-- What C84 says, for a set-up with the default configuration: it is told where everything is, all is found, something answers, and then
the rendezvous server ends with an error. -/
example : Prog.Ends (main (fun _ => "") 6 ⟨some "/d", some "/b", some .run⟩)
    (smoothly (fun _ => "") 6 ⟨some "/d", some "/b", some .run⟩ Args.default (.ended .rendezvous (some (.code 1)))) (.ok ()) :=
  smoothly_ends 5 _ _ _ _

/-- The same, but servers need 600 milliseconds until they answer: the program waits twice. -/
def slowly (a : Args) (e : Event) (k : Nat) : (o : Op) → Nat × o.Ans
  | .post _ => (k, decide (600 ≤ k))
  | .elapsed => (k, k)
  | .poll _ => (k, some none)
  | .sleep n => (k + n, ())
  | o => (k, smooth a e o)

example : (Prog.exec (S := sig) (slowly Args.default .interrupt) 0 (main (fun _ => "") 6 ⟨some "/d", some "/b", some .run⟩)) = (1000, .ok ()) := by
  decide +kernel

example : slept (Prog.doings (S := sig) (slowly Args.default .interrupt) 0 (main (fun _ => "") 6 ⟨some "/d", some "/b", some .run⟩)) = 1000 := by
  decide +kernel

end Verif.AioRun

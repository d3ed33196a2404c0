import Verif.Spec.Aio
import Verif.Props.Config
import Verif.Props.Settings
import Verif.Props.Url
/-!
C81: the servers of an all-in-one set-up fit together.
-/
namespace Verif.Aio
open Verif Verif.Rendezvous

/-! ### Traces -/

theorem check_steps {e : Fail} {b : Bool} {t : Trace sig} {q : Proc sig Fail Unit} (h : Prog.Steps (Proc.check (S := sig) e b) t q) :
    t = [] ∧ q = Proc.check e b := by
  cases b with
  | true => exact Prog.steps_ret h
  | false => exact Prog.steps_ret h

theorem check_all {e : Fail} {b : Bool} {t : Trace sig} {r : Res Fail Unit} (h : Prog.Ends (Proc.check (S := sig) e b) t r) :
    t = [] ∧ (b = true ∧ r = .ok () ∨ b = false ∧ r = .err e) := by
  cases b with
  | true =>
    obtain ⟨rfl, rfl⟩ := Prog.ends_ret h
    exact ⟨rfl, .inl ⟨rfl, rfl⟩⟩
  | false =>
    obtain ⟨rfl, rfl⟩ := Prog.ends_ret h
    exact ⟨rfl, .inr ⟨rfl, rfl⟩⟩

theorem try_ends {o : Op} {ok : o.Ans → Bool} {e : Fail} {t : Trace sig} {r : Res Fail Unit} (h : Prog.Ends (try_ o ok e) t r) :
    ∃ b, t = [⟨o, b⟩] ∧ (ok b = true ∧ r = .ok () ∨ ok b = false ∧ r = .err e) := by
  obtain ⟨b, t1, rfl, h1⟩ := Prog.ends_act h
  obtain ⟨rfl, h2⟩ := check_all h1
  exact ⟨b, rfl, h2⟩

theorem try_does {o : Op} {ok : o.Ans → Bool} {e : Fail} {t : Trace sig} (h : Prog.Does (try_ o ok e) t) : t = [] ∨ ∃ b, t = [⟨o, b⟩] := by
  rcases Proc.does_bind h with h | ⟨b, t1, t2, rfl, h1, q, h2⟩
  · exact Proc.does_ask h
  · obtain ⟨a, -, rfl⟩ := Proc.ends_ask h1
    obtain ⟨rfl, -⟩ := check_steps h2
    exact .inr ⟨a, rfl⟩

theorem some_ends {α : Type} {e : Fail} {o : Option α} {t : Trace sig} {a : α} (h : Prog.Ends (Proc.some? (S := sig) e o) t (.ok a)) : t = [] ∧ o = some a := by
  cases o with
  | none => cases (Prog.ends_ret h).2
  | some x =>
    obtain ⟨rfl, h⟩ := Prog.ends_ret h
    cases h
    exact ⟨rfl, rfl⟩

theorem check_ends {e : Fail} {b : Bool} {t : Trace sig} {u : Unit} (h : Prog.Ends (Proc.check (S := sig) e b) t (.ok u)) : t = [] ∧ b = true := by
  obtain ⟨rfl, ⟨h, -⟩ | ⟨-, h⟩⟩ := check_all h
  · exact ⟨rfl, h⟩
  · cases h

theorem each_only {α : Type} {P : Op → Prop} {f : α → Proc sig Fail Unit} {l : List α} (h : ∀ x ∈ l, Prog.Only (S := sig) P (f x)) : Prog.Only (S := sig) P (each f l) := by
  induction l with
  | nil => exact Prog.only_ret
  | cons x l ih =>
    refine Prog.only_bind (h x (by simp)) fun r => ?_
    cases r with
    | ok a => exact ih fun y hy => h y (by simp [hy])
    | err e => exact Prog.only_ret
    | panic => exact Prog.only_ret

theorem try_only {P : Op → Prop} {o : Op} {ok : o.Ans → Bool} {e : Fail} (h : P o) : Prog.Only (S := sig) P (try_ o ok e) := by
  intro t ht d hd
  rcases try_does ht with rfl | ⟨b, rfl⟩
  · cases hd
  · cases List.mem_singleton.1 hd
    exact h

theorem changes_append (t u : Trace sig) : changes (t ++ u) = changes t ++ changes u := List.filterMap_append

theorem changes_nil_of {t : Trace sig} (h : ∀ d ∈ t, ∀ p c, d.1 ≠ .write p c) : changes t = [] := by
  refine List.filterMap_eq_nil_iff.2 fun d hd => ?_
  obtain ⟨o, b⟩ := d
  cases o <;> first | rfl | exact absurd rfl (h _ hd _ _)

/-- Not writing files. -/
def Quiet (o : Op) : Prop := ∀ p c, o ≠ .write p c

theorem quiet_changes {α : Type} {p : Proc sig Fail α} (h : Prog.Only (S := sig) Quiet p) {t : Trace sig} (ht : Prog.Does p t) : changes t = [] :=
  changes_nil_of fun d hd p c => h t ht d hd p c

theorem does_of_ends {α : Type} {p : Proc sig Fail α} {t : Trace sig} {r : Res Fail α} (h : Prog.Ends p t r) : Prog.Does p t := ⟨_, h⟩

theorem write_changes {p : String} {c : Content} {t : Trace sig} {u : Unit} (h : Prog.Ends (try_ (.write p c) id .io) t (.ok u)) :
    t = [⟨.write p c, true⟩] ∧ changes t = [(p, some c)] := by
  obtain ⟨b, rfl, hb⟩ := try_ends h
  rcases hb with ⟨hb, -⟩ | ⟨-, hb⟩
  · cases (show b = true from hb)
    exact ⟨rfl, rfl⟩
  · cases hb

theorem key_changes {keys : String} {s : Subject} {t : Trace sig} {u : Unit} (h : Prog.Ends (keyAndCert keys s) t (.ok u)) :
    ∃ k, changes t = [(keys ++ "/" ++ s.file ++ "_key.der", some (.key k)), (keys ++ "/" ++ s.file ++ "_cert.pem", some (.cert s k))] := by
  unfold keyAndCert at h
  obtain ⟨u1, t1, t2, rfl, h1, h⟩ := Proc.ends_bind h
  obtain ⟨k, t3, t4, rfl, h2, h⟩ := Proc.ends_bind h
  obtain ⟨k', t5, t6, rfl, h3, h⟩ := Proc.ends_bind h
  obtain ⟨u2, t7, t8, rfl, h4, h5⟩ := Proc.ends_bind h
  obtain ⟨b, rfl, -⟩ := try_ends h1
  obtain ⟨a, -, rfl⟩ := Proc.ends_ask h2
  obtain ⟨rfl, -⟩ := some_ends h3
  refine ⟨k', ?_⟩
  rw [changes_append, changes_append, changes_append, changes_append, (write_changes h4).2, (write_changes h5).2]
  rfl

theorem keys_changes {keys : String} {l : List Subject} : ∀ {t : Trace sig} {u : Unit}, Prog.Ends (each (keyAndCert keys) l) t (.ok u) →
    ∃ k : List Nat, k.length = l.length ∧ changes t = (List.zipWith (fun s k =>
      [(keys ++ "/" ++ s.file ++ "_key.der", some (.key k)), (keys ++ "/" ++ s.file ++ "_cert.pem", some (.cert s k))]) l k).flatten := by
  induction l with
  | nil =>
    intro t u h
    obtain ⟨rfl, -⟩ := Prog.ends_ret h
    exact ⟨[], rfl, rfl⟩
  | cons s l ih =>
    intro t u h
    obtain ⟨u1, t1, t2, rfl, h1, h2⟩ := Proc.ends_bind h
    obtain ⟨k, hk⟩ := key_changes h1
    obtain ⟨ks, hl, hks⟩ := ih h2
    exact ⟨k :: ks, by simp [hl], by rw [changes_append, hk, hks]; rfl⟩

variable {showIp : Bytes → String}

theorem configs_changes {d : String} {a : Args} {t : Trace sig} {u : Unit} (h : Prog.Ends (configs showIp d a) t (.ok u)) :
    changes t = [(path d "configs" "rendezvous_server.yml", some (.rv (rvSettings d a))),
      (path d "configs" "serviceinfo_api_server.yml", some (.api (apiSettings d a))),
      (path d "configs" "manufacturing_server.yml", some (.mfg (mfgSettings showIp d a))),
      (path d "configs" "owner_onboarding_server.yml", some (.owner (ownerSettings showIp d a)))] := by
  unfold configs at h
  obtain ⟨u1, t1, t2, rfl, h1, h⟩ := Proc.ends_bind h
  obtain ⟨u2, t3, t4, rfl, h2, h⟩ := Proc.ends_bind h
  obtain ⟨u3, t5, t6, rfl, h3, h4⟩ := Proc.ends_bind h
  rw [changes_append, changes_append, changes_append, (write_changes h1).2, (write_changes h2).2, (write_changes h3).2, (write_changes h4).2]
  rfl

/-! ### The contact addresses -/

theorem valid_iff (b : Bytes) : validAddress b = true ↔ ¬ Wanted.Local b := by
  unfold Wanted.Local validAddress
  split
  · rename_i a b c d
    simp only [Bool.and_eq_true, Bool.not_eq_true', beq_eq_false_iff_ne, ne_eq, decide_eq_false_iff_not, List.length_cons, List.length_nil,
      Nat.reduceAdd, true_and, List.head?_cons, Option.some.injEq, not_true_eq_false, false_and, or_false, not_or]
    constructor
    · rintro ⟨⟨h1, h2⟩, h3⟩
      exact ⟨h1, h2, fun ⟨x, e, h4⟩ => h3 (by subst e; omega)⟩
    · rintro ⟨h1, h2, h3⟩
      exact ⟨⟨h1, h2⟩, fun h4 => h3 ⟨a, rfl, by omega⟩⟩
  · rename_i hn
    have h4 : b.length ≠ 4 := by
      intro h
      match b, h with
      | [a, b, c, d], _ => exact hn a b c d rfl
    simp [h4, and_assoc]

theorem contacts_wanted {a : Args} {t : Trace sig} {cs : List Contact} (h : Prog.Ends (contacts a) t (.ok cs)) : changes t = [] ∧ Wanted a t cs := by
  unfold contacts at h
  unfold Wanted
  split at h
  · rename_i n hn
    obtain ⟨rfl, h⟩ := Prog.ends_ret h
    cases h
    rw [hn]
    exact ⟨rfl, rfl⟩
  · rename_i hn
    rw [hn]
    obtain ⟨l, t1, t2, rfl, h1, h2⟩ := Proc.ends_bind h
    obtain ⟨l', t3, t4, rfl, h3, h4⟩ := Proc.ends_bind h2
    obtain ⟨o, ho, rfl⟩ := Proc.ends_ask h1
    obtain ⟨rfl, h5⟩ := some_ends h3
    obtain ⟨rfl, h6⟩ := Prog.ends_ret h4
    cases h6
    cases ho
    subst h5
    exact ⟨rfl, l', validAddress, List.mem_cons_self .., valid_iff, rfl⟩

/-! ### Generation -/

/-- Not writing the record. -/
def NoRec (o : Op) : Prop := ∀ p a, o ≠ .write p (.record a)

theorem only_then {α β : Type} {P : Op → Prop} {p : Proc sig Fail α} {f : α → Proc sig Fail β} (hp : Prog.Only (S := sig) P p)
    (hf : ∀ a, Prog.Only (S := sig) P (f a)) : Prog.Only (S := sig) P (p >>= f : Proc sig Fail β) := by
  refine Prog.only_bind hp fun r => ?_
  cases r with
  | ok a => exact hf a
  | err e => exact Prog.only_ret
  | panic => exact Prog.only_ret

theorem some_only {α : Type} {P : Op → Prop} {e : Fail} {o : Option α} : Prog.Only (S := sig) P (Proc.some? (S := sig) e o) := by
  cases o <;> exact Prog.only_ret

theorem check_only {P : Op → Prop} {e : Fail} {b : Bool} : Prog.Only (S := sig) P (Proc.check (S := sig) e b) := by
  cases b <;> exact Prog.only_ret

theorem ask_only {P : Op → Prop} {o : Op} (h : P o) : Prog.Only (S := sig) P (Proc.ask (S := sig) (ε := Fail) o) :=
  Prog.only_act h fun _ => Prog.only_ret

theorem key_only {P : Op → Prop} {keys : String} {s : Subject} (h : ∀ o, (∀ p a, o ≠ .write p (.record a)) → P o) : Prog.Only (S := sig) P (keyAndCert keys s) :=
  only_then (try_only (h _ (by simp))) fun _ => only_then (ask_only (h _ (by simp))) fun _ => only_then some_only fun _ =>
    only_then (try_only (h _ (by simp))) fun _ => try_only (h _ (by simp))

theorem contacts_only {P : Op → Prop} {a : Args} (h : P .interfaces) : Prog.Only (S := sig) P (contacts a) := by
  unfold contacts
  split
  · exact Prog.only_ret
  · exact only_then (ask_only h) fun _ => only_then some_only fun _ => Prog.only_ret

theorem configs_only {d : String} {a : Args} : Prog.Only (S := sig) NoRec (configs showIp d a) :=
  only_then (try_only (by intro; simp)) fun _ => only_then (try_only (by intro; simp)) fun _ =>
    only_then (try_only (by intro; simp)) fun _ => try_only (by intro; simp)

/-- The keys and certificates, as they are written. -/
def keyFiles (keys : String) (l : List Subject) (k : List Nat) : List (String × Option Content) :=
  (List.zipWith (fun s k => [(keys ++ "/" ++ s.file ++ "_key.der", some (Content.key k)), (keys ++ "/" ++ s.file ++ "_cert.pem", some (.cert s k))]) l k).flatten

/-- The four files with settings. -/
def configFiles (showIp : Bytes → String) (d : String) (a : Args) : List (String × Option Content) :=
  [(path d "configs" "rendezvous_server.yml", some (.rv (rvSettings d a))),
    (path d "configs" "serviceinfo_api_server.yml", some (.api (apiSettings d a))),
    (path d "configs" "manufacturing_server.yml", some (.mfg (mfgSettings showIp d a))),
    (path d "configs" "owner_onboarding_server.yml", some (.owner (ownerSettings showIp d a)))]

theorem build_record {d : String} {a : Args} {t : Trace sig} (h : Prog.Does (build showIp d a) t) {p : String} {a' : Args} {b : Bool}
    (hm : (⟨.write p (.record a'), b⟩ : sig.Deed) ∈ t) :
    ∃ t' k cs t1 t2, t = t' ++ [⟨.write p (.record a'), b⟩] ∧ p = d ++ "/aio_configuration" ∧
      List.Sublist ([⟨.token, some t1⟩, ⟨.token, some t2⟩] : Trace sig) t' ∧ Wanted a t' cs ∧ a' = { a with authToken := t1, adminToken := t2, contacts := cs } ∧ k.length = 4 ∧
      changes t' = keyFiles (d ++ "/keys") [.diun, .manufacturer, .deviceCa, .owner] k ++ configFiles showIp d a' := by
  have no : ∀ {α : Type} {q : Proc sig Fail α} {t : Trace sig}, Prog.Only (S := sig) NoRec q → Prog.Does q t → (⟨.write p (.record a'), b⟩ : sig.Deed) ∉ t :=
    fun h1 h2 h3 => h1 _ h2 _ h3 _ _ rfl
  have ne : ∀ {α : Type} {q : Proc sig Fail α} {t u : Trace sig} {r : Res Fail α}, Prog.Only (S := sig) NoRec q → Prog.Ends q t r →
      (⟨.write p (.record a'), b⟩ : sig.Deed) ∈ t ++ u → (⟨.write p (.record a'), b⟩ : sig.Deed) ∈ u :=
    fun h1 h2 h3 => (List.mem_append.1 h3).resolve_left (no h1 ⟨_, h2⟩)
  have m1 : ∀ (f : String → String) (l : List String), Prog.Only (S := sig) (fun o => Quiet o ∧ NoRec o) (each (fun s => try_ (.mkdirs (f s)) id .io) l) :=
    fun f l => each_only fun x _ => try_only ⟨by intro; simp, by intro; simp⟩
  have m2 : ∀ (f : String → String) (l : List String), Prog.Only (S := sig) (fun o => Quiet o ∧ NoRec o) (each (fun s => try_ (.mkdir (f s)) id .io) l) :=
    fun f l => each_only fun x _ => try_only ⟨by intro; simp, by intro; simp⟩
  have weak : ∀ {α : Type} {q : Proc sig Fail α}, Prog.Only (S := sig) (fun o => Quiet o ∧ NoRec o) q → Prog.Only (S := sig) Quiet q ∧ Prog.Only (S := sig) NoRec q :=
    fun h => ⟨fun t ht d hd => (h t ht d hd).1, fun t ht d hd => (h t ht d hd).2⟩
  unfold build at h
  rcases Proc.does_bind h with h | ⟨u1, s1, r1, rfl, e1, h⟩
  · exact absurd hm (no (weak (m1 _ _)).2 h)
  replace hm := ne (weak (m1 _ _)).2 e1 hm
  rcases Proc.does_bind h with h | ⟨u2, s2, r2, rfl, e2, h⟩
  · exact absurd hm (no (weak (m2 _ _)).2 h)
  replace hm := ne (weak (m2 _ _)).2 e2 hm
  rcases Proc.does_bind h with h | ⟨u3, s3, r3, rfl, e3, h⟩
  · exact absurd hm (no (weak (m2 _ _)).2 h)
  replace hm := ne (weak (m2 _ _)).2 e3 hm
  have hk : Prog.Only (S := sig) NoRec (each (keyAndCert (d ++ "/keys")) [.diun, .manufacturer, .deviceCa, .owner]) :=
    each_only fun x _ => key_only fun o h => h
  rcases Proc.does_bind h with h | ⟨u4, s4, r4, rfl, e4, h⟩
  · exact absurd hm (no hk h)
  replace hm := ne hk e4 hm
  have ht : Prog.Only (S := sig) NoRec (Proc.ask (S := sig) (ε := Fail) .token) := ask_only (by intro; simp)
  rcases Proc.does_bind h with h | ⟨o1, s5, r5, rfl, e5, h⟩
  · exact absurd hm (no ht h)
  replace hm := ne ht e5 hm
  rcases Proc.does_bind h with h | ⟨v1, s6, r6, rfl, e6, h⟩
  · exact absurd hm (no some_only h)
  replace hm := ne some_only e6 hm
  rcases Proc.does_bind h with h | ⟨o2, s7, r7, rfl, e7, h⟩
  · exact absurd hm (no ht h)
  replace hm := ne ht e7 hm
  rcases Proc.does_bind h with h | ⟨v2, s8, r8, rfl, e8, h⟩
  · exact absurd hm (no some_only h)
  replace hm := ne some_only e8 hm
  have hc : Prog.Only (S := sig) NoRec (contacts a) := contacts_only (by intro; simp)
  rcases Proc.does_bind h with h | ⟨cs, s9, r9, rfl, e9, h⟩
  · exact absurd hm (no hc h)
  replace hm := ne hc e9 hm
  rcases Proc.does_bind h with h | ⟨u10, s10, r10, rfl, e10, hz⟩
  · exact absurd hm (no configs_only h)
  replace hm := ne configs_only e10 hm
  obtain ⟨k, hl, hks⟩ := keys_changes e4
  obtain ⟨w1, hw⟩ := contacts_wanted e9
  have hcf := configs_changes e10
  obtain ⟨x1, y1, rfl⟩ := Proc.ends_ask e5
  obtain ⟨rfl, rfl⟩ := some_ends e6
  obtain ⟨x2, y2, rfl⟩ := Proc.ends_ask e7
  obtain ⟨rfl, rfl⟩ := some_ends e8
  cases y1
  cases y2
  rcases try_does hz with rfl | ⟨c, rfl⟩
  · cases hm
  · have := List.mem_singleton.1 hm
    cases this
    refine ⟨s1 ++ (s2 ++ (s3 ++ (s4 ++ ([⟨.token, some v1⟩] ++ ([⟨.token, some v2⟩] ++ (s9 ++ s10)))))), k, cs, v1, v2, by simp, rfl, ?_, ?_, rfl, hl, ?_⟩
    · exact ((((List.Sublist.cons_cons _ (List.Sublist.cons_cons _ (List.nil_sublist _))).trans (List.sublist_append_right s4 _)).trans
        (List.sublist_append_right s3 _)).trans (List.sublist_append_right s2 _)).trans (List.sublist_append_right s1 _)
    · unfold Wanted at hw ⊢
      split
      · rename_i n hn
        rw [hn] at hw
        exact hw
      · rename_i hn
        rw [hn] at hw
        obtain ⟨l, q, h1, h2, h3⟩ := hw
        exact ⟨l, q, by simp [h1], h2, h3⟩
    · simp only [changes_append]
      rw [quiet_changes (weak (m1 _ _)).1 ⟨_, e1⟩, quiet_changes (weak (m2 _ _)).1 ⟨_, e2⟩, quiet_changes (weak (m2 _ _)).1 ⟨_, e3⟩, hks, hcf, w1]
      rfl

theorem files_eq {t : Trace sig} {p : String} {c : Option Content} (hn : ((changes t).map (·.1)).Nodup) (hm : (p, c) ∈ changes t) : files t p = c := by
  unfold files
  have hm' : (p, c) ∈ (changes t).reverse := List.mem_reverse.2 hm
  cases hf : (changes t).reverse.find? (·.1 = p) with
  | none => exact absurd (List.find?_eq_none.1 hf _ hm') (by simp)
  | some x =>
    have h1 : x ∈ changes t := List.mem_reverse.1 (List.mem_of_find?_eq_some hf)
    have h2 : x.1 = p := by simpa using List.find?_some hf
    have : x = (p, c) := by
      have key : ∀ {l : List (String × Option Content)}, (l.map (·.1)).Nodup → ∀ x ∈ l, ∀ y ∈ l, x.1 = y.1 → x = y := by
        intro l
        induction l with
        | nil => intro _ x hx; cases hx
        | cons z l ih =>
          intro hn x hx y hy e
          rw [List.map_cons, List.nodup_cons] at hn
          rcases List.mem_cons.1 hx with rfl | hx'
          · rcases List.mem_cons.1 hy with rfl | hy'
            · rfl
            · exact absurd (e ▸ List.mem_map_of_mem hy') hn.1
          · rcases List.mem_cons.1 hy with rfl | hy'
            · exact absurd (e ▸ List.mem_map_of_mem hx') hn.1
            · exact ih hn.2 x hx' y hy' e
      exact key hn x h1 _ hm h2
    rw [this]

theorem paths_nodup (d : String) (l : List String) (h : l.Nodup) : (l.map (d ++ ·)).Nodup := by
  induction l with
  | nil => exact List.nodup_nil
  | cons x l ih =>
    rw [List.nodup_cons] at h
    rw [List.map_cons, List.nodup_cons]
    refine ⟨fun hm => ?_, ih h.2⟩
    obtain ⟨y, hy, e⟩ := List.mem_map.1 hm
    have : y = x := by simpa using e
    exact h.1 (this ▸ hy)

theorem path_eq (d a b : String) : path d a b = d ++ ("/" ++ a ++ "/" ++ b) := by
  unfold path
  simp only [String.append_assoc]

/-- The files that are there when the record has been written. -/
theorem files_written {t : Trace sig} {d : String} {a : Args} {k1 k2 k3 k4 : Nat} {c : Option Content}
    (h : changes t = keyFiles (d ++ "/keys") [.diun, .manufacturer, .deviceCa, .owner] [k1, k2, k3, k4] ++ configFiles showIp d a ++ [(d ++ "/aio_configuration", c)]) :
    (∀ x ∈ [("diun_key.der", Content.key k1), ("diun_cert.pem", .cert .diun k1), ("manufacturer_key.der", .key k2), ("manufacturer_cert.pem", .cert .manufacturer k2),
      ("device_ca_key.der", .key k3), ("device_ca_cert.pem", .cert .deviceCa k3), ("owner_key.der", .key k4), ("owner_cert.pem", .cert .owner k4)],
      files t (path d "keys" x.1) = some x.2) ∧
    (∀ x ∈ [("rendezvous_server.yml", Content.rv (rvSettings d a)), ("serviceinfo_api_server.yml", .api (apiSettings d a)),
      ("manufacturing_server.yml", .mfg (mfgSettings showIp d a)), ("owner_onboarding_server.yml", .owner (ownerSettings showIp d a))],
      files t (path d "configs" x.1) = some x.2) := by
  have e : changes t = ([("/keys/diun_key.der", some (Content.key k1)), ("/keys/diun_cert.pem", some (.cert .diun k1)), ("/keys/manufacturer_key.der", some (.key k2)),
      ("/keys/manufacturer_cert.pem", some (.cert .manufacturer k2)), ("/keys/device_ca_key.der", some (.key k3)), ("/keys/device_ca_cert.pem", some (.cert .deviceCa k3)),
      ("/keys/owner_key.der", some (.key k4)), ("/keys/owner_cert.pem", some (.cert .owner k4)), ("/configs/rendezvous_server.yml", some (.rv (rvSettings d a))),
      ("/configs/serviceinfo_api_server.yml", some (.api (apiSettings d a))), ("/configs/manufacturing_server.yml", some (.mfg (mfgSettings showIp d a))),
      ("/configs/owner_onboarding_server.yml", some (.owner (ownerSettings showIp d a))), ("/aio_configuration", c)]).map fun x => (d ++ x.1, x.2) := by
    rw [h]
    unfold keyFiles configFiles
    simp only [path_eq, String.append_assoc, List.zipWith_cons_cons, List.zipWith_nil_left, List.flatten_cons, List.flatten_nil, List.cons_append, List.nil_append,
      List.map_cons, List.map_nil]
    rfl
  have hn : ((changes t).map (·.1)).Nodup := by
    rw [e, List.map_map]
    refine paths_nodup d ["/keys/diun_key.der", "/keys/diun_cert.pem", "/keys/manufacturer_key.der", "/keys/manufacturer_cert.pem", "/keys/device_ca_key.der",
      "/keys/device_ca_cert.pem", "/keys/owner_key.der", "/keys/owner_cert.pem", "/configs/rendezvous_server.yml", "/configs/serviceinfo_api_server.yml",
      "/configs/manufacturing_server.yml", "/configs/owner_onboarding_server.yml", "/aio_configuration"] (by decide +kernel)
  have key : ∀ (x : String) (c : Content), (d ++ x, some c) ∈ changes t → files t (d ++ x) = some c := fun x c => files_eq hn
  refine ⟨fun x hx => ?_, fun x hx => ?_⟩
  · rw [path_eq]
    refine key _ _ ?_
    rw [e]
    simp only [List.mem_cons, List.not_mem_nil, or_false] at hx
    rcases hx with rfl | rfl | rfl | rfl | rfl | rfl | rfl | rfl <;> simp
  · rw [path_eq]
    refine key _ _ ?_
    rw [e]
    simp only [List.mem_cons, List.not_mem_nil, or_false] at hx
    rcases hx with rfl | rfl | rfl | rfl <;> simp

/-! ### Fitting together -/

theorem stores_distinct (d : String) : ([path d "stores" "rendezvous_registered", path d "stores" "rendezvous_sessions", path d "stores" "serviceinfo_api_devices",
    path d "stores" "manufacturing_sessions", path d "stores" "manufacturer_keys", path d "stores" "owner_onboarding_sessions", path d "stores" "owner_vouchers",
    path d "stores" "manufacturing_vouchers"]).Nodup := by
  simp only [path_eq]
  exact paths_nodup d ["/stores/rendezvous_registered", "/stores/rendezvous_sessions", "/stores/serviceinfo_api_devices", "/stores/manufacturing_sessions",
    "/stores/manufacturer_keys", "/stores/owner_onboarding_sessions", "/stores/owner_vouchers", "/stores/manufacturing_vouchers"] (by decide +kernel)

theorem fit {t : Trace sig} {d : String} {a : Args} {k1 k2 k3 k4 : Nat} {c : Option Content}
    (h : changes t = keyFiles (d ++ "/keys") [.diun, .manufacturer, .deviceCa, .owner] [k1, k2, k3, k4] ++ configFiles showIp d a ++ [(d ++ "/aio_configuration", c)]) :
    Fit (files t) (rvSettings d a) (apiSettings d a) (mfgSettings showIp d a) (ownerSettings showIp d a) a := by
  obtain ⟨h1, -⟩ := files_written h
  have f := fun x hx => h1 x hx
  have hd := stores_distinct d
  have e : (mfgSettings showIp d a).vouchers = if a.separate then path d "stores" "manufacturing_vouchers" else path d "stores" "owner_vouchers" := by
    show path d "stores" (if a.separate then _ else _) = _
    split <;> rfl
  have hd1 := (List.nodup_append (l₁ := [_, _, _, _, _, _, _]) (l₂ := [_])).1 hd
  have hd2 := (List.nodup_append (l₁ := [_, _, _, _, _, _]) (l₂ := [_])).1 hd1.1
  constructor
  · exact ⟨k2, f ("manufacturer_key.der", _) (by simp), f ("manufacturer_cert.pem", _) (by simp), f ("manufacturer_cert.pem", _) (by simp)⟩
  · exact ⟨k3, f ("device_ca_key.der", _) (by simp), f ("device_ca_cert.pem", _) (by simp), f ("device_ca_cert.pem", _) (by simp), f ("device_ca_cert.pem", _) (by simp)⟩
  · exact ⟨k4, f ("owner_key.der", _) (by simp), f ("owner_cert.pem", _) (by simp), f ("owner_cert.pem", _) (by simp)⟩
  · exact ⟨k1, f ("diun_key.der", _) (by simp), f ("diun_cert.pem", _) (by simp)⟩
  · rfl
  · rfl
  · exact ⟨rfl, rfl, rfl, rfl⟩
  · rw [e]
    show _ = path d "stores" "owner_vouchers" ↔ _
    cases a.separate with
    | false => simp
    | true =>
      simp only [if_true, Bool.true_eq_false, iff_false]
      exact fun he => hd1.2.2 _ (by simp) _ (List.mem_singleton_self _) he.symm
  · refine ⟨hd1.1, ?_⟩
    rw [e]
    cases a.separate with
    | false => exact fun hm => hd2.2.2 _ hm _ (List.mem_singleton_self _) rfl
    | true => exact fun hm => hd1.2.2 _ (List.mem_append_left (bs := [_]) hm) _ (List.mem_singleton_self _) rfl
  · show ("tpm" ∈ (if a.noTpm then [] else ["tpm"]) ++ (if a.noFilesystem then [] else ["filesystem"]) ↔ _) ∧
      ("filesystem" ∈ (if a.noTpm then [] else ["tpm"]) ++ (if a.noFilesystem then [] else ["filesystem"]) ↔ _)
    cases a.noTpm <;> cases a.noFilesystem <;> simp
  · rfl
  · exact ⟨rfl, rfl⟩
  · rfl

/-! ### Addresses -/

theorem named (v : Var) : (Config.lower "deviceport" ∈ Config.names v ↔ v = .devicePort) ∧ (Config.lower "ip_address" ∈ Config.names v ↔ v = .ipAddress) ∧
    (Config.lower "dns" ∈ Config.names v ↔ v = .dns) ∧ (Config.lower "ownerport" ∈ Config.names v ↔ v = .ownerPort) ∧
    (Config.lower "protocol" ∈ Config.names v ↔ v = .protocol) := by
  cases v <;> decide +kernel

theorem values_ip (x y z w : Config.Yaml) (v : Var) : Config.valuesOf v [("deviceport", x), ("ip_address", y), ("ownerport", z), ("protocol", w)] =
    match v with
    | .devicePort => [x]
    | .ipAddress => [y]
    | .ownerPort => [z]
    | .protocol => [w]
    | _ => [] := by
  obtain ⟨h1, h2, h3, h4, h5⟩ := named v
  unfold Config.valuesOf
  simp only [List.filterMap_cons, List.filterMap_nil, h1, h2, h4, h5]
  cases v <;> rfl

theorem values_dns (x y z w : Config.Yaml) (v : Var) : Config.valuesOf v [("deviceport", x), ("dns", y), ("ownerport", z), ("protocol", w)] =
    match v with
    | .devicePort => [x]
    | .dns => [y]
    | .ownerPort => [z]
    | .protocol => [w]
    | _ => [] := by
  obtain ⟨h1, h2, h3, h4, h5⟩ := named v
  unfold Config.valuesOf
  simp only [List.filterMap_cons, List.filterMap_nil, h1, h3, h4, h5]
  cases v <;> rfl

/-- One directive. -/
def directive (showIp : Bytes → String) (p : Nat) : Contact → Config.Configured
  | .ip b => [("deviceport", .pos p), ("ip_address", .str (showIp b)), ("ownerport", .pos p), ("protocol", .str "http")]
  | .host n => [("deviceport", .pos p), ("dns", .str n), ("ownerport", .pos p), ("protocol", .str "http")]

theorem rendezvousInfo_eq (a : Args) : rendezvousInfo showIp a = a.contacts.map (directive showIp a.rvPort) := by
  unfold rendezvousInfo
  refine List.map_congr_left fun c _ => ?_
  cases c <;> rfl

theorem values_directive (p : Nat) (c : Contact) (v : Var) : Config.valuesOf v (directive showIp p c) =
    match v, c with
    | .devicePort, _ => [.pos p]
    | .ipAddress, .ip b => [.str (showIp b)]
    | .dns, .host n => [.str n]
    | .ownerPort, _ => [.pos p]
    | .protocol, _ => [.str "http"]
    | _, _ => [] := by
  cases c with
  | ip b => exact (values_ip _ _ _ _ v).trans (by cases v <;> rfl)
  | host n => exact (values_dns _ _ _ _ v).trans (by cases v <;> rfl)

theorem value_directive (p : Nat) (c : Contact) (v : Var) : Config.valueOf v (directive showIp p c) =
    match v, c with
    | .devicePort, _ => some (.pos p)
    | .ipAddress, .ip b => some (.str (showIp b))
    | .dns, .host n => some (.str n)
    | .ownerPort, _ => some (.pos p)
    | .protocol, _ => some (.str "http")
    | _, _ => none := by
  unfold Config.valueOf
  rw [values_directive]
  cases v <;> cases c <;> rfl

theorem http_name : Config.lower "http" = Config.protoName .http := by decide +kernel

theorem directive_valid {L : Config.Lib} {p : Nat} {c : Contact} (hp : ∀ b, c = .ip b → L.parseIp (showIp b) = some b) :
    ∀ e ∈ directive showIp p c, Config.Valid L.parseIp e := by
  have h1 : Config.Valid L.parseIp ("deviceport", .pos p) := ⟨.devicePort, (named _).1.2 rfl, .inl ⟨p, rfl⟩⟩
  have h2 : Config.Valid L.parseIp ("ownerport", .pos p) := ⟨.ownerPort, (named _).2.2.2.1.2 rfl, .inl ⟨p, rfl⟩⟩
  have h3 : Config.Valid L.parseIp ("protocol", .str "http") := ⟨.protocol, (named _).2.2.2.2.2 rfl, "http", .http, rfl, http_name⟩
  intro e he
  cases c with
  | ip b =>
    simp only [directive, List.mem_cons, List.not_mem_nil, or_false] at he
    rcases he with rfl | rfl | rfl | rfl
    · exact h1
    · exact ⟨.ipAddress, (named _).2.1.2 rfl, _, b, rfl, hp b rfl⟩
    · exact h2
    · exact h3
  | host n =>
    simp only [directive, List.mem_cons, List.not_mem_nil, or_false] at he
    rcases he with rfl | rfl | rfl | rfl
    · exact h1
    · exact ⟨.dns, (named _).2.2.1.2 rfl, n, rfl⟩
    · exact h2
    · exact h3

theorem directive_complete {p : Nat} (hp : p < 2 ^ 32) (c : Contact) (side : Side) : Config.Complete side (directive showIp p c) := by
  constructor
  · cases side <;> (simp only [Side.portVar, values_directive]; intro y hy; rw [List.mem_singleton.1 hy]; exact hp)
  · simp only [values_directive]
    cases c <;> nofun
  · cases side <;> (simp only [Side.portVar, values_directive]; exact .inl (by simp))

theorem directive_read {L : Config.Lib} {p : Nat} {c : Contact} {side : Side} {o : Option Interp} (hp : ∀ b, c = .ip b → L.parseIp (showIp b) = some b)
    (h : Config.Read L.parseIp side (directive showIp p c) o) : ∃ r, o = some r ∧ getUrls showIp r = [url showIp p c] := by
  cases o with
  | none =>
    rcases h with h | ⟨-, h⟩
    · cases side <;> (simp only [Side.otherOnly, value_directive] at h; cases c <;> cases h)
    · simp only [value_directive] at h; cases c <;> cases h
  | some r =>
    refine ⟨r, rfl, ?_⟩
    have h : Config.Says L.parseIp side (directive showIp p c) r := h
    have hpr : r.protocol = .http := by
      rcases h.protocol with ⟨s, h1, h2⟩ | ⟨h1, -⟩
      · simp only [value_directive] at h1
        cases h1
        exact Config.protoName_inj (h2.symm.trans http_name)
      · simp only [value_directive] at h1
        cases h1
    have hpo : r.port = some p := by
      obtain ⟨q, h1, h2 | ⟨h2, -⟩⟩ := h.port
      · rw [h1]
        cases side <;> (simp only [Side.portVar, value_directive] at h2; cases h2; rfl)
      · cases side <;> (simp only [Side.portVar, value_directive] at h2; cases h2)
    have hd := h.dns
    have hi := h.ips
    simp only [value_directive] at hd
    simp only [values_directive] at hi
    unfold getUrls
    rw [hpr]
    unfold getUrls.urls
    cases c with
    | ip b =>
      have hd' : r.dnsName = none := by
        cases hn : r.dnsName with
        | none => rfl
        | some n => rw [hn] at hd; cases hd
      have hi' : r.ipAddresses = [b] := by
        generalize r.ipAddresses = l at hi
        cases hi with
        | cons h1 h2 =>
          cases h2
          obtain ⟨s, h3, h4⟩ := h1
          cases h3
          rw [hp b rfl] at h4
          cases h4
          rfl
      rw [hd', hi', hpo]
      rfl
    | host n =>
      have hd' : r.dnsName = some n := by
        cases hn : r.dnsName with
        | none => rw [hn] at hd; cases hd
        | some m => rw [hn] at hd; cases hd; rfl
      have hi' : r.ipAddresses = [] := by
        generalize r.ipAddresses = l at hi
        cases hi
        rfl
      rw [hd', hi', hpo]
      rfl

/-- Devices and owners read the rendezvous information as the URLs of the rendezvous server. -/
theorem rendezvous_reached {L : Config.Lib} (hL : L.Good) (henc : ∀ v, ∃ b, L.enc v = some b) {p : Nat} (hp : p < 2 ^ 32) {cs : List Contact}
    (hip : ∀ b, Contact.ip b ∈ cs → L.parseIp (showIp b) = some b) :
    ∃ ds, Config.load L (cs.map (directive showIp p)) = .ok ds ∧ ∀ side, ∃ rs, toInterpreted (Config.decoders L) side ds = .ok rs ∧
      rs.map (getUrls showIp) = cs.map fun c => [url showIp p c] := by
  obtain ⟨ds, h⟩ := (Config.C77_accepted henc (cs.map (directive showIp p))).2 (by
    intro cfg hc e he
    obtain ⟨c, hc', rfl⟩ := List.mem_map.1 hc
    exact directive_valid (fun b hb => hip b (hb ▸ hc')) e he)
  refine ⟨ds, h, fun side => ?_⟩
  obtain ⟨os, h1, h2⟩ := Config.C77_usable hL side _ (by
    intro cfg hc
    obtain ⟨c, hc, rfl⟩ := List.mem_map.1 hc
    exact directive_complete hp c side) ds h
  refine ⟨_, h1, ?_⟩
  clear h h1
  induction cs generalizing os with
  | nil => cases h2; rfl
  | cons c cs ih =>
    cases h2 with
    | cons h3 h4 =>
      obtain ⟨r, rfl, hr⟩ := directive_read (fun b hb => hip b (by simp [hb])) h3
      have := ih (fun b hb => hip b (by simp [hb])) _ h4
      rw [List.map_cons, ← this, ← hr]
      rfl

/-- Devices are sent to the URLs of the owner onboarding server. -/
theorem owner_reached {R : Device.DevEnv} {parseIp : String → Option Bytes} (a : Args) (hip : ∀ b, Contact.ip b ∈ a.contacts → parseIp (R.showIp b) = some b) :
    ∃ es, allEntries parseIp (ownerAddresses R.showIp a) = some es ∧ Device.to2Urls (R := R) es = a.contacts.map (url R.showIp a.ownerPort) := by
  have key : ∀ cs : List Contact, (∀ b, Contact.ip b ∈ cs → parseIp (R.showIp b) = some b) →
      ∃ es, entries parseIp ⟨.http, cs.map (remote R.showIp), a.ownerPort⟩ = some es ∧
        Device.to2Urls (R := R) es = cs.map (url R.showIp a.ownerPort) := by
    intro cs
    induction cs with
    | nil => exact fun _ => ⟨[], rfl, rfl⟩
    | cons c cs ih =>
      intro hip
      obtain ⟨es, h1, h2⟩ := ih fun b hb => hip b (by simp [hb])
      unfold entries at h1 ⊢
      cases c with
      | ip b =>
        refine ⟨⟨some b, none, a.ownerPort, .http⟩ :: es, ?_, ?_⟩
        · simp only [List.map_cons, List.mapM_cons, remote, h1, hip b (by simp)]
          rfl
        · unfold Device.to2Urls at h2 ⊢
          rw [List.flatMap_cons, h2]
          rfl
      | host n =>
        refine ⟨⟨none, some n, a.ownerPort, .http⟩ :: es, ?_, ?_⟩
        · simp only [List.map_cons, List.mapM_cons, remote, h1]
          rfl
        · unfold Device.to2Urls at h2 ⊢
          rw [List.flatMap_cons, h2]
          rfl
  obtain ⟨es, h1, h2⟩ := key a.contacts hip
  refine ⟨es, ?_, h2⟩
  unfold allEntries ownerAddresses
  rw [List.mapM_cons, h1]
  show Option.map _ (some [es]) = _
  simp

/-! ### C81 -/

theorem wanted_mono {a : Args} {t u : Trace sig} {cs : List Contact} (h : Wanted a t cs) (hs : ∀ d ∈ t, d ∈ u) : Wanted a u cs := by
  unfold Wanted at h ⊢
  split
  · rename_i n hn
    rw [hn] at h
    exact h
  · rename_i hn
    rw [hn] at h
    obtain ⟨l, q, h1, h2, h3⟩ := h
    exact ⟨l, q, hs _ h1, h2, h3⟩

/-- Asking, or making the directory itself. -/
def Harmless (dir : String) (t : Trace sig) (o : Op) : Prop :=
  (∃ p, o = .exists? p) ∨ (∃ p, o = .empty? p) ∨ (∃ p, o = .canonical p) ∨ o = .mkdir dir ∧ (⟨.exists? dir, false⟩ : sig.Deed) ∈ t

/-- What is done before anything is built. -/
theorem generate_does {dir : String} {a : Args} {t : Trace sig} (h : Prog.Does (generate showIp dir a) t) :
    (∀ x ∈ t, Harmless dir t x.1) ∨
    ∃ (d : String) (t0 t2 : Trace sig), t = t0 ++ ([⟨.exists? (dir ++ "/aio_configuration"), false⟩, ⟨.empty? dir, some true⟩, ⟨.canonical dir, some d⟩] ++ t2) ∧
      (t0 = [⟨.exists? dir, true⟩] ∨ t0 = [⟨.exists? dir, false⟩, ⟨.mkdir dir, true⟩]) ∧ Prog.Does (build showIp d a) t2 := by
  unfold generate at h
  rcases Proc.does_bind h with h1 | ⟨b0, s0, r0, rfl, e0, h1⟩
  · refine .inl fun x hx => ?_
    rcases Proc.does_ask h1 with rfl | ⟨b, rfl⟩
    · cases hx
    · cases List.mem_singleton.1 hx
      exact .inl ⟨_, rfl⟩
  obtain ⟨b0', e, rfl⟩ := Proc.ends_ask e0
  cases e
  rcases Proc.does_bind h1 with h2 | ⟨u1, s1, r1, rfl, e1, h2⟩
  · refine .inl fun x hx => ?_
    rcases List.mem_append.1 hx with hx' | hx'
    · cases List.mem_singleton.1 hx'
      exact .inl ⟨_, rfl⟩
    · cases b0 with
      | true =>
        obtain ⟨q, h2⟩ := h2
        obtain ⟨rfl, -⟩ := Prog.steps_ret h2
        cases hx'
      | false =>
        have := (each_only (P := fun o => o = .mkdir dir) (f := fun _ : Unit => try_ (.mkdir dir) id .io) fun _ _ => try_only rfl) _ h2 x hx'
        exact .inr (.inr (.inr ⟨this, by simp⟩))
  have hs1 : ∀ x ∈ s1, Harmless dir ([⟨.exists? dir, b0⟩] ++ (s1 ++ r1)) x.1 := by
    intro x hx
    cases b0 with
    | true =>
      obtain ⟨rfl, -⟩ := Prog.ends_ret e1
      cases hx
    | false =>
      have := (each_only (P := fun o => o = .mkdir dir) (f := fun _ : Unit => try_ (.mkdir dir) id .io) fun _ _ => try_only rfl) _ ⟨_, e1⟩ x hx
      exact .inr (.inr (.inr ⟨this, by simp⟩))
  have ht0 : ([⟨.exists? dir, b0⟩] ++ s1 : Trace sig) = [⟨.exists? dir, true⟩] ∨ ([⟨.exists? dir, b0⟩] ++ s1 : Trace sig) = [⟨.exists? dir, false⟩, ⟨.mkdir dir, true⟩] := by
    cases b0 with
    | true =>
      obtain ⟨rfl, -⟩ := Prog.ends_ret e1
      exact .inl rfl
    | false =>
      obtain ⟨u, s2, s3, rfl, h3, h4⟩ := Proc.ends_bind e1
      obtain ⟨b, rfl, ⟨h5, -⟩ | ⟨-, h5⟩⟩ := try_ends h3
      · obtain ⟨rfl, -⟩ := Prog.ends_ret h4
        cases (show b = true from h5)
        exact .inr rfl
      · cases h5
  have first : ∀ {r : Trace sig}, (∀ x ∈ r, (∃ p, x.1 = .exists? p) ∨ (∃ p, x.1 = .empty? p) ∨ (∃ p, x.1 = .canonical p)) → r1 = r →
      ∀ x ∈ ([⟨.exists? dir, b0⟩] ++ (s1 ++ r1) : Trace sig), Harmless dir ([⟨.exists? dir, b0⟩] ++ (s1 ++ r1)) x.1 := by
    intro r hr e x hx
    rcases List.mem_append.1 hx with hx | hx
    · cases List.mem_singleton.1 hx
      exact .inl ⟨_, rfl⟩
    · rcases List.mem_append.1 hx with hx | hx
      · exact hs1 x hx
      · rcases hr x (e ▸ hx) with h | h | h
        · exact .inl h
        · exact .inr (.inl h)
        · exact .inr (.inr (.inl h))
  rcases Proc.does_bind h2 with h3 | ⟨b1, s2, r2, e2', e2, h3⟩
  · refine .inl (first ?_ rfl)
    intro x hx
    rcases Proc.does_ask h3 with rfl | ⟨b, rfl⟩
    · cases hx
    · cases List.mem_singleton.1 hx
      exact .inl ⟨_, rfl⟩
  obtain ⟨b1', e, rfl⟩ := Proc.ends_ask e2
  cases e
  rcases Proc.does_bind h3 with h4 | ⟨u2, s3, r3, e3', e3, h4⟩
  · obtain ⟨q, h4⟩ := h4
    obtain ⟨rfl, -⟩ := check_steps h4
    refine .inl (first (r := r1) (fun x hx => ?_) rfl)
    rw [e2'] at hx
    cases List.mem_singleton.1 hx
    exact .inl ⟨_, rfl⟩
  obtain ⟨rfl, hb1⟩ := check_ends e3
  cases b1 with
  | true => cases hb1
  | false =>
  rcases Proc.does_bind h4 with h5 | ⟨o, s4, r4, e4', e4, h5⟩
  · refine .inl (first (r := r1) (fun x hx => ?_) rfl)
    rw [e2', e3'] at hx
    rcases List.mem_append.1 hx with hx | hx
    · cases List.mem_singleton.1 hx
      exact .inl ⟨_, rfl⟩
    · rcases Proc.does_ask h5 with rfl | ⟨b, rfl⟩
      · cases hx
      · cases List.mem_singleton.1 hx
        exact .inr (.inl ⟨_, rfl⟩)
  obtain ⟨o', e, rfl⟩ := Proc.ends_ask e4
  cases e
  have second : ∀ {r : Trace sig}, (∀ x ∈ r, (∃ p, x.1 = .exists? p) ∨ (∃ p, x.1 = .empty? p) ∨ (∃ p, x.1 = .canonical p)) → r4 = r →
      ∀ x ∈ ([⟨.exists? dir, b0⟩] ++ (s1 ++ r1) : Trace sig), Harmless dir ([⟨.exists? dir, b0⟩] ++ (s1 ++ r1)) x.1 := by
    intro r hr e
    refine first (r := r1) (fun x hx => ?_) rfl
    rw [e2', e3', e4', e] at hx
    simp only [List.cons_append, List.nil_append, List.mem_cons] at hx
    rcases hx with rfl | rfl | hx
    · exact .inl ⟨_, rfl⟩
    · exact .inr (.inl ⟨_, rfl⟩)
    · exact hr x hx
  rcases Proc.does_bind h5 with h6 | ⟨em, s5, r5, e5', e5, h6⟩
  · obtain ⟨q, h6⟩ := h6
    refine .inl (second (r := []) (fun x hx => by cases hx) ?_)
    cases o with
    | none => exact (Prog.steps_ret h6).1
    | some b => exact (Prog.steps_ret h6).1
  obtain ⟨rfl, rfl⟩ := some_ends e5
  rcases Proc.does_bind h6 with h7 | ⟨u3, s6, r6, e6', e6, h7⟩
  · obtain ⟨q, h7⟩ := h7
    refine .inl (second (r := []) (fun x hx => by cases hx) ?_)
    rw [e5', (check_steps h7).1]
    rfl
  obtain ⟨rfl, rfl⟩ := check_ends e6
  rcases Proc.does_bind h7 with h8 | ⟨oc, s7, r7, e7', e7, h8⟩
  · refine .inl (second (r := r6) (fun x hx => ?_) (by rw [e5', e6']; rfl))
    rcases Proc.does_ask h8 with rfl | ⟨b, rfl⟩
    · cases hx
    · cases List.mem_singleton.1 hx
      exact .inr (.inr ⟨_, rfl⟩)
  obtain ⟨oc', e, rfl⟩ := Proc.ends_ask e7
  cases e
  rcases Proc.does_bind h8 with h9 | ⟨d, s8, r8, e8', e8, h9⟩
  · obtain ⟨q, h9⟩ := h9
    refine .inl (second (r := [⟨.canonical dir, oc⟩]) (fun x hx => ?_) ?_)
    · cases List.mem_singleton.1 hx
      exact .inr (.inr ⟨_, rfl⟩)
    · have : r7 = [] := by
        cases oc with
        | none => exact (Prog.steps_ret h9).1
        | some b => exact (Prog.steps_ret h9).1
      rw [e5', e6', e7', this]
      rfl
  obtain ⟨rfl, rfl⟩ := some_ends e8
  refine .inr ⟨d, _, r8, ?_, ht0, h9⟩
  rw [e2', e3', e4', e5', e6', e7', e8']
  simp

/-- Not asking about the directory. -/
def Blind (o : Op) : Prop := (∀ p, o ≠ .exists? p) ∧ ∀ p, o ≠ .empty? p

theorem blind_build {d : String} {a : Args} : Prog.Only (S := sig) Blind (build showIp d a) := by
  have hw : ∀ p c, Blind (.write p c) := fun p c => ⟨by intro; simp, by intro; simp⟩
  refine only_then (each_only fun _ _ => try_only ⟨by intro; simp, by intro; simp⟩) fun _ =>
    only_then (each_only fun _ _ => try_only ⟨by intro; simp, by intro; simp⟩) fun _ =>
    only_then (each_only fun _ _ => try_only ⟨by intro; simp, by intro; simp⟩) fun _ =>
    only_then (each_only fun _ _ => ?_) fun _ =>
    only_then (ask_only ⟨by intro; simp, by intro; simp⟩) fun _ => only_then some_only fun _ =>
    only_then (ask_only ⟨by intro; simp, by intro; simp⟩) fun _ => only_then some_only fun _ =>
    only_then (contacts_only ⟨by intro; simp, by intro; simp⟩) fun _ => only_then ?_ fun _ => try_only (hw _ _)
  · exact only_then (try_only ⟨by intro; simp, by intro; simp⟩) fun _ => only_then (ask_only ⟨by intro; simp, by intro; simp⟩) fun _ => only_then some_only fun _ =>
      only_then (try_only (hw _ _)) fun _ => try_only (hw _ _)
  · exact only_then (try_only (hw _ _)) fun _ => only_then (try_only (hw _ _)) fun _ => only_then (try_only (hw _ _)) fun _ => try_only (hw _ _)

/-- **C81** (success): if generation succeeds, the record was written, so all that `C81_record` tells is there. -/
theorem C81_success {dir : String} {a : Args} {t : Trace sig} (h : Prog.Ends (generate showIp dir a) t (.ok ())) :
    ∃ (p : String) (a' : Args), (⟨.write p (.record a'), true⟩ : sig.Deed) ∈ t := by
  unfold generate build at h
  obtain ⟨_, _, _, rfl, -, h⟩ := Proc.ends_bind h
  obtain ⟨_, _, _, rfl, -, h⟩ := Proc.ends_bind h
  obtain ⟨_, _, _, rfl, -, h⟩ := Proc.ends_bind h
  obtain ⟨_, _, _, rfl, -, h⟩ := Proc.ends_bind h
  obtain ⟨_, _, _, rfl, -, h⟩ := Proc.ends_bind h
  obtain ⟨_, _, _, rfl, -, h⟩ := Proc.ends_bind h
  obtain ⟨_, _, _, rfl, -, h⟩ := Proc.ends_bind h
  obtain ⟨_, _, _, rfl, -, h⟩ := Proc.ends_bind h
  obtain ⟨d, _, _, rfl, -, h⟩ := Proc.ends_bind h
  obtain ⟨_, _, _, rfl, -, h⟩ := Proc.ends_bind h
  obtain ⟨_, _, _, rfl, -, h⟩ := Proc.ends_bind h
  obtain ⟨_, _, _, rfl, -, h⟩ := Proc.ends_bind h
  obtain ⟨_, _, _, rfl, -, h⟩ := Proc.ends_bind h
  obtain ⟨_, _, _, rfl, -, h⟩ := Proc.ends_bind h
  obtain ⟨v1, _, _, rfl, -, h⟩ := Proc.ends_bind h
  obtain ⟨_, _, _, rfl, -, h⟩ := Proc.ends_bind h
  obtain ⟨v2, _, _, rfl, -, h⟩ := Proc.ends_bind h
  obtain ⟨cs, _, _, rfl, -, h⟩ := Proc.ends_bind h
  obtain ⟨_, _, _, rfl, -, h⟩ := Proc.ends_bind h
  obtain ⟨rfl, -⟩ := write_changes h
  refine ⟨d ++ "/aio_configuration", { a with authToken := v1, adminToken := v2, contacts := cs }, ?_⟩
  repeat first | exact List.mem_singleton_self _ | apply List.mem_append_right

/-- **C81** (untouched): if the directory has been configured, or is not known to be empty, then nothing is changed in it, and
generation does not succeed. -/
theorem C81_untouched {dir : String} {a : Args} {t : Trace sig} (h : Prog.Does (generate showIp dir a) t)
    (hd : (⟨.exists? (dir ++ "/aio_configuration"), true⟩ : sig.Deed) ∈ t ∨ ∃ o : Option Bool, o ≠ some true ∧ (⟨.empty? dir, o⟩ : sig.Deed) ∈ t) :
    (∀ x ∈ t, (∃ p, x.1 = .exists? p) ∨ (∃ p, x.1 = .empty? p) ∨ (∃ p, x.1 = .canonical p) ∨ x.1 = .mkdir dir ∧ (⟨.exists? dir, false⟩ : sig.Deed) ∈ t) ∧
    ¬ Prog.Ends (generate showIp dir a) t (.ok ()) := by
  have key : ∀ (d : String) (t0 t2 : Trace sig), t = t0 ++ ([⟨.exists? (dir ++ "/aio_configuration"), false⟩, ⟨.empty? dir, some true⟩, ⟨.canonical dir, some d⟩] ++ t2) →
      (t0 = [⟨.exists? dir, true⟩] ∨ t0 = [⟨.exists? dir, false⟩, ⟨.mkdir dir, true⟩]) → Prog.Does (build showIp d a) t2 → False := by
    rintro d t0 t2 rfl h0 h2
    have hne : dir ≠ dir ++ "/aio_configuration" := by
      intro e
      have := congrArg String.length e
      simp at this
    rcases hd with hm | ⟨o, ho, hm⟩
    · simp only [List.mem_append, List.mem_cons, List.not_mem_nil, or_false] at hm
      rcases hm with hm | ((hm | hm | hm) | hm)
      · rcases h0 with rfl | rfl <;> simp only [List.mem_cons, List.not_mem_nil, or_false] at hm
        · exact hne (Op.exists?.inj (congrArg Sigma.fst hm)).symm
        · rcases hm with hm | hm
          · exact hne (Op.exists?.inj (congrArg Sigma.fst hm)).symm
          · cases hm
      · cases hm
      · cases hm
      · cases hm
      · exact (blind_build _ h2 _ hm).1 _ rfl
    · simp only [List.mem_append, List.mem_cons, List.not_mem_nil, or_false] at hm
      rcases hm with hm | ((hm | hm | hm) | hm)
      · rcases h0 with rfl | rfl <;> simp only [List.mem_cons, List.not_mem_nil, or_false] at hm
        · cases hm
        · rcases hm with hm | hm <;> cases hm
      · cases hm
      · cases hm
        exact ho rfl
      · cases hm
      · exact (blind_build _ h2 _ hm).2 _ rfl
  rcases generate_does h with h1 | ⟨d, t0, t2, h1, h2, h3⟩
  · refine ⟨h1, fun he => ?_⟩
    obtain ⟨p, a', hm⟩ := C81_success he
    rcases h1 _ hm with ⟨_, e⟩ | ⟨_, e⟩ | ⟨_, e⟩ | ⟨e, -⟩ <;> cases e
  · exact (key d t0 t2 h1 h2 h3).elim

/-- **C81** (complete): the record is written last, after everything else has been written: at that time the directory holds the
four files with settings, which fit together and with the keys and certificates in the directory, and say under which addresses the
servers are reached. So a directory that counts as configured has all this, even if generation was cut off. -/
theorem C81_record {L : Config.Lib} (hL : L.Good) (henc : ∀ v, ∃ b, L.enc v = some b) {R : Device.DevEnv} {dir : String} {a : Args} {t : Trace sig}
    (hport : a.rvPort < 65536) (hip : ∀ l : List (Option Bytes), (⟨.interfaces, some l⟩ : sig.Deed) ∈ t → ∀ b, some b ∈ l → L.parseIp (R.showIp b) = some b)
    (h : Prog.Does (generate R.showIp dir a) t) {p : String} {a' : Args} {b : Bool} (hm : (⟨.write p (.record a'), b⟩ : sig.Deed) ∈ t) :
    ∃ t' d cs t1 t2 rv api mfg own, t = t' ++ [⟨.write p (.record a'), b⟩] ∧ (⟨.canonical dir, some d⟩ : sig.Deed) ∈ t' ∧ p = d ++ "/aio_configuration" ∧
      a' = { a with authToken := t1, adminToken := t2, contacts := cs } ∧ Wanted a t' cs ∧
      List.Sublist ([⟨.token, some t1⟩, ⟨.token, some t2⟩] : Trace sig) t' ∧
      files t (d ++ "/configs/rendezvous_server.yml") = some (.rv rv) ∧ files t (d ++ "/configs/serviceinfo_api_server.yml") = some (.api api) ∧
      files t (d ++ "/configs/manufacturing_server.yml") = some (.mfg mfg) ∧ files t (d ++ "/configs/owner_onboarding_server.yml") = some (.owner own) ∧
      Fit (files t) rv api mfg own a ∧ api.authToken = t1 ∧ api.adminToken = t2 ∧ Reached L R mfg own a.rvPort a.ownerPort cs := by
  have hp32 : a.rvPort < 2 ^ 32 := Nat.lt_trans hport (by decide)
  clear hport
  rcases generate_does h with h1 | ⟨d, t0, t2, rfl, h2, h3⟩
  · rcases h1 _ hm with ⟨_, e⟩ | ⟨_, e⟩ | ⟨_, e⟩ | ⟨e, -⟩ <;> cases e
  have hm2 : (⟨.write p (.record a'), b⟩ : sig.Deed) ∈ t2 := by
    rcases List.mem_append.1 hm with hm | hm
    · rcases h2 with rfl | rfl <;> simp only [List.mem_cons, List.not_mem_nil, or_false] at hm
      · cases hm
      · rcases hm with hm | hm <;> cases hm
    · rcases List.mem_append.1 hm with hm | hm
      · simp only [List.mem_cons, List.not_mem_nil, or_false] at hm
        rcases hm with hm | hm | hm <;> cases hm
      · exact hm
  obtain ⟨t', k, cs, v1, v2, rfl, rfl, hs, hw, rfl, hk, hc⟩ := build_record h3 hm2
  match k, hk with
  | [k1, k2, k3, k4], _ =>
  have hq : ∀ u, changes (t0 ++ ([⟨.exists? (dir ++ "/aio_configuration"), false⟩, ⟨.empty? dir, some true⟩, ⟨.canonical dir, some d⟩] ++ u)) = changes u := by
    rcases h2 with rfl | rfl <;> exact fun _ => rfl
  have hc' := (hq (t' ++ [⟨.write (d ++ "/aio_configuration") (.record { a with authToken := v1, adminToken := v2, contacts := cs }), b⟩])).trans
    ((changes_append t' _).trans (congrArg (· ++ _) hc))
  have hcs : ∀ b, Contact.ip b ∈ cs → L.parseIp (R.showIp b) = some b := by
    intro x hx
    unfold Wanted at hw
    split at hw
    · subst hw
      cases List.mem_singleton.1 hx
    · obtain ⟨l, q, h4, -, rfl⟩ := hw
      obtain ⟨y, hy, e⟩ := List.mem_map.1 hx
      cases e
      exact hip l (by simp [h4]) x (by simpa using (List.mem_filter.1 hy).1)
  have hf := fit hc'
  obtain ⟨-, hw2⟩ := files_written hc'
  refine ⟨t0 ++ ([⟨.exists? (dir ++ "/aio_configuration"), false⟩, ⟨.empty? dir, some true⟩, ⟨.canonical dir, some d⟩] ++ t'), d, cs, v1, v2, _, _, _, _,
    by simp, by simp, rfl, rfl, wanted_mono hw (by intro x hx; simp [hx]),
    (hs.trans (List.sublist_append_right _ _)).trans (List.sublist_append_right _ _), ?_, ?_, ?_, ?_, ⟨hf.1, hf.2, hf.3, hf.4, hf.5, hf.6, hf.7, hf.8, hf.9, hf.10, hf.11, hf.12, hf.13⟩,
    rfl, rfl, ?_, ?_⟩
  · rw [← hw2 ("rendezvous_server.yml", _) (List.mem_cons_self ..), path_eq]; rfl
  · rw [← hw2 ("serviceinfo_api_server.yml", _) (by simp), path_eq]; rfl
  · rw [← hw2 ("manufacturing_server.yml", _) (by simp), path_eq]; rfl
  · rw [← hw2 ("owner_onboarding_server.yml", _) (by simp), path_eq]; rfl
  · rw [show (mfgSettings R.showIp d { a with authToken := v1, adminToken := v2, contacts := cs }).rendezvous = _ from rendezvousInfo_eq _]
    exact rendezvous_reached (p := a.rvPort) hL henc hp32 hcs
  · exact owner_reached (parseIp := L.parseIp) { a with authToken := v1, adminToken := v2, contacts := cs } hcs

/-! ### Starting the servers -/

/-- **C81** (start): a server is started with the variable that it looks at for the name of its configuration file, and the
file named is the one made for it. -/
theorem C81_started (d : String) (x : Daemon) : x.environment d = (Settings.confEnv x.component, d ++ "/configs/" ++ x.file) := by
  have h : Settings.confEnv x.component = x.variable_ := by cases x <;> decide +kernel
  rw [h]
  unfold Daemon.environment
  rw [path_eq, show "/" ++ "configs" ++ "/" ++ x.file = "/configs/" ++ x.file from congrArg (· ++ x.file) (by decide +kernel), String.append_assoc]

theorem last_gives {p : List String} {s : String} (l : List Settings.Val) (f : Settings.Val) (hf : f.says p = .gives s) : Settings.lastWord p (l ++ [f]) = .gives s := by
  induction l with
  | nil => exact hf
  | cons g l ih =>
    rw [List.cons_append, show Settings.lastWord p (g :: (l ++ [f])) = (match Settings.lastWord p (l ++ [f]) with | .silent => g.says p | x => x) from rfl, ih]

/-- **C81** (settings): a server that is started so, on a system where no file for it is in `/usr/share/fdo`, has each setting that
its file gives. -/
theorem C81_settings_partial {y : Settings.Sys} (hy : ∀ p l, y.file p = .holds l → (Settings.Val.table l).Wf) {d : String} {x : Daemon}
    (henv : y.env (x.environment d).1 = some (x.environment d).2) {l : List (String × Settings.Val)} (hf : y.file (d ++ "/configs/" ++ x.file) = .holds l)
    (hs : y.file ("/usr/share/fdo/" ++ x.component ++ ".yml") = .missing) {v : Settings.Val} (h : Settings.settingsFor y x.component = .ok v)
    {p : List String} {s : String} (hp : (Settings.Val.table l).says p = .gives s) : v.at p = some s := by
  rw [C81_started] at henv
  obtain ⟨glob, -, h1⟩ := Settings.C82_last_word hy h
  rw [h1]
  unfold Settings.order Settings.found
  rw [List.filterMap_append, List.filterMap_cons, List.filterMap_cons, hs, henv, Option.getD_some, hf]
  exact last_gives _ _ hp

/-- **C81 is violated** (settings): a file in `/usr/share/fdo` overrides what was made for the server. -/
theorem C81_settings_violated {y : Settings.Sys} (hy : ∀ p l, y.file p = .holds l → (Settings.Val.table l).Wf) {d : String} {x : Daemon}
    (henv : y.env (x.environment d).1 = some (x.environment d).2) {l l' : List (String × Settings.Val)} (hf : y.file (d ++ "/configs/" ++ x.file) = .holds l)
    (hs : y.file ("/usr/share/fdo/" ++ x.component ++ ".yml") = .holds l') {v : Settings.Val} (h : Settings.settingsFor y x.component = .ok v)
    {p : List String} {s s' : String} (hp : (Settings.Val.table l).says p = .gives s) (hp' : (Settings.Val.table l').says p = .gives s') : v.at p = some s' := by
  rw [C81_started] at henv
  exact Settings.C82_named_file_overridden_violated hy henv hf hs h hp hp'

/-! ### What goes wrong -/

/-- Surroundings in which nothing fails; `l` are the addresses of the interfaces. -/
def kind (l : List (Option Bytes)) (n : Nat) : (o : Op) → Nat × o.Ans
  | .exists? _ => (n, false)
  | .empty? _ => (n, some true)
  | .canonical p => (n, some p)
  | .mkdir _ => (n, true)
  | .mkdirs _ => (n, true)
  | .isDir _ => (n, true)
  | .keyPair => (n + 1, some n)
  | .token => (n + 1, some (toString n))
  | .interfaces => (n, some l)
  | .write _ _ => (n, true)

theorem kind_answers {α : Type} (l : List (Option Bytes)) (p : Prog sig α) (n : Nat) : ∀ d ∈ Prog.doings (S := sig) (kind l) n p, ∃ n', d.2 = (kind l n' d.1).2 := by
  induction p generalizing n with
  | ret a => nofun
  | act e k ih =>
    intro d hd
    rcases List.mem_cons.1 hd with rfl | hd
    · exact ⟨n, rfl⟩
    · exact ih _ _ d hd

/-- A run in such surroundings. -/
theorem kind_run (showIp : Bytes → String) (l : List (Option Bytes)) (dir : String) (a : Args) :
    ∃ t, Prog.Ends (generate showIp dir a) t (.ok ()) ∧ (∀ o, (⟨.interfaces, o⟩ : sig.Deed) ∈ t → o = some l) ∧
      ∀ p o, (⟨.canonical p, o⟩ : sig.Deed) ∈ t → o = some p := by
  refine ⟨Prog.doings (S := sig) (kind l) 0 (generate showIp dir a), ?_, fun o ho => ?_, fun p o ho => ?_⟩
  · have h := Prog.exec_ends (S := sig) (kind l) 0 (generate showIp dir a)
    have e : (Prog.exec (S := sig) (kind l) 0 (generate showIp dir a)).2 = .ok () := by
      obtain ⟨x1, x2, x3, x4, x5, sep, x6, x7, x8, x9, x10, host, x11, x12, x13⟩ := a
      cases sep <;> cases host <;> rfl
    rw [e] at h
    exact h
  · obtain ⟨n, h⟩ := kind_answers l _ _ _ ho
    exact h
  · obtain ⟨n, h⟩ := kind_answers l _ _ _ ho
    exact h

/-- **C81 is violated** (reachable): if no interface has an address in a network and no name is given, generation succeeds all the
same. The rendezvous information in the settings is accepted, but devices and owners find no server in it. -/
theorem C81_unreachable_violated {L : Config.Lib} (hL : L.Good) (henc : ∀ v, ∃ b, L.enc v = some b) {R : Device.DevEnv} (dir : String) (a : Args)
    (hport : a.rvPort < 65536) (hn : a.contactHostname = none) (l : List (Option Bytes)) (hl : ∀ b, some b ∈ l → Wanted.Local b)
    (hip : ∀ b, some b ∈ l → L.parseIp (R.showIp b) = some b) :
    ∃ t mfg ds, Prog.Ends (generate R.showIp dir a) t (.ok ()) ∧ (⟨.interfaces, some l⟩ : sig.Deed) ∈ t ∧
      files t (dir ++ "/configs/manufacturing_server.yml") = some (.mfg mfg) ∧ Config.load L mfg.rendezvous = .ok ds ∧
      ∀ side, toInterpreted (Config.decoders L) side ds = .ok [] := by
  obtain ⟨t, h, h1, h2⟩ := kind_run R.showIp l dir a
  obtain ⟨p, a', hm⟩ := C81_success h
  obtain ⟨t', d, cs, t1, t2, rv, api, mfg, own, e, hd, -, -, hw, -, -, -, hf, -, -, -, -, hr⟩ := C81_record hL henc (R := R) hport (by
    intro l' hl' b hb
    cases h1 _ hl'
    exact hip b hb) ⟨_, h⟩ hm
  cases h2 _ _ (e ▸ List.mem_append_left _ hd)
  unfold Wanted at hw
  rw [hn] at hw
  obtain ⟨l', q, hl', hq, rfl⟩ := hw
  cases h1 _ (e ▸ List.mem_append_left _ hl')
  have he : (List.filter q (List.filterMap id l)) = [] := by
    refine List.filter_eq_nil_iff.2 fun b hb => ?_
    have : some b ∈ l := by simpa using hb
    exact fun h => (hq b).1 h (hl b this)
  obtain ⟨ds, h3, h4⟩ := hr.rendezvous
  refine ⟨t, mfg, ds, h, e ▸ List.mem_append_left _ hl', hf, h3, fun side => ?_⟩
  obtain ⟨rs, h5, h6⟩ := h4 side
  rw [he] at h6
  rw [h5, List.map_eq_nil_iff.1 h6]

/-- A device with such rendezvous information does not even try to find its owner. -/
theorem C81_unreachable_device_violated {R : Device.DevEnv} {cr : Credential.Cred} {rv : R.E.Rv} (hd : R.E.decRv cr.rvinfo = some rv)
    (hi : toInterpreted R.D .device (R.directives rv) = .ok []) : Device.rvEntries (R := R) cr = .err .rendezvous := by
  unfold Device.rvEntries
  rw [hd]
  show (Device.liftD _ >>= _) = _
  rw [hi]
  rfl

/-- **C81 is violated** (times): times with which the owner onboarding server refuses to start are not refused. -/
theorem C81_times_violated {L : Config.Lib} (hL : L.Good) (henc : ∀ v, ∃ b, L.enc v = some b) {R : Device.DevEnv} (dir : String) (a : Args)
    (hport : a.rvPort < 65536) (ht : OwnerServer.startupTimes a.period a.window = none) :
    ∃ t own, Prog.Ends (generate R.showIp dir a) t (.ok ()) ∧ files t (dir ++ "/configs/owner_onboarding_server.yml") = some (.owner own) ∧
      OwnerServer.startupTimes own.period own.window = none := by
  obtain ⟨t, h, h1, h2⟩ := kind_run R.showIp [] dir a
  obtain ⟨p, a', hm⟩ := C81_success h
  obtain ⟨t', d, cs, t1, t2, rv, api, mfg, own, e, hd, -, -, hw, -, -, -, -, hf, hfit, -⟩ := C81_record hL henc (R := R) hport (by
    intro l' hl' b hb
    cases h1 _ hl'
    cases hb) ⟨_, h⟩ hm
  cases h2 _ _ (e ▸ List.mem_append_left _ hd)
  exact ⟨t, own, h, hf, by rw [hfit.times.1, hfit.times.2]; exact ht⟩

/-- Without options, and with the defaults, the server starts. -/
theorem C81_default_times : OwnerServer.startupTimes Args.default.period Args.default.window = some (600, 61) ∧
    OwnerServer.startupTimes Args.fromCli.period Args.fromCli.window = some (600, 61) := by decide

/-- **C81 is violated** (listening address): whatever address (`a.listenIp`) the servers are told to listen on, they
listen on all. -/
theorem C81_listen_violated {L : Config.Lib} (hL : L.Good) (henc : ∀ v, ∃ b, L.enc v = some b) {R : Device.DevEnv} (dir : String) (a : Args)
    (hport : a.rvPort < 65536) : ∃ t own, Prog.Ends (generate R.showIp dir a) t (.ok ()) ∧
      files t (dir ++ "/configs/owner_onboarding_server.yml") = some (.owner own) ∧ own.bind = "0.0.0.0:" ++ toString a.ownerPort := by
  obtain ⟨t, h, h1, h2⟩ := kind_run R.showIp [] dir a
  obtain ⟨p, a', hm⟩ := C81_success h
  obtain ⟨t', d, cs, t1, t2, rv, api, mfg, own, e, hd, -, -, hw, -, -, -, -, hf, hfit, -⟩ := C81_record hL henc (R := R) hport (by
    intro l' hl' b hb
    cases h1 _ hl'
    cases hb) ⟨_, h⟩ hm
  cases h2 _ _ (e ▸ List.mem_append_left _ hd)
  exact ⟨t, own, h, hf, hfit.ports.2.2.2⟩

/-- **C81 is violated** (resuming): if generation was cut off after something was made in the directory (which is then not empty), no
later generation in this directory succeeds. -/
theorem C81_resume_violated {dir : String} {a a' : Args} {t1 t2 : Trace sig} (_h1 : Prog.Does (generate showIp dir a) t1)
    {p : String} (hmade : (⟨.mkdirs p, true⟩ : sig.Deed) ∈ t1)
    (htrue : (∃ p, (⟨.mkdirs p, true⟩ : sig.Deed) ∈ t1) → ∀ o, (⟨.empty? dir, o⟩ : sig.Deed) ∈ t2 → o ≠ some true) :
    ¬ Prog.Ends (generate showIp dir a') t2 (.ok ()) := by
  intro h
  rcases generate_does ⟨_, h⟩ with h1 | ⟨d, t0, t3, rfl, -, -⟩
  · obtain ⟨p, a', hm⟩ := C81_success h
    rcases h1 _ hm with ⟨_, e⟩ | ⟨_, e⟩ | ⟨_, e⟩ | ⟨e, -⟩ <;> cases e
  · exact htrue ⟨p, hmade⟩ (some true) (by simp) rfl

end Verif.Aio

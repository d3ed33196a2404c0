import Verif.Lemmas.SiClient
/-!
Service info on the device: only activated modules act (C49), the reboot request (C54).
-/
namespace Verif.SiClient
open Verif Verif.Types Verif.ServiceInfo

variable {h : Host}

/-! ### C49 -/

/-- Specification: after these instructions the module is active, i.e. it was switched on and not off since. -/
def Activated (m : SiModule) (l : List Item) : Prop :=
  ∃ a b, l = a ++ (m, "active".toList, Val.bool true) :: b ∧ (m, "active".toList, Val.bool false) ∉ b

/-- Specification: every instruction other than a switch goes to a module which is active at that point. -/
def Orderly (l : List Item) : Prop :=
  ∀ a x b, l = a ++ x :: b → x.2.1 = "active".toList ∨ Activated x.1 a

/-- Specification: there is an instruction to the module that may have an effect: the module is active there, and all
instructions up to it were orderly. -/
def Instructed (m : SiModule) (l : List Item) : Prop :=
  ∃ a x b, l = a ++ x :: b ∧ x.1 = m ∧ x.2.1 ≠ "active".toList ∧ Activated m a ∧ Orderly (a ++ [x])

theorem not_activated_nil {m : SiModule} : ¬Activated m [] := by
  rintro ⟨a, b, h, -⟩
  simp at h

theorem snoc_cases {α : Type} {l a b : List α} {x y : α} (h : l ++ [x] = a ++ y :: b) :
    (b = [] ∧ a = l ∧ y = x) ∨ ∃ b', b = b' ++ [x] ∧ l = a ++ y :: b' := by
  rcases List.eq_nil_or_concat b with rfl | ⟨b', z, rfl⟩
  · obtain ⟨h1, h2⟩ := List.append_inj' h rfl
    exact .inl ⟨rfl, h1.symm, (List.cons.inj h2).1.symm⟩
  · rw [List.concat_eq_append] at h ⊢
    have : l ++ [x] = (a ++ y :: b') ++ [z] := by simpa using h
    obtain ⟨h1, h2⟩ := List.append_inj' this rfl
    cases h2
    exact .inr ⟨b', rfl, h1⟩

theorem activated_snoc {m : SiModule} {l : List Item} {x : Item} :
    Activated m (l ++ [x]) ↔ x = (m, "active".toList, Val.bool true) ∨
      (Activated m l ∧ x ≠ (m, "active".toList, Val.bool false)) := by
  constructor
  · rintro ⟨a, b, h, hb⟩
    rcases snoc_cases h with ⟨-, -, rfl⟩ | ⟨b', rfl, h'⟩
    · exact .inl rfl
    · refine .inr ⟨⟨a, b', h', fun hm => hb (List.mem_append_left _ hm)⟩, ?_⟩
      rintro rfl
      exact hb (by simp)
  · rintro (rfl | ⟨⟨a, b, rfl, hb⟩, hx⟩)
    · exact ⟨l, [], by simp, by simp⟩
    · refine ⟨a, b ++ [x], by simp, fun hm => ?_⟩
      rcases List.mem_append.1 hm with hm | hm
      · exact hb hm
      · exact hx (List.mem_singleton.1 hm).symm

theorem orderly_nil : Orderly [] := by
  intro a x b h
  simp at h

theorem orderly_snoc {l : List Item} {x : Item} (hl : Orderly l) (hx : x.2.1 = "active".toList ∨ Activated x.1 l) :
    Orderly (l ++ [x]) := by
  intro a y b h
  rcases snoc_cases h with ⟨-, rfl, rfl⟩ | ⟨b', -, h'⟩
  · exact hx
  · exact hl a y b' h'

theorem orderly_prefix {a l : List Item} (hl : Orderly l) (h : a <+: l) : Orderly a := by
  obtain ⟨r, rfl⟩ := h
  rintro b x c rfl
  exact hl b x (c ++ r) (by simp)

theorem instructed_mono {m : SiModule} {a l : List Item} (ha : Instructed m a) (h : a <+: l) : Instructed m l := by
  obtain ⟨r, rfl⟩ := h
  obtain ⟨b, x, c, rfl, h1, h2, h3, h4⟩ := ha
  exact ⟨b, x, c ++ r, by simp, h1, h2, h3, h4⟩

/-- What C49 says about a deed done while the message `l` is processed. -/
def DeedOk (l : List Item) (d : sig.Deed) : Prop :=
  ∃ m op, d.1 = .host m op ∧ Supported m ∧ Instructed m l ∧
    (m = .sshKey ∨ m = .subscriptionManager → Activated m l ∧ Orderly l)

/-- The invariant of the loop. -/
structure ActInv (l a : List Item) (s : St) (t : Trace sig) : Prop where
  active : ∀ m, m ∈ s.active ↔ Activated m a
  orderly : Orderly a
  deeds : ∀ d ∈ t, DeedOk l d
  user : ∀ u, s.user.user = some u → ∃ x ∈ a, x.1 = .sshKey ∧ x.2.1 ≠ "active".toList
  rhsm : ∀ u, s.rhsm.org = some u → ∃ x ∈ a, x.1 = .subscriptionManager ∧ x.2.1 ≠ "active".toList

/-- An instruction that was obeyed: what happens to the invariant. -/
theorem obey_act {l a : List Item} {s : St} {m : SiModule} {k : List Char} {v : Val} (hl : a ++ [(m, k, v)] <+: l)
    (hk : k ≠ "active".toList) (hm : m ∈ s.active) :
    Hoare remember (fun t => ∀ d ∈ t, DeedOk l d) (ActInv l a s) (obey h s m k v)
      fun r t => (∀ d ∈ t, DeedOk l d) ∧ ∀ s', r = .ok s' → ActInv l (a ++ [(m, k, v)]) s' t := by
  -- the deeds
  have hins : ∀ t, ActInv l a s t → Instructed m l := fun t hi =>
    instructed_mono ⟨a, (m, k, v), [], rfl, rfl, hk, (hi.active m).1 hm, orderly_snoc hi.orderly (.inr ((hi.active m).1 hm))⟩ hl
  have key : Hoare remember (ActInv l a s) (ActInv l a s) (obey h s m k v) fun _ t => ActInv l a s t := by
    by_cases hs : m ≠ .binaryFile ∧ m ≠ .command ∧ m ≠ .diskEncryptionClevis
    · exact hoare_only (only_obey_none hs) fun _ _ h => h.elim
    · refine hoare_only only_obey fun t d hd hi => ⟨hi.active, hi.orderly, fun d' hd' => ?_, hi.user, hi.rhsm⟩
      rcases List.mem_append.1 hd' with hd' | hd'
      · exact hi.deeds d' hd'
      · rw [List.mem_singleton.1 hd']
        obtain ⟨op, hop⟩ := hd
        refine ⟨m, op, hop, ?_, hins t hi, ?_⟩
        · unfold Supported
          by_cases h1 : m = .binaryFile
          · simp [h1]
          · by_cases h2 : m = .command
            · simp [h2]
            · have h3 : m = .diskEncryptionClevis := by
                by_contra h3
                exact hs ⟨h1, h2, h3⟩
              simp [h3]
        · rintro (rfl | rfl) <;> exact absurd ⟨nofun, nofun, nofun⟩ hs
  refine (hoare_and key (R := fun r => ∀ s', r = .ok s' → Apart m s s') (fun t r he s' hr => by
    subst hr; exact obey_apart he)).conseq (fun _ h => h) (fun r t hr => ⟨hr.1.deeds, fun s' hs' => ?_⟩) fun _ h => h.deeds
  obtain ⟨hi, hap⟩ := hr
  have hap := hap s' hs'
  refine ⟨fun m' => ?_, orderly_snoc hi.orderly (.inr ((hi.active m).1 hm)), hi.deeds, fun u hu => ?_, fun u hu => ?_⟩
  · rw [hap.active, hi.active, activated_snoc]
    constructor
    · exact fun h => .inr ⟨h, fun he => hk (congrArg (·.2.1) he)⟩
    · rintro (he | ⟨h, -⟩)
      · exact absurd (congrArg (·.2.1) he) hk
      · exact h
  · by_cases hmm : m = .sshKey
    · exact ⟨(m, k, v), by simp, hmm, hk⟩
    · rw [hap.user hmm] at hu
      obtain ⟨x, hx, h1⟩ := hi.user u hu
      exact ⟨x, List.mem_append_left _ hx, h1⟩
  · by_cases hmm : m = .subscriptionManager
    · exact ⟨(m, k, v), by simp, hmm, hk⟩
    · rw [hap.rhsm hmm] at hu
      obtain ⟨x, hx, h1⟩ := hi.rhsm u hu
      exact ⟨x, List.mem_append_left _ hx, h1⟩

theorem item_act {l a : List Item} {s : St} {x : Item} (hl : a ++ [x] <+: l) :
    Hoare remember (fun t => ∀ d ∈ t, DeedOk l d) (ActInv l a s) (item h s x)
      fun r t => (∀ d ∈ t, DeedOk l d) ∧ ∀ s', r = .ok s' → ActInv l (a ++ [x]) s' t := by
  obtain ⟨m, k, v⟩ := x
  refine hoare_item (fun t hi => hi.deeds) (fun t e hi => ⟨hi.deeds, fun s' h => absurd h err_ne_ok⟩) ?_ ?_
    fun hk hm => obey_act hl hk hm
  · rintro rfl rfl t hi
    refine ⟨hi.deeds, fun s' hs' => ?_⟩
    cases hs'
    refine ⟨fun m' => ?_, orderly_snoc hi.orderly (.inl rfl), hi.deeds, fun u hu => ?_, fun u hu => ?_⟩
    · rw [activated_snoc]
      simp only [List.mem_cons, hi.active]
      constructor
      · rintro (rfl | h)
        · exact .inl rfl
        · exact .inr ⟨h, by simp⟩
      · rintro (h | ⟨h, -⟩)
        · simp only [Prod.mk.injEq] at h
          exact .inl h.1.symm
        · exact .inr h
    · obtain ⟨x, hx, h1⟩ := hi.user u hu
      exact ⟨x, List.mem_append_left _ hx, h1⟩
    · obtain ⟨x, hx, h1⟩ := hi.rhsm u hu
      exact ⟨x, List.mem_append_left _ hx, h1⟩
  · rintro rfl rfl t hi
    refine ⟨hi.deeds, fun s' hs' => ?_⟩
    cases hs'
    refine ⟨fun m' => ?_, orderly_snoc hi.orderly (.inl rfl), hi.deeds, fun u hu => ?_, fun u hu => ?_⟩
    · rw [activated_snoc]
      simp only [List.mem_filter, hi.active, decide_not, Bool.not_eq_eq_eq_not, Bool.not_true, decide_eq_false_iff_not]
      constructor
      · rintro ⟨h1, h2⟩
        exact .inr ⟨h1, by simp only [ne_eq, Prod.mk.injEq, and_true]; exact fun h => h2 h.symm⟩
      · rintro (h | ⟨h, h2⟩)
        · simp at h
        · exact ⟨h, fun he => h2 (by rw [he])⟩
    · obtain ⟨x, hx, h1⟩ := hi.user u hu
      exact ⟨x, List.mem_append_left _ hx, h1⟩
    · obtain ⟨x, hx, h1⟩ := hi.rhsm u hu
      exact ⟨x, List.mem_append_left _ hx, h1⟩

theorem instructed_of_mem {l : List Item} {x : Item} (hl : Orderly l) (hx : x ∈ l) (hk : x.2.1 ≠ "active".toList) :
    Instructed x.1 l := by
  obtain ⟨a, b, rfl⟩ := List.append_of_mem hx
  refine ⟨a, x, b, rfl, rfl, hk, (hl a x b rfl).resolve_left hk, ?_⟩
  exact orderly_prefix hl ⟨b, by simp⟩

theorem hoare_when {P I : Trace sig → Prop} {b : Bool} {p : Proc sig Err Unit} {Q : Res Err Unit → Trace sig → Prop}
    (hp : b = true → Hoare remember I P p Q) (hI : b = false → ∀ t, P t → I t) (hQ : b = false → ∀ t, P t → Q (.ok ()) t) :
    Hoare remember I P (when b p) Q := by
  cases b with
  | true => exact hp rfl
  | false => exact Hoare.pure (hI rfl) (hQ rfl)

theorem finish_act {l : List Item} {s : St} :
    Hoare remember (fun t => ∀ d ∈ t, DeedOk l d) (ActInv l l s) (finish h s)
      fun r t => (∀ d ∈ t, DeedOk l d) ∧ ∀ x, r = .ok x → Orderly l := by
  -- acting for an active module at the end
  have act : ∀ m, Supported m → m ∈ s.active → (∃ x ∈ l, x.1 = m ∧ x.2.1 ≠ "active".toList) → ∀ t d,
      By m d.1 → ActInv l l s t → ActInv l l s (t ++ [d]) := by
    intro m hsup hm ⟨x, hx, hxm, hxk⟩ t d ⟨op, hop⟩ hi
    refine ⟨hi.active, hi.orderly, fun d' hd' => ?_, hi.user, hi.rhsm⟩
    rcases List.mem_append.1 hd' with hd' | hd'
    · exact hi.deeds d' hd'
    · rw [List.mem_singleton.1 hd']
      exact ⟨m, op, hop, hsup, hxm ▸ instructed_of_mem hi.orderly hx hxk, fun _ => ⟨(hi.active m).1 hm, hi.orderly⟩⟩
  have fin : ∀ {p : Proc sig Err Unit}, Hoare remember (ActInv l l s) (ActInv l l s) p (fun _ t => ActInv l l s t) →
      Hoare remember (ActInv l l s) (ActInv l l s) p (Hoare.Mid (fun _ t => ActInv l l s t)
        fun (_ : Res Err (Bool × List Item)) t => ActInv l l s t) := by
    intro p hp
    refine hp.post fun r t hr => ?_
    cases r <;> exact hr
  have main : Hoare remember (ActInv l l s) (ActInv l l s) (finish h s) fun _ t => ActInv l l s t := by
    refine Hoare.bind (M := fun _ t => ActInv l l s t) (fin ?_) (fun _ _ h => h) fun _ =>
      Hoare.bind (M := fun _ t => ActInv l l s t) (fin ?_) (fun _ _ h => h) fun _ =>
        Hoare.pure (fun _ h => h) fun _ h => h
    · refine hoare_when (fun hc => ?_) (fun _ _ h => h) (fun _ _ h => h)
      have hm : SiModule.sshKey ∈ s.active := by simpa using hc
      cases hu : s.user.user with
      | none =>
        unfold setUpUser
        rw [hu]
        exact Hoare.ret (fun _ h => h) fun _ h => h
      | some u =>
        intro t w t' hi hr
        exact hoare_only only_setUpUser (fun t d hd hi => act .sshKey (.inl rfl) hm (hi.user u hu) t d hd hi) t w t' hi hr
    · refine hoare_when (fun hc => ?_) (fun _ _ h => h) (fun _ _ h => h)
      have hm : SiModule.subscriptionManager ∈ s.active := by simpa using hc
      cases hu : s.rhsm.org with
      | none =>
        unfold rhsm
        rw [hu]
        exact Hoare.ret (fun _ h => h) fun _ h => h
      | some u =>
        exact hoare_only only_rhsm fun t d hd hi =>
          act .subscriptionManager (.inr (.inl rfl)) hm (hi.rhsm u hu) t d hd hi
  exact main.conseq (fun _ h => h) (fun r t hi => ⟨hi.deeds, fun _ _ => hi.orderly⟩) fun _ hi => hi.deeds

theorem process_act (l : List Item) : Hoare remember (fun t => ∀ d ∈ t, DeedOk l d) (fun t => t = []) (process h l)
    fun r t => (∀ d ∈ t, DeedOk l d) ∧ ∀ x, r = .ok x → Orderly l := by
  refine hoare_process (ActInv l) l ⟨fun m => ⟨nofun, fun h => absurd h not_activated_nil⟩, orderly_nil, nofun, nofun, nofun⟩
    (fun a s t _ hi => hi.deeds) (fun a x s hl => item_act hl) (fun _ _ h => h.1) (fun t e hi => ⟨hi, fun x h => absurd h err_ne_ok⟩)
    (fun t hi => ⟨hi, fun x h => absurd h panic_ne_ok⟩) fun s => finish_act

/-- **C49**: whatever the device does while processing a message, up to any point and whatever the outcomes, is done on
behalf of a supported module, to which there is an instruction in this message at a place where the module is active and
in front of which there is no instruction to an inactive module. Users, keys and subscriptions are only set up if the whole
message is like that and the module is active at its end. -/
theorem C49_only_active (l : List Item) (t : Trace sig) (hd : Prog.Does (process h l) t) :
    ∀ d ∈ t, ∃ m op, d.1 = .host m op ∧ Supported m ∧ Instructed m l ∧
      (m = .sshKey ∨ m = .subscriptionManager → Activated m l ∧ Orderly l) :=
  ((process_act l).trace t).1 hd

/-- **C49**: a message with an instruction to an inactive module is never processed successfully, and nothing in it
from that instruction on has an effect: what is done is instructed by what comes before. -/
theorem C49_inactive_aborts (a : List Item) (x : Item) (b : List Item) (hk : x.2.1 ≠ "active".toList)
    (hx : ¬Activated x.1 a) (t : Trace sig) :
    (∀ r, ¬Prog.Ends (process h (a ++ x :: b)) t (.ok r)) ∧
    (Prog.Does (process h (a ++ x :: b)) t → ∀ d ∈ t, ∃ m op, d.1 = .host m op ∧
      (m = .binaryFile ∨ m = .command ∨ m = .diskEncryptionClevis) ∧ Instructed m a) := by
  have hno : ¬Orderly (a ++ x :: b) := fun ho => (ho a x b rfl).elim hk hx
  refine ⟨fun r he => hno ((((process_act _).trace t).2 _ he).2 r rfl), fun hd d hdt => ?_⟩
  obtain ⟨m, op, h1, h2, ⟨a', y, b', h3, h4, h5, h6, h7⟩, h8⟩ := C49_only_active _ t hd d hdt
  refine ⟨m, op, h1, ?_, ?_⟩
  · rcases h2 with rfl | rfl | h | h | h
    · exact absurd (h8 (.inl rfl)).2 hno
    · exact absurd (h8 (.inr rfl)).2 hno
    · exact .inl h
    · exact .inr (.inl h)
    · exact .inr (.inr h)
  · have hp : a' ++ [y] <+: a ++ x :: b := ⟨b', by rw [h3]; simp⟩
    have hq : a ++ [x] <+: a ++ x :: b := ⟨b, by simp⟩
    rcases List.prefix_or_prefix_of_prefix hp hq with h | h
    · -- strictly in front of `x`, as it is orderly
      rcases List.prefix_concat_iff.1 h with h | ⟨c, hc⟩
      · rw [h] at h7
        exact ((h7 a x [] rfl).elim hk hx).elim
      · exact ⟨a', y, c, by rw [← hc]; simp, h4, h5, h6, h7⟩
    · obtain ⟨c, hc⟩ := h
      rw [← hc] at h7
      exact ((h7 a x c (by simp)).elim hk hx).elim

/-! ### C54 -/

/-- Specification: the last reboot instruction of a message asks for it. -/
def AsksReboot (l : List Item) : Prop :=
  ∃ a b, l = a ++ (.reboot, "reboot".toList, Val.bool true) :: b ∧
    ∀ x ∈ b, ¬(x.1 = .reboot ∧ x.2.1 = "reboot".toList)

theorem asks_snoc {l : List Item} {x : Item} : AsksReboot (l ++ [x]) ↔
    x = (.reboot, "reboot".toList, Val.bool true) ∨
      (AsksReboot l ∧ ¬(x.1 = .reboot ∧ x.2.1 = "reboot".toList)) := by
  constructor
  · rintro ⟨a, b, h, hb⟩
    rcases snoc_cases h with ⟨-, -, rfl⟩ | ⟨b', rfl, h'⟩
    · exact .inl rfl
    · exact .inr ⟨⟨a, b', h', fun y hy => hb y (List.mem_append_left _ hy)⟩, hb x (by simp)⟩
  · rintro (rfl | ⟨⟨a, b, rfl, hb⟩, hx⟩)
    · exact ⟨l, [], by simp, by simp⟩
    · refine ⟨a, b ++ [x], by simp, fun y hy => ?_⟩
      rcases List.mem_append.1 hy with hy | hy
      · exact hb y hy
      · rw [List.mem_singleton.1 hy]; exact hx

theorem items_reboot : ∀ (r a : List Item) (s s' : St) (t : Trace sig), (s.reboot = true ↔ AsksReboot a) →
    Prog.Ends (items h s r) t (.ok s') → (s'.reboot = true ↔ AsksReboot (a ++ r)) := by
  intro r
  induction r with
  | nil =>
    intro a s s' t hs he
    obtain ⟨rfl, rfl⟩ := Proc.ends_pure he
    rwa [List.append_nil]
  | cons x r ih =>
    intro a s s' t hs he
    obtain ⟨s1, t1, t2, rfl, h1, h2⟩ := Proc.ends_bind he
    have := ih (a ++ [x]) s1 s' t2 ?_ h2
    · simpa using this
    · obtain ⟨m, k, v⟩ := x
      rw [asks_snoc]
      unfold item at h1
      simp only at h1
      split at h1
      · next hk =>
        obtain ⟨b, u1, u2, rfl, g1, g2⟩ := Proc.ends_bind h1
        obtain ⟨rfl, rfl⟩ := Proc.ends_pure g2
        subst hk
        simp [hs]
      · split at h1
        · by_cases hm : m = .reboot
          · subst hm
            rcases obey_reboot h1 with ⟨rfl, b, rfl, rfl⟩ | ⟨hk, rfl⟩
            · simp
            · simp only [Prod.mk.injEq, hs, hk, and_false, false_and, not_false_eq_true, and_true, false_or]
          · rw [(obey_apart h1).reboot hm, hs]
            simp [hm]
        · exact (Proc.ends_fail h1).elim

theorem process_ends {l : List Item} {t : Trace sig} {b : Bool} {out : List Item}
    (he : Prog.Ends (process h l) t (.ok (b, out))) : ∃ s t1 t2, t = t1 ++ t2 ∧ Prog.Ends (items h {} l) t1 (.ok s) ∧
      Prog.Ends (finish h s) t2 (.ok (b, out)) ∧ b = s.reboot ∧ out = s.out := by
  obtain ⟨s, t1, t2, rfl, h1, h2⟩ := Proc.ends_bind he
  refine ⟨s, t1, t2, rfl, h1, h2, ?_⟩
  obtain ⟨_, u1, u2, rfl, g1, g2⟩ := Proc.ends_bind h2
  obtain ⟨_, w1, w2, rfl, f1, f2⟩ := Proc.ends_bind g2
  obtain ⟨-, e⟩ := Proc.ends_pure f2
  cases e
  exact ⟨rfl, rfl⟩

/-- **C54**, one message: a message that was processed asks for a reboot exactly if its last reboot instruction does; and
then the reboot module was active there (C49). -/
theorem C54_message (l : List Item) (t : Trace sig) (b : Bool) (out : List Item)
    (he : Prog.Ends (process h l) t (.ok (b, out))) : (b = true ↔ AsksReboot l) ∧ Orderly l := by
  refine ⟨?_, (((process_act l).trace t).2 _ he).2 _ rfl⟩
  obtain ⟨s, t1, t2, rfl, h1, h2, rfl, rfl⟩ := process_ends he
  have := items_reboot l [] {} s t1 ⟨nofun, fun ⟨a, b, h, _⟩ => by simp at h⟩ h1
  simpa using this

/-- The messages received, in order. -/
def received (t : Trace sig) : List OwnerSi :=
  t.flatMap fun
    | ⟨.exchange _, some r⟩ => [r]
    | _ => []

theorem received_append (t u : Trace sig) : received (t ++ u) = received t ++ received u := by simp [received]

theorem received_by {m : SiModule} {t : Trace sig} (ht : ∀ d ∈ t, By m d.1) : received t = [] := by
  simp only [received, List.flatMap_eq_nil_iff]
  rintro ⟨e, a⟩ hd
  obtain ⟨op, rfl⟩ := ht _ hd
  rfl

theorem received_process {l : List Item} {t : Trace sig} (hd : Prog.Does (process h l) t) : received t = [] := by
  simp only [received, List.flatMap_eq_nil_iff]
  rintro ⟨e, a⟩ hd'
  obtain ⟨m, op, rfl, -⟩ := C49_only_active l t hd _ hd'
  rfl

theorem rounds_reboot (enc : Val → Bytes) (dec : Bytes → Option Val) : ∀ (n : Nat) (b0 : Bool) (out : List Item)
    (t : Trace sig) (b : Bool), Prog.Ends (rounds h enc dec n b0 out) t (.ok b) →
    ∃ ms r, received t = ms ++ [r] ∧ r.isDone = true ∧ (∀ m ∈ ms, m.isDone = false ∧ m.isMore = false) ∧ ms.length < n ∧
      (b = true ↔ b0 = true ∨ ∃ m ∈ ms, AsksReboot (siItems dec m.si)) := by
  intro n
  induction n with
  | zero => intro b0 out t b he; exact (Proc.ends_fail he).elim
  | succ n ih =>
    intro b0 out t b he
    obtain ⟨o, t1, t2, rfl, h1, h2⟩ := Proc.ends_bind he
    obtain ⟨o', ho, rfl⟩ := Proc.ends_ask h1
    cases ho
    obtain ⟨r, u1, u2, rfl, g1, g2⟩ := Proc.ends_bind h2
    obtain ⟨rfl, ho⟩ := Proc.ends_some? g1
    have ho : o = some r := ho
    subst ho
    rw [List.nil_append, received_append]
    have e1 : received [⟨Eff.exchange (toSi enc out), (some r : Option OwnerSi)⟩] = [r] := rfl
    rw [e1]
    split at g2
    · next hdone =>
      obtain ⟨rfl, rfl⟩ := Proc.ends_pure g2
      exact ⟨[], r, rfl, hdone, nofun, by simp, by simp⟩
    · next hdone =>
      split at g2
      · exact (Proc.ends_fail g2).elim
      · next hmore =>
        obtain ⟨⟨b1, out'⟩, w1, w2, rfl, f1, f2⟩ := Proc.ends_bind g2
        obtain ⟨ms, r', k1, k2, k3, k4, k5⟩ := ih _ _ _ _ f2
        obtain ⟨c1, c2⟩ := C54_message _ _ _ _ f1
        rw [received_append, received_process ⟨_, f1⟩, List.nil_append, k1]
        refine ⟨r :: ms, r', rfl, k2, ?_, by simp; omega, ?_⟩
        · intro m hm
          rcases List.mem_cons.1 hm with rfl | hm
          · exact ⟨by simpa using hdone, by simpa using hmore⟩
          · exact k3 m hm
        · rw [k5]
          cases b0 with
          | true => simp
          | false => simp [c1]

/-- **C54**: the device is to reboot exactly if some message before the final one has a last reboot instruction asking for
it. The messages received are: at most 999 that are processed, and one that says that all is done (nothing in that one
counts). -/
theorem C54_reboot (enc : Val → Bytes) (dec : Bytes → Option Val) (t : Trace sig) (b : Bool)
    (he : Prog.Ends (perform h enc dec) t (.ok b)) :
    ∃ ms r, received t = ms ++ [r] ∧ r.isDone = true ∧ (∀ m ∈ ms, m.isDone = false ∧ m.isMore = false) ∧
      ms.length < 1000 ∧ (b = true ↔ ∃ m ∈ ms, AsksReboot (siItems dec m.si)) := by
  obtain ⟨mods, t1, t2, rfl, h1, h2⟩ := Proc.ends_bind he
  have e1 : received t1 = [] := received_by (m := .devMod)
    ((only_bind only_there fun _ => only_bind only_there fun _ => only_pure :
      Prog.Only (By .devMod) findModules) t1 ⟨_, h1⟩)
  obtain ⟨o, u1, u2, rfl, g1, g2⟩ := Proc.ends_bind h2
  have e2 : received u1 = [] := received_by (m := .devMod) (only_ask u1 ⟨_, g1⟩)
  obtain ⟨o', w1, w2, rfl, f1, f2⟩ := Proc.ends_bind g2
  obtain ⟨rfl, ho⟩ := Proc.ends_some? f1
  rw [received_append, received_append, e1, e2]
  cases o' with
  | none => cases (Proc.ends_lift f2).2
  | some v =>
    obtain ⟨ms, r, k1, k2, k3, k4, k5⟩ := rounds_reboot enc dec _ _ _ _ _ f2
    exact ⟨ms, r, k1, k2, k3, k4, by simpa using k5⟩

/-! ### Examples -/

namespace Toy

/-- A host whose digests are the length, padded. -/
def host : Host where
  pathPrefix := none
  sshPath := none
  digest t b := (UInt8.ofNat b.length) :: List.replicate (t.digestSize - 1) 0
  trimEnd s := s
  os := "linux".toList
  arch := "x86_64".toList

/-- A host on which every program ends with this code, changes succeed as said, and there is nobody but root. -/
def answer (code : Option Int) (good : Act → Bool) : (op : Op) → op.Ans
  | .does a => good a
  | .exists? _ => false
  | .readText _ => (some [] : Option (List Char))
  | .passwd => (some "root:x:0:0::/root:/bin/sh".toList : Option (List Char))
  | .run _ _ _ => (some ⟨code, [104, 105], []⟩ : Option Output)
  | .osRelease => (some (some "toy".toList) : Option (Option (List Char)))

/-- The surroundings of a device; the state are the messages still to come. -/
def env (code : Option Int) (good : Act → Bool) : List OwnerSi → (e : Eff) → List OwnerSi × e.Ans
  | s, .host _ op => (s, answer code good op)
  | s, .exchange _ => (s.tail, (s.head? : Option OwnerSi))

/-- Processing a message there. -/
def result (code : Option Int) (good : Act → Bool) (l : List Item) : Res Err (Bool × List Item) :=
  (Prog.exec (S := sig) (env code good) [] (process host l)).2

/-- What is done. -/
def trace (code : Option Int) (good : Act → Bool) (l : List Item) : Trace sig :=
  Prog.doings (S := sig) (env code good) [] (process host l)

theorem result_ends (code : Option Int) (good : Act → Bool) (l : List Item) :
    Prog.Ends (process host l) (trace code good l) (result code good l) := Prog.exec_ends _ _ _

theorem trace_does (code : Option Int) (good : Act → Bool) (l : List Item) :
    Prog.Does (process host l) (trace code good l) := ⟨_, result_ends code good l⟩

def all : Act → Bool := fun _ => true

/-- The result without the answer. -/
def outcome (code : Option Int) (good : Act → Bool) (l : List Item) : Res Err Bool :=
  match result code good l with
  | .ok r => .ok r.1
  | .err e => .err e
  | .panic => .panic

theorem outcome_ok {code : Option Int} {good : Act → Bool} {l : List Item} {b : Bool} (h : outcome code good l = .ok b) :
    ∃ out, Prog.Ends (process host l) (trace code good l) (.ok (b, out)) := by
  have := result_ends code good l
  unfold outcome at h
  cases hr : result code good l with
  | ok r =>
    rw [hr] at h this
    cases h
    exact ⟨r.2, this⟩
  | err e => rw [hr] at h; cases h
  | panic => rw [hr] at h; cases h

theorem outcome_err {code : Option Int} {good : Act → Bool} {l : List Item} {e : Err} (h : outcome code good l = .err e) :
    Prog.Ends (process host l) (trace code good l) (.err e) := by
  have := result_ends code good l
  unfold outcome at h
  cases hr : result code good l with
  | ok r => rw [hr] at h; cases h
  | err e => rw [hr] at h this; cases h; exact this
  | panic => rw [hr] at h; cases h

theorem outcome_panic {code : Option Int} {good : Act → Bool} {l : List Item} (h : outcome code good l = .panic) :
    Prog.Ends (process host l) (trace code good l) .panic := by
  have := result_ends code good l
  unfold outcome at h
  cases hr : result code good l with
  | ok r => rw [hr] at h; cases h
  | err e => rw [hr] at h; cases h
  | panic => rw [hr] at h this; exact this

/-- A message using two modules. -/
def message : List Item :=
  [(.command, "active".toList, .bool true), (.reboot, "active".toList, .bool true),
   (.command, "command".toList, .text "ls".toList), (.command, "execute".toList, .bool true),
   (.reboot, "reboot".toList, .bool true)]

end Toy

/-- The hypotheses of `C49_only_active` are met by a message that does something, and its conclusion says something about
it. -/
example : (Toy.trace (some 0) Toy.all Toy.message).map Sigma.fst = [.host .command (.run "ls".toList [] none)] := by
  decide +kernel

/-- The same message without switching on the module is refused, as `C49_inactive_aborts` says. -/
example : Toy.outcome (some 0) Toy.all (Toy.message.tail) = .err .inactive ∧ Toy.trace (some 0) Toy.all (Toy.message.tail) = [] := by
  refine ⟨by decide +kernel, List.eq_nil_of_length_eq_zero (by decide +kernel)⟩

/-- A message as in `C54_message` that asks for a reboot. -/
example : ∃ out, Prog.Ends (process Toy.host Toy.message) (Toy.trace (some 0) Toy.all Toy.message) (.ok (true, out)) :=
  Toy.outcome_ok (by decide +kernel)

/-- A whole exchange as in `C54_reboot`: one empty message and the final one. -/
example : ∃ t, Prog.Ends (perform Toy.host (fun _ => [0]) (fun _ => none)) t (.ok false) :=
  ⟨_, by
    have := Prog.exec_ends (S := sig) (Toy.env (some 0) Toy.all) [⟨false, false, []⟩, ⟨false, true, []⟩]
      (perform Toy.host (fun _ => [0]) (fun _ => none))
    have e : (Prog.exec (S := sig) (Toy.env (some 0) Toy.all) [⟨false, false, []⟩, ⟨false, true, []⟩]
      (perform Toy.host (fun _ => [0]) (fun _ => none))).2 = .ok false := by decide +kernel
    rwa [e] at this⟩

end Verif.SiClient

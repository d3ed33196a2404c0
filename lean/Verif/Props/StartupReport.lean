import Verif.Model.StartupReport
import Verif.Props.StartupSi
/-!
C101: vouchers are reported to rendezvous servers on demand only if the settings say so.
-/
namespace Verif.Startup
open Verif Verif.Settings

section
variable {R : OwnerServer.OwnerEnv} {B : OwnerServer.VStore (Voucher.Voucher R.E)} {cfg : OwnerServer.Config R} {S : Reads} {v : Val}

/-- **C101**, the setting: it has to be there; there is no default. -/
theorem C101_setting (b : Bool) : reportEnabled S v = .ok b ↔ Entry v "report_to_rendezvous_endpoint_enabled" (IsBool S) b :=
  required_iff fun _ _ => boolOf_iff

theorem setting_unique {a b : Bool} (h : Entry v "report_to_rendezvous_endpoint_enabled" (IsBool S) a) (h' : reportEnabled S v = .ok b) :
    b = a := by
  rw [(C101_setting a).2 h] at h'
  cases h'
  rfl

/-- **C101**, settings that say no: whatever is requested, by whomever and in whichever order, no voucher is reported, and the store stays as it
was. -/
theorem C101_disabled_partial (hv : Entry v "report_to_rendezvous_endpoint_enabled" (IsBool S) false) {b : Bool} (hb : reportEnabled S v = .ok b)
    (l : List (Occasion R)) (hl : ∀ e ∈ l, ∃ post path now ls rv, e = .request post path now ls rv) (w : B.W) :
    (∀ vs ∈ (occasions B cfg b l w).1, vs = []) ∧ (occasions B cfg b l w).2 = w := by
  have := setting_unique hv hb
  subst this
  induction l with
  | nil => exact ⟨fun vs h => (nomatch h), rfl⟩
  | cons e l ih =>
    obtain ⟨post, path, now, ls, rv, rfl⟩ := hl e List.mem_cons_self
    obtain ⟨h1, h2⟩ := ih fun e he => hl e (List.mem_cons_of_mem _ he)
    have he : occasion B cfg false (.request post path now ls rv) w = ([], w) := by
      unfold occasion onDemand
      simp
    unfold occasions
    rw [he]
    refine ⟨fun vs hvs => ?_, h2⟩
    rcases List.mem_cons.1 hvs with rfl | hvs
    · rfl
    · exact h1 vs hvs

/-- **C101**, settings that say yes: a request to report goes through all vouchers that are due, and the times granted are kept. -/
theorem C101_enabled (hv : Entry v "report_to_rendezvous_endpoint_enabled" (IsBool S) true) {b : Bool} (hb : reportEnabled S v = .ok b)
    (rest : List (List Char)) (now : Nat) (ls : List Store.Name) (rv : OwnerServer.Outcome R) (w : B.W) {l : List (Voucher.Voucher R.E)}
    (hp : B.pending now ls w = .ok l) :
    occasion B cfg b (.request true ("report-to-rendezvous".toList :: rest) now ls rv) w =
      (l, OwnerServer.move B cfg (.report now ls rv) w) := by
  have := setting_unique hv hb
  subst this
  unfold occasion onDemand OwnerServer.toReport
  simp [hp]

/-- **C101**, other requests: whatever the settings say, they report nothing. -/
theorem C101_elsewhere (b : Bool) {post : Bool} {path : List (List Char)} (h : post = false ∨ ∀ rest, path ≠ "report-to-rendezvous".toList :: rest)
    (now : Nat) (ls : List Store.Name) (rv : OwnerServer.Outcome R) (w : B.W) :
    occasion B cfg b (.request post path now ls rv) w = ([], w) := by
  have : onDemand b post path = false := by
    unfold onDemand
    rcases h with rfl | h
    · rfl
    · cases path with
      | nil => simp
      | cons a rest =>
        have : a ≠ "report-to-rendezvous".toList := fun e => h rest (by rw [e])
        simp only [List.head?_cons, Option.some.injEq, this, decide_false, Bool.and_false, Bool.false_and]
  unfold occasion
  simp only [this, Bool.false_eq_true, if_false]

/-- **C101** is violated: by the documentation (HOWTO.md:519-520), the setting is about reporting as such. But even if it says no, every round of
maintenance goes through all vouchers that are due, to report them. -/
theorem C101_maintenance_violated (_hv : Entry v "report_to_rendezvous_endpoint_enabled" (IsBool S) false) {b : Bool}
    (_hb : reportEnabled S v = .ok b) (now now' : Nat) (ls : List Store.Name) (rv rv' : OwnerServer.Outcome R) (w : B.W)
    {l : List (Voucher.Voucher R.E)} (hp : B.pending now ls (B.maintain now ls w) = .ok l) {x : Voucher.Voucher R.E} (hx : x ∈ l) :
    x ∈ (occasion B cfg b (.round now ls rv now' rv') w).1 ∧
      (occasion B cfg b (.round now ls rv now' rv') w).2 = OwnerServer.move B cfg (.round now ls rv now' rv') w := by
  refine ⟨?_, rfl⟩
  unfold occasion OwnerServer.toReport
  simp only [hp]
  exact List.mem_append.2 (.inl hx)

/-- Whether an occasion is a round of maintenance. -/
def Occasion.isRound : Occasion R → Bool
  | .round .. => true
  | .request .. => false

/-- The move an occasion asks for, if requests to report are served. -/
def Occasion.asks : Occasion R → Option (OwnerServer.Move R)
  | .request true (p :: _) now ls rv => if p = "report-to-rendezvous".toList then some (.report now ls rv) else none
  | .request .. => none
  | .round now ls rv now' rv' => some (.round now ls rv now' rv')

/-- **C101**, histories: what an occasion reports is about the store that the occasions before it left. -/
theorem C101_position (b : Bool) (l1 l2 : List (Occasion R)) (e : Occasion R) (w : B.W) :
    (occasions B cfg b (l1 ++ e :: l2) w).1[l1.length]? = some (occasion B cfg b e (occasions B cfg b l1 w).2).1 ∧
      (occasions B cfg b (l1 ++ e :: l2) w).1.length = l1.length + 1 + l2.length := by
  induction l1 generalizing w with
  | nil =>
    refine ⟨rfl, ?_⟩
    have hl : ∀ (l : List (Occasion R)) (w : B.W), (occasions B cfg b l w).1.length = l.length := by
      intro l
      induction l with
      | nil => intro w; rfl
      | cons a l ih => intro w; exact congrArg (· + 1) (ih _)
    rw [hl]
    simp only [List.nil_append, List.length_cons, List.length_nil]
    omega
  | cons a l1 ih =>
    obtain ⟨h1, h2⟩ := ih (occasion B cfg b a w).2
    refine ⟨h1, ?_⟩
    refine (congrArg (· + 1) h2).trans ?_
    simp only [List.length_cons]
    omega

/-- **C101**, settings that say yes: after any history, the store is that of the reports asked for and of the rounds, in order. -/
theorem C101_history_enabled (hv : Entry v "report_to_rendezvous_endpoint_enabled" (IsBool S) true) {b : Bool} (hb : reportEnabled S v = .ok b)
    (l : List (Occasion R)) (w : B.W) :
    (occasions B cfg b l w).2 = (l.filterMap Occasion.asks).foldl (fun w m => OwnerServer.move B cfg m w) w := by
  have := setting_unique hv hb
  subst this
  induction l generalizing w with
  | nil => rfl
  | cons e l ih =>
    refine (ih (occasion B cfg true e w).2).trans ?_
    rw [List.filterMap_cons]
    cases e with
    | round now ls rv now' rv' => rfl
    | request post path now ls rv =>
      cases post with
      | false => rfl
      | true =>
        cases path with
        | nil => rfl
        | cons p rest =>
          by_cases hp : p = "report-to-rendezvous".toList
          · subst hp; rfl
          · have h1 : Occasion.asks (R := R) (.request true (p :: rest) now ls rv) = none := if_neg hp
            have h2 : occasion B cfg true (.request true (p :: rest) now ls rv) w = ([], w) :=
              C101_elsewhere true (.inr fun r e => hp (List.cons.inj e).1) now ls rv w
            rw [h1, h2]

/-- **C101**, settings that say no, with maintenance: requests have no part in what the store becomes; it is that of the rounds alone. -/
theorem C101_history_disabled (hv : Entry v "report_to_rendezvous_endpoint_enabled" (IsBool S) false) {b : Bool} (hb : reportEnabled S v = .ok b)
    (l : List (Occasion R)) (w : B.W) :
    (occasions B cfg b l w).2 = ((l.filter Occasion.isRound).filterMap Occasion.asks).foldl (fun w m => OwnerServer.move B cfg m w) w := by
  have := setting_unique hv hb
  subst this
  induction l generalizing w with
  | nil => rfl
  | cons e l ih =>
    refine (ih (occasion B cfg false e w).2).trans ?_
    cases e with
    | round now ls rv now' rv' => rfl
    | request post path now ls rv =>
      have h : occasion B cfg false (.request post path now ls rv) w = ([], w) := by
        unfold occasion onDemand
        simp
      rw [h]
      rfl

end

end Verif.Startup

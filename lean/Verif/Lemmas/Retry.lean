import Verif.Spec.Retry
import Verif.Lemmas.Life
/-!
Facts used by `Props/Retry`: a lost message makes TO1 and TO2 fail, and then something else is tried.
-/
namespace Verif.Life
open Verif Verif.Voucher Verif.Store Verif.Types Verif.Device

variable {R : Whole} {c : Bool} {A : Http.Aead}

/-- A message of `t` was lost. -/
def Lossy (t : Trace (sig R.toDevEnv)) : Prop := ∃ d ∈ t, lost d = true

/-- After a lost message the program fails (without doing more than that). -/
def LossFails {ε α : Type} (p : Proc (sig R.toDevEnv) ε α) : Prop := ∀ t r, Prog.Ends p t r → Lossy t → ∃ e, r = .err e

theorem not_lossy_nil : ¬ Lossy (R := R) [] := fun ⟨_, h, _⟩ => by cases h

theorem lossy_append {t1 t2 : Trace (sig R.toDevEnv)} (h : Lossy (t1 ++ t2)) : Lossy t1 ∨ Lossy t2 := by
  obtain ⟨d, hd, hl⟩ := h
  rcases List.mem_append.1 hd with hd | hd
  · exact .inl ⟨d, hd, hl⟩
  · exact .inr ⟨d, hd, hl⟩

theorem fails_bind {ε α β : Type} {p : Proc (sig R.toDevEnv) ε α} {f : α → Proc (sig R.toDevEnv) ε β} (hp : LossFails p) (hf : ∀ a, LossFails (f a)) :
    LossFails (p >>= f : Proc (sig R.toDevEnv) ε β) := by
  intro t r he hl
  obtain ⟨x, t1, t2, rfl, h1, h2⟩ := Prog.ends_bind he
  rcases lossy_append hl with hl | hl
  · obtain ⟨e, rfl⟩ := hp _ _ h1 hl
    exact ⟨e, (Prog.ends_ret h2).2.symm⟩
  · match x, h1, h2 with
    | .ok a, h1, h2 => exact hf a _ _ h2 hl
    | .err e, _, h2 => exact ⟨e, (Prog.ends_ret h2).2.symm⟩
    | .panic, _, h2 =>
      rw [(Prog.ends_ret h2).1] at hl
      exact absurd hl not_lossy_nil

/-- Without the network nothing is lost. -/
theorem fails_quiet {ε α : Type} {p : Proc (sig R.toDevEnv) ε α} (hp : Prog.Only (S := sig R.toDevEnv) (fun e => ∀ s, e ≠ .net s) p) : LossFails p := by
  intro t r he ⟨d, hd, hl⟩
  have := hp t ⟨_, he⟩ d hd
  match d, hl with
  | ⟨.net s, x⟩, _ => exact absurd rfl (this s)

theorem fails_mapErr {ε ε' α : Type} {f : ε → ε'} {p : Proc (sig R.toDevEnv) ε α} (hp : LossFails p) : LossFails (Proc.mapErr f p) := by
  intro t r he hl
  obtain ⟨x, t1, t2, rfl, h1, h2⟩ := Prog.ends_bind he
  have ht2 : t2 = [] := by
    match x, h2 with
    | .ok a, h2 => exact (Prog.ends_ret h2).1
    | .err e, h2 => exact (Prog.ends_ret h2).1
    | .panic, h2 => exact (Prog.ends_ret h2).1
  subst ht2
  rw [List.append_nil] at hl
  obtain ⟨e, rfl⟩ := hp _ _ h1 hl
  exact ⟨_, (Prog.ends_ret h2).2.symm⟩

theorem fails_sendQ {α : Type} {dec : Bytes → Option α} {cl : Http.Client} {om sm : MsgType} {plain : Bytes}
    {nk : Option (Option Http.Keys)} : LossFails (Http.sendQ (X := ops R.toDevEnv) A dec cl om sm plain nk) := by
  intro t r he hl
  unfold Http.sendQ at he
  split at he
  · rw [(Prog.ends_ret he).1] at hl
    exact absurd hl not_lossy_nil
  · obtain ⟨iv, t1, rfl, h1⟩ := Prog.ends_act he
    have hl1 : Lossy t1 := by
      rcases lossy_append (t1 := [_]) hl with ⟨d, hd, h⟩ | h
      · rw [List.mem_singleton.1 hd] at h
        cases h
      · exact h
    dsimp only [Prog.bind] at h1
    cases hb : Http.encryptWith A cl.keys iv plain with
    | none =>
      rw [hb] at h1
      rw [(Prog.ends_ret h1).1] at hl1
      exact absurd hl1 not_lossy_nil
    | some body =>
      rw [hb] at h1
      obtain ⟨x, t2, rfl, h2⟩ := Prog.ends_act (S := sig R.toDevEnv) (e := .net ⟨om, cl.token, body⟩) h1
      cases x with
      | none => exact ⟨_, (Prog.ends_ret h2).2.symm⟩
      | some q =>
        exfalso
        have ht2 : t2 = [] := by
          have h2 : Prog.Ends (Http.receivedQ (Http.receive A dec (({ cl with last := some sm } : Http.Client).setKeys nk) sm q) :
            Proc (sig R.toDevEnv) _ _) t2 r := h2
          match Http.receive A dec (({ cl with last := some sm } : Http.Client).setKeys nk) sm q, h2 with
          | (_, .ok _), h2 => exact (Prog.ends_ret h2).1
          | (_, .err _), h2 => exact (Prog.ends_ret h2).1
          | (_, .panic), h2 => exact (Prog.ends_ret h2).1
        subst ht2
        obtain ⟨d, hd, h⟩ := hl1
        rw [List.mem_singleton.1 hd] at h
        cases h

theorem fails_say {α : Type} {dec : Bytes → Option α} {cl : Http.Client} {om sm : MsgType} {plain : Bytes}
    {nk : Option (Option Http.Keys)} : LossFails (say A dec cl om sm plain nk : Device.Step R.toDevEnv _) := fails_mapErr fails_sendQ

/-! ### Service info -/

/-- After a lost exchange service info fails. -/
def SiFails {α : Type} (p : Proc SiClient.sig SiClient.Err α) : Prop :=
  ∀ t q, Prog.Steps p t q → (∃ si, (⟨.exchange si, (none : Option ServiceInfo.OwnerSi)⟩ : SiClient.sig.Deed) ∈ t) →
    ∃ e, q = Prog.ret (.err e)

theorem si_bind {α β : Type} {p : Proc SiClient.sig SiClient.Err α} {f : α → Proc SiClient.sig SiClient.Err β} (hp : SiFails p)
    (hf : ∀ a, SiFails (f a)) : SiFails (p >>= f : Proc SiClient.sig SiClient.Err β) := by
  rintro t q he ⟨si, hl⟩
  rcases Prog.steps_bind he with ⟨p', h1, rfl⟩ | ⟨x, t1, t2, rfl, h1, h2⟩
  · obtain ⟨e, rfl⟩ := hp _ _ h1 ⟨si, hl⟩
    exact ⟨e, rfl⟩
  rcases List.mem_append.1 hl with hl | hl
  · obtain ⟨e, he⟩ := hp _ _ h1 ⟨si, hl⟩
    cases he
    exact ⟨e, (Prog.steps_ret h2).2⟩
  · match x, h1, h2 with
    | .ok a, h1, h2 => exact hf a _ _ h2 ⟨si, hl⟩
    | .err e, _, h2 => exact ⟨e, (Prog.steps_ret h2).2⟩
    | .panic, _, h2 =>
      rw [(Prog.steps_ret h2).1] at hl
      cases hl

theorem si_quiet {α : Type} {p : Proc SiClient.sig SiClient.Err α} (hp : Prog.Only (S := SiClient.sig) (fun e => ∀ si, e ≠ .exchange si) p) :
    SiFails p := by
  rintro t r he ⟨si, hl⟩
  exact absurd rfl (hp t ⟨_, he⟩ _ hl si)

theorem si_rounds {h : SiClient.Host} {enc : ServiceInfo.Val → Bytes} {dec : Bytes → Option ServiceInfo.Val} :
    ∀ (n : Nat) (b : Bool) (out : List ServiceInfo.Item), SiFails (SiClient.rounds h enc dec n b out)
  | 0, _, _ => si_quiet Proc.only_fail
  | n + 1, b, out => by
    rintro t q he ⟨si, hl⟩
    unfold SiClient.rounds at he
    rcases Prog.steps_act (S := SiClient.sig) (e := .exchange (ServiceInfo.toSi enc out)) he with ⟨rfl, rfl⟩ | ⟨x, t1, rfl, h1⟩
    · cases hl
    dsimp only [Prog.bind] at h1
    cases x with
    | none => exact ⟨_, (Prog.steps_ret h1).2⟩
    | some m =>
      have h1 : Prog.Steps (if m.isDone then pure b else if m.isMore then Proc.fail .more else do
        let (b', out) ← SiClient.process h (siItems dec m.si)
        SiClient.rounds h enc dec n (if b then b else b') out : Proc SiClient.sig SiClient.Err Bool) t1 q := h1
      rcases List.mem_cons.1 hl with hl | hl
      · cases hl
      by_cases hd : m.isDone = true
      · rw [if_pos hd] at h1
        rw [(Prog.steps_ret h1).1] at hl
        cases hl
      · rw [if_neg hd] at h1
        by_cases hm : m.isMore = true
        · rw [if_pos hm] at h1
          rw [(Prog.steps_ret h1).1] at hl
          cases hl
        · rw [if_neg hm] at h1
          refine si_bind ?_ (fun x => ?_) _ _ h1 ⟨si, hl⟩
          · refine si_quiet fun t ht d hd si e => ?_
            obtain ⟨m', op, e', -⟩ := SiClient.C49_only_active _ t ht d hd
            rw [e'] at e
            cases e
          · exact si_rounds n _ _

theorem si_perform {h : SiClient.Host} {enc : ServiceInfo.Val → Bytes} {dec : Bytes → Option ServiceInfo.Val} :
    SiFails (SiClient.perform h enc dec) := by
  refine si_bind (si_quiet ?_) fun ms => si_bind (si_quiet (Proc.only_ask nofun)) fun os => si_bind (si_quiet Proc.only_some?) fun os => ?_
  · exact Proc.only_bind (Proc.only_bind (Proc.only_ask nofun) fun _ => Proc.only_pure) fun _ =>
      Proc.only_bind (Proc.only_bind (Proc.only_ask nofun) fun _ => Proc.only_pure) fun _ => Proc.only_pure
  · cases os with
    | none => exact si_quiet Proc.only_lift
    | some v => exact si_rounds _ _ _

theorem siRun_loss {α : Type} : ∀ (p : Prog SiClient.sig α) (cl : Http.Client) (t : Trace (sig R.toDevEnv)) (r : Res (Http.Client × DevErr) (Http.Client × α)),
    Prog.Ends (siRun A p cl : Device.Step R.toDevEnv _) t r →
    ∃ ts q, Prog.Steps p ts q ∧ (Lossy t → ∃ si, (⟨.exchange si, (none : Option ServiceInfo.OwnerSi)⟩ : SiClient.sig.Deed) ∈ ts) ∧
      ((∃ cl' a, r = .ok (cl', a) ∧ q = .ret a) ∨ r = .panic ∧ ∀ a, q ≠ .ret a) := by
  intro p
  induction p with
  | ret x =>
    intro cl t r h
    obtain ⟨rfl, rfl⟩ := Prog.ends_ret h
    exact ⟨[], _, .nil _, fun h => absurd h not_lossy_nil, .inl ⟨_, _, rfl, rfl⟩⟩
  | act e k ih =>
    intro cl t r h
    cases e with
    | host m op =>
      obtain ⟨b, t', rfl, h1⟩ := Prog.ends_act h
      obtain ⟨ts, q, h2, h3, h4⟩ := ih b cl t' r h1
      refine ⟨⟨.host m op, b⟩ :: ts, q, .cons h2, fun hl => ?_, h4⟩
      rcases lossy_append (t1 := [_]) hl with ⟨d, hd, h⟩ | h
      · rw [List.mem_singleton.1 hd] at h
        cases h
      · obtain ⟨si, h⟩ := h3 h
        exact ⟨si, List.mem_cons_of_mem _ h⟩
    | exchange si =>
      unfold siRun at h
      obtain ⟨x, t1, t2, rfl, h1, h2⟩ := Prog.ends_bind h
      cases x with
      | panic =>
        obtain ⟨rfl, rfl⟩ := Prog.ends_ret h2
        refine ⟨[], _, .nil _, fun hl => ?_, .inr ⟨rfl, nofun⟩⟩
        rw [List.append_nil] at hl
        obtain ⟨e, he⟩ := fails_sendQ _ _ h1 hl
        cases he
      | err x =>
        obtain ⟨ts, q, h3, h4, h5⟩ := ih none x.1 t2 r h2
        exact ⟨⟨.exchange si, (none : Option ServiceInfo.OwnerSi)⟩ :: ts, q, .cons h3, fun _ => ⟨si, List.mem_cons_self⟩, h5⟩
      | ok x =>
        obtain ⟨ts, q, h3, h4, h5⟩ := ih (some x.2) x.1 t2 r h2
        refine ⟨⟨.exchange si, (some x.2 : Option ServiceInfo.OwnerSi)⟩ :: ts, q, .cons h3, fun hl => ?_, h5⟩
        rcases lossy_append hl with hl | hl
        · obtain ⟨e, he⟩ := fails_sendQ _ _ h1 hl
          cases he
        · obtain ⟨si', h⟩ := h4 hl
          exact ⟨si', List.mem_cons_of_mem _ h⟩

theorem fails_serviceInfos {h : SiClient.Host} {cl : Http.Client} : LossFails (serviceInfos A h cl : Device.Step R.toDevEnv _) := by
  intro t r he hl
  obtain ⟨x, t1, t2, rfl, h1, h2⟩ := Prog.ends_bind he
  obtain ⟨ts, q, h3, h4, h5⟩ := siRun_loss _ _ _ _ h1
  have ht2 : t2 = [] := by
    match x, h2 with
    | .ok (_, .ok _), h2 => exact (Prog.ends_ret h2).1
    | .ok (_, .err _), h2 => exact (Prog.ends_ret h2).1
    | .ok (_, .panic), h2 => exact (Prog.ends_ret h2).1
    | .err e, h2 => exact (Prog.ends_ret h2).1
    | .panic, h2 => exact (Prog.ends_ret h2).1
  subst ht2
  rw [List.append_nil] at hl
  obtain ⟨e, rfl⟩ := si_perform _ _ h3 (h4 hl)
  rcases h5 with ⟨cl', a, rfl, ha⟩ | ⟨-, hq⟩
  · cases ha
    exact ⟨_, (Prog.ends_ret h2).2.symm⟩
  · exact absurd rfl (hq _)

/-! ### TO1 and TO2 -/

section
variable {w : Credential.Surroundings} {h : SiClient.Host} {l : Credential.Location} {cr : Credential.Cred}

theorem fails_entries : ∀ (k : Nat) {cl : Http.Client} {i : Nat} {got : List Bytes}, LossFails (entriesFrom (R := R.toDevEnv) c A cl i got k)
  | 0, _, _, _ => fails_quiet Proc.only_pure
  | k + 1, _, _, _ => fails_bind fails_say fun _ => fails_bind (fails_quiet Proc.only_check) fun _ => fails_entries k

theorem fails_to1 {cl : Http.Client} : LossFails (to1 c A cr cl : Device.Step R.toDevEnv _) :=
  fails_bind (fails_bind fails_say fun _ => fails_quiet (Proc.only_bind Proc.only_check fun _ =>
    Proc.only_bind (only_signToken nofun) fun _ => Proc.only_pure)) fun _ =>
  fails_bind fails_say fun _ => fails_quiet Proc.only_pure

theorem fails_to2 {cl : Http.Client} {to1d : Sign1} : LossFails (to2 c A w h l cr to1d cl : Device.Step R.toDevEnv _) :=
  fails_bind (fails_bind (fails_quiet (only_freshNonce nofun)) fun _ =>
    fails_bind (fails_bind fails_say fun _ => fails_quiet
      (Proc.only_bind only_given fun _ => Proc.only_bind Proc.only_some? fun _ => Proc.only_pure)) fun _ =>
    fails_bind (fails_bind (fails_entries _) fun _ => fails_quiet (Proc.only_bind only_given fun _ => Proc.only_pure)) fun _ =>
    fails_quiet (Proc.only_bind (Proc.only_bind Proc.only_some? fun _ => Proc.only_bind (Http.only_app (X := ops R.toDevEnv) nofun) fun _ =>
      Proc.only_bind Proc.only_some? fun _ => Proc.only_bind only_given fun _ => Proc.only_pure) fun _ =>
      Proc.only_pure)) fun _ =>
  fails_bind (fails_quiet (only_freshNonce nofun)) fun _ =>
  fails_bind (fails_bind (fails_quiet (only_signToken nofun)) fun _ => fails_bind fails_say fun _ => fails_quiet Proc.only_pure) fun _ =>
  fails_bind (fails_bind fails_say fun _ => fails_quiet Proc.only_pure) fun _ =>
  fails_bind fails_serviceInfos fun _ =>
  fails_bind (fails_quiet (Proc.only_bind (Proc.only_mapErr (only_files (fun _ => nofun) _)) fun _ =>
    Proc.only_mapErr (only_files (fun _ => nofun) _))) fun _ =>
  fails_bind (fails_bind fails_say fun _ => fails_quiet Proc.only_check) fun _ => fails_quiet Proc.only_pure

/-! ### One attempt after another -/

/-- Replies have printable headers. -/
def Printable (t : Trace (sig R.toDevEnv)) : Prop :=
  ∀ s (q : Http.NetReply), (⟨.net s, some q⟩ : (sig R.toDevEnv).Deed) ∈ t → q.auth ≠ some none

theorem receive_legible {α : Type} {dec : Bytes → Option α} {cl : Http.Client} {sm : MsgType} {q : Http.NetReply} (hq : q.auth ≠ some none) :
    (Http.receive A dec cl sm q).2 ≠ .panic := by
  have ho : ∀ k t, Http.outcome A dec k sm t q ≠ .panic := by
    intro k t
    unfold Http.outcome
    repeat' split
    all_goals nofun
  have ht : Http.replyType q ≠ .panic := by
    unfold Http.replyType
    repeat' split
    all_goals nofun
  unfold Http.receive
  split
  · nofun
  · contradiction
  · split
    · contradiction
    · exact ho _ _
    · exact ho _ _

theorem sendQ_legible {α : Type} {dec : Bytes → Option α} {cl : Http.Client} {om sm : MsgType} {plain : Bytes}
    {nk : Option (Option Http.Keys)} {t : Trace (sig R.toDevEnv)} {r : Res (Http.Client × Http.CErr) (Http.Client × α)}
    (he : Prog.Ends (Http.sendQ (X := ops R.toDevEnv) A dec cl om sm plain nk) t r) (hp : Printable t) : r ≠ .panic := by
  unfold Http.sendQ at he
  split at he
  · rw [← (Prog.ends_ret he).2]
    nofun
  · obtain ⟨iv, t1, rfl, h1⟩ := Prog.ends_act he
    dsimp only [Prog.bind] at h1
    cases hb : Http.encryptWith A cl.keys iv plain with
    | none =>
      rw [hb] at h1
      rw [← (Prog.ends_ret h1).2]
      nofun
    | some body =>
      rw [hb] at h1
      obtain ⟨x, t2, rfl, h2⟩ := Prog.ends_act (S := sig R.toDevEnv) (e := .net ⟨om, cl.token, body⟩) h1
      cases x with
      | none =>
        rw [← (Prog.ends_ret h2).2]
        nofun
      | some q =>
        have h2 : Prog.Ends (Http.receivedQ (Http.receive A dec (({ cl with last := some sm } : Http.Client).setKeys nk) sm q) :
          Proc (sig R.toDevEnv) _ _) t2 r := h2
        have hq : q.auth ≠ some none := hp ⟨om, cl.token, body⟩ q (List.mem_cons_of_mem _ List.mem_cons_self)
        have := receive_legible (A := A) (dec := dec) (cl := ({ cl with last := some sm } : Http.Client).setKeys nk) (sm := sm) hq
        match hx : Http.receive A dec (({ cl with last := some sm } : Http.Client).setKeys nk) sm q, h2 with
        | (_, .ok _), h2 =>
          rw [← (Prog.ends_ret h2).2]
          nofun
        | (_, .err _), h2 =>
          rw [← (Prog.ends_ret h2).2]
          nofun
        | (_, .panic), h2 =>
          rw [hx] at this
          exact absurd rfl this

/-- An attempt, and what then happens. -/
theorem orElse_cases {α : Type} {p : Device.Step R.toDevEnv α} {q : Proc (sig R.toDevEnv) DevErr (Option α)}
    (hp : Prog.Only (S := sig R.toDevEnv) Inside p) (hq : Head q)
    {t : Trace (sig R.toDevEnv)} {r : Res DevErr (Option α)} (he : Prog.Ends (orElse A p q) t r) (hpr : Printable t) :
    ∃ b b' post s, t = (b ++ b') ++ post ∧ (∀ d ∈ b ++ b', ¬ Turns d.1) ∧ (∀ d ∈ post.head?, Turns d.1) ∧ Prog.Ends p b s ∧
      ((∃ x, s = .ok x ∧ b' = [] ∧ post = [] ∧ r = .ok (some x)) ∨ (s = .panic ∧ b' = [] ∧ post = [] ∧ r = .panic) ∨
        (∃ e, s = .err e) ∧ Prog.Ends q post r) := by
  obtain ⟨x1, a, post, rfl, h1, h2⟩ := Prog.ends_bind he
  have ha : ∀ d ∈ a, ¬ Turns d.1 := inside_reporting hp a ⟨_, h1⟩
  obtain ⟨x2, b1, b2, rfl, h3, h4⟩ := Prog.ends_bind h1
  obtain ⟨x3, b3, b4, rfl, h5, h6⟩ := Prog.ends_bind h3
  match x3, h5, h6 with
  | .ok x, h5, h6 =>
    obtain ⟨rfl, rfl⟩ := Prog.ends_ret h6
    obtain ⟨rfl, rfl⟩ := Prog.ends_ret h4
    obtain ⟨rfl, rfl⟩ := Prog.ends_ret h2
    exact ⟨b3, [], [], _, by simp, by simpa using ha, nofun, h5, .inl ⟨x, rfl, rfl, rfl, rfl⟩⟩
  | .panic, h5, h6 =>
    obtain ⟨rfl, rfl⟩ := Prog.ends_ret h6
    obtain ⟨rfl, rfl⟩ := Prog.ends_ret h4
    obtain ⟨rfl, rfl⟩ := Prog.ends_ret h2
    exact ⟨b3, [], [], _, by simp, by simpa using ha, nofun, h5, .inr (.inl ⟨rfl, rfl, rfl, rfl⟩)⟩
  | .err (cl, e), h5, h6 =>
    have h6 : Prog.Ends (sendError A cl e >>= fun _ => Proc.fail e : Proc (sig R.toDevEnv) DevErr α) b4 x2 := h6
    obtain ⟨x4, b5, b6, rfl, h7, h8⟩ := Prog.ends_bind h6
    have hx4 : x4 ≠ .panic := by
      obtain ⟨id, b7, rfl, h9⟩ := Prog.ends_act (S := sig R.toDevEnv) (e := .app .uuid) h7
      dsimp only [Prog.bind] at h9
      obtain ⟨x5, b8, b9, rfl, h10, h11⟩ := Prog.ends_bind h9
      obtain ⟨x6, b10, b11, rfl, h12, h13⟩ := Prog.ends_bind h10
      obtain ⟨x7, b12, b13, rfl, h14, h15⟩ := Prog.ends_bind h12
      have hx7 : x7 ≠ .panic := sendQ_legible h14 fun s q hs => hpr s q (by simp [hs])
      have hx6 : ∃ o, x6 = .ok o := by
        match x7, hx7, h15 with
        | .ok _, _, h15 => exact ⟨_, (Prog.ends_ret h15).2.symm⟩
        | .err _, _, h15 => exact ⟨_, (Prog.ends_ret h15).2.symm⟩
      obtain ⟨o, rfl⟩ := hx6
      obtain ⟨-, rfl⟩ := Prog.ends_ret h13
      rw [← (Prog.ends_ret h11).2]
      nofun
    have hx2 : ∃ e', x2 = .err e' ∧ b6 = [] := by
      match x4, hx4, h8 with
      | .ok _, _, h8 => exact ⟨_, (Prog.ends_ret h8).2.symm, (Prog.ends_ret h8).1⟩
      | .err _, _, h8 => exact ⟨_, (Prog.ends_ret h8).2.symm, (Prog.ends_ret h8).1⟩
    obtain ⟨e', rfl, rfl⟩ := hx2
    obtain ⟨rfl, rfl⟩ := Prog.ends_ret h4
    have h2 : Prog.Ends q post r := h2
    exact ⟨b3, b5, post, _, by simp, by simpa using ha, hq _ _ h2, h5, .inr (.inr ⟨⟨_, rfl⟩, h2⟩)⟩

/-- One attempt alone. -/
theorem orElse_solo {α : Type} {p : Device.Step R.toDevEnv α} {q : Proc (sig R.toDevEnv) DevErr (Option α)}
    {t : Trace (sig R.toDevEnv)} {r : Res DevErr (Option α)} (he : Prog.Ends (orElse A p q) t r) :
    ∃ a post r', t = a ++ post ∧ Prog.Ends (orElse A p (pure none)) a r' ∧ (r' = .ok none ∧ Prog.Ends q post r ∨ r' ≠ .ok none ∧ post = [] ∧ r = r') := by
  obtain ⟨x1, a, post, rfl, h1, h2⟩ := Prog.ends_bind he
  have key : ∀ r', Prog.Ends (orElse A p (pure none)) (a ++ []) r' → Prog.Ends (orElse A p (pure none)) a r' := fun r' h => by rwa [List.append_nil] at h
  match x1, h1, h2 with
  | .ok (some s), h1, h2 =>
    obtain ⟨rfl, rfl⟩ := Prog.ends_ret h2
    exact ⟨a, [], _, rfl, key _ (Prog.bind_steps h1 (.nil _)), .inr ⟨nofun, rfl, rfl⟩⟩
  | .ok none, h1, h2 => exact ⟨a, post, .ok none, rfl, key _ (Prog.bind_steps h1 (.nil _)), .inl ⟨rfl, h2⟩⟩
  | .err e, h1, h2 =>
    obtain ⟨rfl, rfl⟩ := Prog.ends_ret h2
    exact ⟨a, [], _, rfl, key _ (Prog.bind_steps h1 (.nil _)), .inr ⟨nofun, rfl, rfl⟩⟩
  | .panic, h1, h2 =>
    obtain ⟨rfl, rfl⟩ := Prog.ends_ret h2
    exact ⟨a, [], _, rfl, key _ (Prog.bind_steps h1 (.nil _)), .inr ⟨nofun, rfl, rfl⟩⟩

/-- If a message gets lost, nothing is learnt from a rendezvous server. -/
theorem getTo1d_lossy {u : String} {a : Trace (sig R.toDevEnv)} {r : Res DevErr (Option Sign1)}
    (he : Prog.Ends (getTo1d c A cr [u]) (connected u :: a) r) (hp : Printable a) (hl : Lossy a) : r = .ok none := by
  rw [getTo1d_cons] at he
  obtain ⟨y, t1, e, he2⟩ := Prog.ends_act he
  cases e
  obtain ⟨b, b', post, s, rfl, h1, h2, h3, h4⟩ := orElse_cases inside_to1 getTo1d_head he2 hp
  rcases h4 with ⟨x, rfl, rfl, rfl, -⟩ | ⟨rfl, rfl, rfl, -⟩ | ⟨-, h5⟩
  · obtain ⟨e, he⟩ := fails_to1 _ _ h3 (by simpa using hl)
    cases he
  · obtain ⟨e, he⟩ := fails_to1 _ _ h3 (by simpa using hl)
    cases he
  · exact (Prog.ends_ret h5).2.symm

/-- `t` is a part of `T`, at whose end the device turns to something else. -/
def Part (T t : Trace (sig R.toDevEnv)) : Prop := ∃ pre post, T = pre ++ (t ++ post) ∧ ∀ d ∈ post.head?, Turns d.1

theorem part_leg {T : Trace (sig R.toDevEnv)} {u : String} {a post : Trace (sig R.toDevEnv)} (h : Part T (connected u :: (a ++ post)))
    (ha : ∀ d ∈ a, ¬ Turns d.1) (hp : ∀ d ∈ post.head?, Turns d.1) : Leg T u a := by
  obtain ⟨pre, post', rfl, h'⟩ := h
  exact ⟨pre, post ++ post', by simp, ha, head_append hp h'⟩

theorem part_right {T t1 t2 : Trace (sig R.toDevEnv)} (h : Part T (t1 ++ t2)) : Part T t2 := by
  obtain ⟨pre, post, rfl, h'⟩ := h
  exact ⟨pre ++ t1, post, by simp, h'⟩

theorem part_left {T t1 t2 : Trace (sig R.toDevEnv)} (h : Part T (t1 ++ t2)) (h2 : ∀ d ∈ t2.head?, Turns d.1) : Part T t1 := by
  obtain ⟨pre, post, rfl, h'⟩ := h
  exact ⟨pre, t2 ++ post, by simp, head_append h2 h'⟩

theorem part_sub {T t : Trace (sig R.toDevEnv)} (h : Part T t) : ∀ d ∈ t, d ∈ T := by
  obtain ⟨pre, post, rfl, -⟩ := h
  intro d hd
  simp [hd]

theorem losses_append (t1 t2 : Trace (sig R.toDevEnv)) : losses (t1 ++ t2) = losses t1 + losses t2 := by
  simp [losses]

theorem losses_pos {t : Trace (sig R.toDevEnv)} (h : Lossy t) : 1 ≤ losses t := by
  obtain ⟨d, hd, hl⟩ := h
  exact List.length_pos_iff.2 (List.ne_nil_of_mem (List.mem_filter.2 ⟨hd, hl⟩))

variable {T : Trace (sig R.toDevEnv)}

/-- Asking one rendezvous server after another. -/
theorem getTo1d_loop {P : Sign1 → Prop} : ∀ (us : List String),
    (∀ u ∈ us, ∀ a s, Leg T u a → Prog.Ends (getTo1d c A cr [u]) (connected (R := R.toDevEnv) u :: a) s →
      (∃ x, s = .ok (some x) ∧ P x) ∨ s = .ok none ∧ 1 ≤ losses a) →
    ∀ (t : Trace (sig R.toDevEnv)) (r : Res DevErr (Option Sign1)), Part T t → Prog.Ends (getTo1d c A cr us) t r →
    (∃ x, r = .ok (some x) ∧ P x) ∨ r = .ok none ∧ (us ≠ [] → 1 ≤ losses t)
  | [], _, t, r, _, he => .inr ⟨(Prog.ends_ret he).2.symm, fun h => absurd rfl h⟩
  | u :: us, hl, t, r, hp, he => by
    rw [getTo1d_cons] at he
    obtain ⟨y, t1, rfl, he2⟩ := Prog.ends_act he
    obtain ⟨a, post, r', rfl, h1, h2⟩ := orElse_solo he2
    have ha : ∀ d ∈ a, ¬ Turns d.1 := by
      obtain ⟨x1, a1, a2, rfl, h3, h4⟩ := Prog.ends_bind h1
      have : a2 = [] := by
        match x1, h4 with
        | .ok (some s), h4 => exact (Prog.ends_ret h4).1
        | .ok none, h4 => exact (Prog.ends_ret h4).1
        | .err e, h4 => exact (Prog.ends_ret h4).1
        | .panic, h4 => exact (Prog.ends_ret h4).1
      subst this
      rw [List.append_nil]
      exact inside_reporting inside_to1 a1 ⟨_, h3⟩
    have hpost : ∀ d ∈ post.head?, Turns d.1 := by
      rcases h2 with ⟨-, h⟩ | ⟨-, rfl, -⟩
      · exact getTo1d_head _ _ h
      · nofun
    have hs : Prog.Ends (getTo1d c A cr [u]) (connected (R := R.toDevEnv) u :: a) r' := by
      rw [getTo1d_cons]
      exact .cons h1
    rcases hl u List.mem_cons_self a r' (part_leg hp ha hpost) hs with ⟨x, rfl, hx⟩ | ⟨rfl, hb⟩
    · rcases h2 with ⟨h, -⟩ | ⟨-, -, rfl⟩
      · cases h
      · exact .inl ⟨x, rfl, hx⟩
    · rcases h2 with ⟨-, h5⟩ | ⟨h, -⟩
      · have hpp : Part T post := part_right (t1 := connected u :: a) hp
        rcases getTo1d_loop us (fun u' hu' => hl u' (List.mem_cons_of_mem _ hu')) post r hpp h5 with h | ⟨rfl, -⟩
        · exact .inl h
        · refine .inr ⟨rfl, fun _ => ?_⟩
          rw [show (⟨.app (.connect u), y⟩ :: (a ++ post) : Trace (sig R.toDevEnv)) = [⟨.app (.connect u), y⟩] ++ (a ++ post) by simp,
            losses_append, losses_append]
          omega
      · exact absurd rfl h

/-- Trying one address after another. -/
theorem tryAddrs_loop (hT : Printable T) {to1d : Sign1} : ∀ (us : List String),
    (∀ u ∈ us, ∀ b b' s, Leg T u (b ++ b') → Prog.Ends (to2 c A w h l cr to1d .new : Device.Step R.toDevEnv _) b s →
      (∃ x, s = .ok x) ∨ (∃ e, s = .err e) ∧ 1 ≤ losses b) →
    ∀ (t : Trace (sig R.toDevEnv)) (r : Res DevErr (Option Bool)), Part T t → Prog.Ends (tryAddrs c A w h l cr to1d us) t r →
    (∃ x u b, r = .ok (some x) ∧ u ∈ us ∧ Leg T u b ∧ Prog.Ends (to2 c A w h l cr to1d .new : Device.Step R.toDevEnv _) b (.ok x)) ∨
      r = .ok none ∧ (us ≠ [] → 1 ≤ losses t)
  | [], _, t, r, _, he => .inr ⟨(Prog.ends_ret he).2.symm, fun h => absurd rfl h⟩
  | u :: us, hl, t, r, hp, he => by
    rw [tryAddrs_cons] at he
    obtain ⟨y, t1, rfl, he2⟩ := Prog.ends_act he
    obtain ⟨b, b', post, s, rfl, h1, h2, h3, h4⟩ := orElse_cases inside_to2 tryAddrs_head he2
      (fun s q hs => hT s q (part_sub hp _ (List.mem_cons_of_mem _ hs)))
    have hleg : Leg T u (b ++ b') := part_leg hp h1 h2
    rcases hl u List.mem_cons_self b b' s hleg h3 with ⟨x, rfl⟩ | ⟨⟨e, rfl⟩, hb⟩
    · rcases h4 with ⟨x', h, rfl, -, rfl⟩ | ⟨h, -⟩ | ⟨⟨e, h⟩, -⟩
      · cases h
        exact .inl ⟨x, u, b, rfl, List.mem_cons_self, by simpa using hleg, h3⟩
      · cases h
      · cases h
    · rcases h4 with ⟨x', h, -⟩ | ⟨h, -⟩ | ⟨-, h5⟩
      · cases h
      · cases h
      · have hpp : Part T post := part_right (t1 := connected u :: (b ++ b')) hp
        rcases tryAddrs_loop hT us (fun u' hu' => hl u' (List.mem_cons_of_mem _ hu')) post r hpp h5 with
          ⟨x, u', b2, e1, e2, e3, e4⟩ | ⟨rfl, -⟩
        · exact .inl ⟨x, u', b2, e1, List.mem_cons_of_mem _ e2, e3, e4⟩
        · refine .inr ⟨rfl, fun _ => ?_⟩
          rw [show (⟨.app (.connect u), y⟩ :: (b ++ b' ++ post) : Trace (sig R.toDevEnv)) = [⟨.app (.connect u), y⟩] ++ (b ++ (b' ++ post)) by simp,
            losses_append, losses_append]
          omega

/-- What is known of single conversations in a run `T`: with the rendezvous servers, and, given a redirect, with the owner's. -/
structure Convs (T : Trace (sig R.toDevEnv)) (w : Credential.Surroundings) (h : SiClient.Host) (l : Credential.Location) (cr : Credential.Cred)
    (c : Bool) (A : Http.Aead) (rv : List Rendezvous.Interp) (ous : List String) (P : Sign1 → Prop) : Prop where
  printable : Printable T
  rendezvous : ∀ i ∈ rv, ∀ us, clientUrls (R := R.toDevEnv) i = some us → ∀ u ∈ us, ∀ a s, Leg T u a →
    Prog.Ends (getTo1d c A cr [u]) (connected (R := R.toDevEnv) u :: a) s → (∃ x, s = .ok (some x) ∧ P x) ∨ s = .ok none ∧ 1 ≤ losses a
  addresses : ∀ x, P x → ∃ as, R.decAddrs x.payload = some as ∧ to2Urls (R := R.toDevEnv) as = ous
  owner : ∀ x, P x → ∀ u ∈ ous, ∀ b b' s, Leg T u (b ++ b') → Prog.Ends (to2 c A w h l cr x .new : Device.Step R.toDevEnv _) b s →
    (∃ bo, s = .ok bo) ∨ (∃ e, s = .err e) ∧ 1 ≤ losses b

/-- TO2 succeeded with one of the addresses. -/
def Succeeds (T : Trace (sig R.toDevEnv)) (w : Credential.Surroundings) (h : SiClient.Host) (l : Credential.Location) (cr : Credential.Cred)
    (c : Bool) (A : Http.Aead) (ous : List String) (P : Sign1 → Prop) (bo : Bool) : Prop :=
  ∃ x u b, P x ∧ u ∈ ous ∧ Leg T u b ∧ Prog.Ends (to2 c A w h l cr x .new : Device.Step R.toDevEnv _) b (.ok bo)

/-- One directive after another. -/
theorem tryEntries_loop {ous : List String} (hous : ous ≠ []) {P : Sign1 → Prop} : ∀ (rv : List Rendezvous.Interp), Convs T w h l cr c A rv ous P →
    ∀ (t : Trace (sig R.toDevEnv)) (r : Res DevErr (Option Bool)), Part T t → Prog.Ends (tryEntries c A w h l cr rv) t r →
    (∃ bo, r = .ok (some bo) ∧ Succeeds T w h l cr c A ous P bo) ∨
      r = .ok none ∧ ((∃ i ∈ rv, ∃ u us, clientUrls (R := R.toDevEnv) i = some (u :: us)) → 1 ≤ losses t) := by
  intro rv
  induction rv with
  | nil => exact fun _ t r _ he => .inr ⟨(Prog.ends_ret he).2.symm, fun ⟨_, h, _⟩ => absurd h List.not_mem_nil⟩
  | cons i rv ih =>
    intro C t r hp he
    have C' : Convs T w h l cr c A rv ous P := ⟨C.printable, fun i hi => C.rendezvous i (List.mem_cons_of_mem _ hi), C.addresses, C.owner⟩
    rw [tryEntries_cons] at he
    cases hu : clientUrls (R := R.toDevEnv) i with
    | none =>
      rw [hu] at he
      rcases ih C' t r hp he with h | ⟨rfl, h⟩
      · exact .inl h
      · refine .inr ⟨rfl, fun ⟨j, hj, hj'⟩ => h ⟨j, ?_, hj'⟩⟩
        rcases List.mem_cons.1 hj with rfl | hj
        · obtain ⟨_, _, hj'⟩ := hj'
          rw [hu] at hj'
          cases hj'
        · exact hj
    | some us =>
      rw [hu] at he
      obtain ⟨x1, t1, t2, rfl, h1, h2⟩ := Prog.ends_bind he
      have ht2 : ∀ d ∈ t2.head?, Turns d.1 := by
        match x1, h2 with
        | .ok b, h2 => exact head_follow tryEntries_head b _ _ h2
        | .err e, h2 => exact head_ret _ _ h2
        | .panic, h2 => exact head_ret _ _ h2
      have hrest : ∀ t3, Part T t3 → 1 ≤ losses t1 ∨ us = [] → Prog.Ends (tryEntries c A w h l cr rv) t3 r → losses t3 ≤ losses t2 →
          (∃ bo, r = .ok (some bo) ∧ Succeeds T w h l cr c A ous P bo) ∨
          r = .ok none ∧ ((∃ j ∈ i :: rv, ∃ u us, clientUrls (R := R.toDevEnv) j = some (u :: us)) → 1 ≤ losses (t1 ++ t2)) := by
        intro t3 hp3 hl h3 hle
        rcases ih C' t3 r hp3 h3 with h | ⟨rfl, h⟩
        · exact .inl h
        · refine .inr ⟨rfl, fun ⟨j, hj, hj'⟩ => ?_⟩
          rw [losses_append]
          rcases hl with hl | rfl
          · omega
          · rcases List.mem_cons.1 hj with rfl | hj
            · obtain ⟨_, _, hj'⟩ := hj'
              rw [hu] at hj'
              cases hj'
            · have := h ⟨j, hj, hj'⟩
              omega
      rcases getTo1d_loop us (C.rendezvous i List.mem_cons_self us hu) t1 x1 (part_left hp ht2) h1 with ⟨x, rfl, hx⟩ | ⟨rfl, hl⟩
      · have h2 : Prog.Ends (follow w h l cr c A rv (some x)) t2 r := h2
        unfold follow at h2
        obtain ⟨as, has, hto⟩ := C.addresses x hx
        dsimp only at h2
        rw [has] at h2
        dsimp only at h2
        rw [hto] at h2
        obtain ⟨x4, t5, t6, rfl, h5, h6⟩ := Prog.ends_bind h2
        have ht6 : ∀ d ∈ t6.head?, Turns d.1 := by
          match x4, h6 with
          | .ok (some b), h6 => exact head_ret _ _ h6
          | .ok none, h6 => exact tryEntries_head _ _ h6
          | .err e, h6 => exact head_ret _ _ h6
          | .panic, h6 => exact head_ret _ _ h6
        rcases tryAddrs_loop C.printable ous (C.owner x hx) t5 x4 (part_left (part_right hp) ht6) h5 with ⟨bo, u, b, rfl, e1, e2, e3⟩ | ⟨rfl, hl⟩
        · exact .inl ⟨bo, (Prog.ends_ret h6).2.symm, x, u, b, hx, e1, e2, e3⟩
        · have hl := hl hous
          have h6 : Prog.Ends (tryEntries c A w h l cr rv) t6 r := h6
          rcases ih C' t6 r (part_right (part_right hp)) h6 with h | ⟨rfl, -⟩
          · exact .inl h
          · refine .inr ⟨rfl, fun _ => ?_⟩
            rw [losses_append, losses_append]
            omega
      · have h2 : Prog.Ends (tryEntries c A w h l cr rv) t2 r := h2
        refine hrest t2 (part_right hp) ?_ h2 (Nat.le_refl _)
        by_cases h : us = []
        · exact .inr h
        · exact .inl (hl h)

/-- One round after another. -/
theorem onboard_loop {ous : List String} (hous : ous ≠ []) {P : Sign1 → Prop} {rv : List Rendezvous.Interp} (C : Convs T w h l cr c A rv ous P)
    (hrv : ∃ i ∈ rv, ∃ u us, clientUrls (R := R.toDevEnv) i = some (u :: us)) : ∀ (n : Nat) (t : Trace (sig R.toDevEnv)) (r : Res DevErr Bool), Part T t →
    Prog.Ends (onboard c A w h l cr rv n) t r →
    (∃ bo, r = .ok bo ∧ Succeeds T w h l cr c A ous P bo) ∨ n ≤ losses t
  | 0, t, r, _, he => .inr (Nat.zero_le _)
  | n + 1, t, r, hp, he => by
    rw [onboard_succ] at he
    obtain ⟨x1, t1, t2, rfl, h1, h2⟩ := Prog.ends_bind he
    have ht2 : ∀ d ∈ t2.head?, Turns d.1 := by
      match x1, h2 with
      | .ok b, h2 => exact head_again b _ _ h2
      | .err e, h2 => exact head_ret _ _ h2
      | .panic, h2 => exact head_ret _ _ h2
    rcases tryEntries_loop hous rv C t1 x1 (part_left hp ht2) h1 with ⟨bo, rfl, hs⟩ | ⟨rfl, hl⟩
    · have h2 : Prog.Ends (again w h l cr c A rv n (some bo)) t2 r := h2
      exact .inl ⟨bo, (Prog.ends_ret h2).2.symm, hs⟩
    · have hl := hl hrv
      have h2 : Prog.Ends (again w h l cr c A rv n none) t2 r := h2
      obtain ⟨y, t3, rfl, h3⟩ := Prog.ends_act h2
      rcases onboard_loop hous C hrv n t3 r (part_right (t1 := [_]) (part_right hp)) h3 with h | h
      · exact .inl h
      · refine .inr ?_
        rw [losses_append, show (⟨.app (.sleep ((rv.getLast?.map (·.delay)).getD 0)), y⟩ :: t3 : Trace (sig R.toDevEnv)) = [_] ++ t3 from rfl, losses_append]
        omega

/-- The whole client. -/
theorem device_loop {ous : List String} (hous : ous ≠ []) {P : Sign1 → Prop} {rv : List Rendezvous.Interp} (C : Convs T w h l cr c A rv ous P)
    (hrv : ∃ i ∈ rv, ∃ u us, clientUrls (R := R.toDevEnv) i = some (u :: us)) {n : Nat} {r : Res DevErr Unit}
    (hm : w.exists? (markerPath w) = false) (hf : Credential.find w = some (.ok l)) {cb : Bytes}
    (hread : ∀ (o : Option Bytes) t, T = ⟨.app (.fs (.read l.path)), o⟩ :: t → o = some (cb))
    (hdec : R.codec.dec (cb) = some cr) (hact : cr.active = true) (hver : cr.version = 101)
    (hrve : rvEntries (R := R.toDevEnv) cr = .ok rv)
    (hreb : ∀ o : Option Bool, (⟨.app .reboot, o⟩ : (sig R.toDevEnv).Deed) ∈ T → o = some true)
    (hn : losses T < n) (he : Prog.Ends (main c A w h n) T r) :
    r = .ok () ∧ ∃ bo, Succeeds T w h l cr c A ous P bo := by
  unfold main at he
  rw [if_neg (by simp [hm]), hf] at he
  have he : Prog.Ends (Proc.mapErr (fun _ => .io) (files (Credential.readCred R.codec l)) >>= fun cr => start c A w h l cr n :
    Proc (sig R.toDevEnv) _ _) T r := he
  obtain ⟨o, T0, hTT, he1⟩ := Prog.ends_act (S := sig R.toDevEnv) (e := .app (.fs (.read l.path))) he
  have ho := hread o T0 hTT
  subst ho
  have he : Prog.Ends (start c A w h l cr n) T0 r := by
    have he : Prog.Ends (Proc.mapErr (fun _ => DevErr.io) (files (Proc.some? Credential.CredErr.parse (R.codec.dec (cb)))) >>=
      fun cr => start c A w h l cr n : Proc (sig R.toDevEnv) _ _) T0 r := he1
    rw [hdec] at he
    exact he
  unfold start at he
  rw [if_neg (by simp [hact]), if_neg (by simp [hver]), hrve] at he
  have he : Prog.Ends (onboard c A w h l cr rv n >>= reboot : Proc (sig R.toDevEnv) _ _) T0 r := he
  obtain ⟨x1, t1, t2, rfl, h1, h2⟩ := Prog.ends_bind he
  have ht2 : ∀ d ∈ t2.head?, Turns d.1 := by
    match x1, h2 with
    | .ok b, h2 => exact head_reboot b _ _ h2
    | .err e, h2 => exact head_ret _ _ h2
    | .panic, h2 => exact head_ret _ _ h2
  have hpart : Part T t1 := ⟨[⟨.app (.fs (.read l.path)), some (cb)⟩], t2, hTT, ht2⟩
  rcases onboard_loop hous C hrv n t1 x1 hpart h1 with ⟨bo, rfl, hs⟩ | hl
  · refine ⟨?_, bo, hs⟩
    have h2 : Prog.Ends (reboot (R := R.toDevEnv) bo) t2 r := h2
    cases bo with
    | false => exact (Prog.ends_ret h2).2.symm
    | true =>
      obtain ⟨o, t3, rfl, h3⟩ := Prog.ends_act (S := sig R.toDevEnv) (e := .app .reboot) h2
      have := hreb o (by rw [hTT]; simp)
      subst this
      exact (Prog.ends_ret h3).2.symm
  · exfalso
    rw [hTT, show (⟨.app (.fs (.read l.path)), some (cb)⟩ :: (t1 ++ t2) : Trace (sig R.toDevEnv)) = [_] ++ (t1 ++ t2) from rfl,
      losses_append, losses_append] at hn
    omega

end

end Verif.Life

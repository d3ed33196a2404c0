import Verif.Lemmas.Concurrent
import Verif.Props.RvServer
/-!
Property C88, for all servers: requests which are served at the same time.
-/
namespace Verif.Http
open Verif Verif.Spec

variable {Sv : Server} {M : Type} {wk : Work Sv} {move : M → Sv.W → Sv.W}

/-! ### One request at a time -/

theorem work_run {σ : CSt Sv} {n : Nat} {rq : Request Sv} {a : Accepted Sv}
    {t : Task Sv.W (Sv.Resp × Sv.S × Option Keys)} (hf : σ.flights n = some ⟨rq, a, t⟩) :
    ∃ k, creplay wk move σ (List.replicate k (.work n)) =
      ⟨{ σ.st with world := (t.run σ.st.world).1 }, (σ.put n (some ⟨rq, a, .ret (t.run σ.st.world).2⟩)).flights, σ.next⟩ := by
  induction t generalizing σ with
  | ret r =>
    refine ⟨0, ?_⟩
    obtain ⟨st, fl, nx⟩ := σ
    simp only [List.replicate, creplay, Task.run, CSt.put, CSt.mk.injEq, and_true, true_and]
    funext m
    split
    · rename_i hm; rw [hm]; exact hf
    · rfl
  | op f k ih =>
    have hw : work σ n = { (σ.put n (some ⟨rq, a, k σ.st.world⟩)) with st := { σ.st with world := f σ.st.world } } := by
      simp only [work, hf]
    obtain ⟨j, hj⟩ := ih σ.st.world (σ := work σ n) (by rw [hw]; simp [CSt.put])
    refine ⟨j + 1, ?_⟩
    rw [List.replicate_succ]
    simp only [creplay, cafter]
    rw [hj, hw]
    simp only [Task.run, CSt.put, CSt.mk.injEq, and_true, true_and]
    funext m
    split <;> rfl

/-- **C88** (one at a time): a request that is served without interruption has the effect and the reply of one step
of the model in which requests are served one at a time. The number of the next request is always free (`next_free`). -/
theorem C88_alone (hrun : ∀ o t r s k w, (wk o t r s k).run w = Sv.handle o t r s k w) (σ : CSt Sv)
    (hfree : σ.flights σ.next = none) (rq : Request Sv) (hacc : accept σ.st rq ≠ none) :
    ∃ k, creplay wk move σ (.arrive rq :: List.replicate k (.work σ.next) ++ [.finish σ.next]) =
        ⟨(step σ.st rq).1, σ.flights, σ.next + 1⟩ ∧
      replyOf (creplay wk move σ (.arrive rq :: List.replicate k (.work σ.next))) σ.next = some (step σ.st rq).2 := by
  cases ha : accept σ.st rq with
  | none => exact absurd ha hacc
  | some a =>
    have harr : carrive wk σ rq = { (σ.put σ.next (some ⟨rq, a, wk rq.oracle rq.type a.req a.sess.data a.sess.keys⟩)) with
        next := σ.next + 1 } := by simp only [carrive, ha]
    obtain ⟨k, hk⟩ := work_run (wk := wk) (move := move) (σ := carrive wk σ rq) (n := σ.next) (rq := rq) (a := a)
      (t := wk rq.oracle rq.type a.req a.sess.data a.sess.keys) (by rw [harr]; simp [CSt.put])
    have hst : (carrive wk σ rq).st = σ.st := by rw [harr]; rfl
    have hnx : (carrive wk σ rq).next = σ.next + 1 := by rw [harr]
    rw [hrun, hst, hnx] at hk
    refine ⟨k, ?_⟩
    have hmid : creplay wk move σ (.arrive rq :: List.replicate k (.work σ.next)) = _ := hk
    rw [creplay_append]
    simp only [hmid]
    have hback : ∀ x, (fun m => if m = σ.next then none else
        ((carrive wk σ rq).put σ.next x).flights m) = σ.flights := by
      intro x
      funext m
      rw [harr]
      simp only [CSt.put]
      split
      · rename_i hm; rw [hm, hfree]
      · rfl
    cases hh : Sv.handle rq.oracle rq.type a.req a.sess.data a.sess.keys σ.st.world with
    | mk w r =>
      cases r with
      | none =>
        refine ⟨?_, ?_⟩
        · simp only [creplay, cafter, finish, step, ha, hh]
          simp only [CSt.put, if_true]
          rw [← hback (some ⟨rq, a, .ret none⟩)]
          simp [CSt.put]
        · simp [replyOf, CSt.put, step, ha, hh]
      | some x =>
        obtain ⟨resp, data, keys⟩ := x
        cases hso : rq.storeOk with
        | false =>
          refine ⟨?_, ?_⟩
          · simp only [creplay, cafter, finish, step, ha, hh]
            simp only [CSt.put, if_true, hso]
            rw [← hback (some ⟨rq, a, .ret (some (resp, data, keys))⟩)]
            simp [CSt.put]
          · simp [replyOf, CSt.put, step, ha, hh, hso]
        | true =>
          refine ⟨?_, ?_⟩
          · simp only [creplay, cafter, finish, step, ha, hh]
            simp only [CSt.put, if_true, hso]
            rw [← hback (some ⟨rq, a, .ret (some (resp, data, keys))⟩)]
            simp [CSt.put, putSession]
          · simp [replyOf, CSt.put, step, ha, hh, hso]

/-- The handlers of the owner server and the manufacturing server, without interruption. -/
theorem oneStep_run (o : Sv.Oracle) (t : MsgType) (r : Sv.Req) (s : Sv.S) (k : Option Keys) (w : Sv.W) :
    (oneStep Sv o t r s k).run w = Sv.handle o t r s k w := rfl

/-- In every history, no request is being served under a number that has not been given. -/
theorem next_free (w0 : Sv.W) (h : List (CEvent Sv M)) (n : Nat)
    (hn : (creplay wk move (cstart w0) h).next ≤ n) : (creplay wk move (cstart w0) h).flights n = none := by
  refine chistory_induction wk move (cstart w0) (fun _ σ => ∀ n, σ.next ≤ n → σ.flights n = none) ?_ ?_ h n hn
  · exact fun n _ => rfl
  · intro h e ih n hn
    have hle : (creplay wk move (cstart w0) h).next ≤ (cafter wk move (creplay wk move (cstart w0) h) e).next := by
      generalize creplay wk move (cstart w0) h = σ
      cases e with
      | arrive rq => simp only [cafter, carrive]; split <;> exact Nat.le_succ _
      | work n => simp only [cafter, work]; split <;> exact Nat.le_refl _
      | finish n =>
        simp only [cafter, finish]
        split
        · exact Nat.le_refl _
        · split <;> exact Nat.le_refl _
        · exact Nat.le_refl _
      | drop n => exact Nat.le_refl _
      | expire i => exact Nat.le_refl _
      | internal m => exact Nat.le_refl _
    cases hf : (cafter wk move (creplay wk move (cstart w0) h) e).flights n with
    | none => rfl
    | some f =>
      rcases cafter_flights hf with hf' | ⟨rq, a, rfl, ha, rfl⟩ | ⟨g, k, rfl, hfl, ht⟩
      · rw [ih n (Nat.le_trans hle hn)] at hf'; cases hf'
      · simp only [cafter, carrive, ha] at hn hf
        simp only [CSt.put] at hf
        split at hf
        · omega
        · rw [ih n (Nat.le_trans (Nat.le_succ _) hn)] at hf; cases hf
      · rw [ih n (Nat.le_trans hle hn)] at hfl; cases hfl

/-! ### Where requests come from -/

theorem Arrived.mono {w0 : Sv.W} {h : List (CEvent Sv M)} {rq : Request Sv} {a : Accepted Sv}
    (hn : Arrived wk move w0 h rq a) (e : CEvent Sv M) : Arrived wk move w0 (h ++ [e]) rq a := by
  obtain ⟨h1, h2, rfl, p⟩ := hn
  exact ⟨h1, h2 ++ [e], by simp, p⟩

/-- Requests being served have arrived. -/
theorem flight_arrived (w0 : Sv.W) (h : List (CEvent Sv M)) (n : Nat) (f : Flight Sv)
    (hf : (creplay wk move (cstart w0) h).flights n = some f) : Arrived wk move w0 h f.rq f.a := by
  refine chistory_induction wk move (cstart w0) (fun h σ => ∀ n f, σ.flights n = some f → Arrived wk move w0 h f.rq f.a)
    ?_ ?_ h n f hf
  · exact fun n f hf => nomatch hf
  · intro h e ih n f hf
    rcases cafter_flights hf with hf | ⟨rq, a, rfl, ha, rfl⟩ | ⟨g, k, rfl, hfl, ht⟩
    · exact (ih n f hf).mono e
    · exact ⟨h, [], rfl, ha⟩
    · exact (ih n _ hfl).mono _

/-! ### Encryption -/

/-- **C88** (encryption of requests): a request which is being served was admitted with the session as it was read:
if its type must be encrypted, then as what its body decrypts to under the keys of the session; if its type must be
in clear, then the session had no keys. -/
theorem C88_requests (w0 : Sv.W) (h : List (CEvent Sv M)) (n : Nat) (f : Flight Sv)
    (hf : (creplay wk move (cstart w0) h).flights n = some f) :
    (f.rq.type ∈ secret → ∃ k plain, f.a.sess.keys = some k ∧ Sv.aead.decrypt k.sevk f.rq.body = some plain ∧
      Sv.decode f.rq.type plain = some f.a.req) ∧
    (f.rq.type ∈ clear → f.a.sess.keys = none ∧ Sv.decode f.rq.type f.rq.body = some f.a.req) ∧
    (∀ k, f.a.sess.keys = some k → ∃ plain, Sv.aead.decrypt k.sevk f.rq.body = some plain ∧
      Sv.decode f.rq.type plain = some f.a.req) := by
  obtain ⟨h1, h2, _, ha⟩ := flight_arrived w0 h n f hf
  exact C23_requests _ _ _ ha

/-- **C88** (encryption of responses): whatever response is sent, it belongs to the session as stored with it; a type
that must be encrypted is sent as ciphertext under the keys of that session, a type that must be in clear only
if the session has no keys. -/
theorem C88_responses (σ : CSt Sv) (e : CEvent Sv M) (rq : Request Sv) (i : Sv.Id) (om : MsgType) (b : Bytes)
    (tok : Option (List Char)) (h : Replies σ e rq i (.ok om b tok)) :
    ∃ s resp, (cafter wk move σ e).st.sessions i = some s ∧ s.last = some om ∧
      (om ∈ secret → ∃ k, s.keys = some k ∧ Sv.aead.encrypt k.sevk rq.iv (Sv.encode resp) = some b) ∧
      (om ∈ clear → s.keys = none ∧ b = Sv.encode resp) ∧
      (∀ k, s.keys = some k → Sv.aead.encrypt k.sevk rq.iv (Sv.encode resp) = some b) := by
  obtain ⟨n, a, resp, data, keys, rfl, hf, rfl, hso, rfl, hok, henc, _⟩ := replies_ok h
  refine ⟨⟨some a.om, keys, data⟩, resp, ?_, rfl, fun hs => ?_, fun hc => ?_, fun k hk => ?_⟩
  · simp [cafter, finish, hf, hso, putSession]
  · unfold encOk at hok
    rw [(encReq_spec a.om).1.2 hs] at hok
    cases keys with
    | none => simp at hok
    | some k => exact ⟨k, rfl, henc⟩
  · unfold encOk at hok
    rw [(encReq_spec a.om).2.2 hc] at hok
    cases keys with
    | none => exact ⟨rfl, (Option.some.inj henc).symm⟩
    | some k => simp at hok
  · have hk : keys = some k := hk
    subst hk
    exact henc

/-! ### Isolation -/

/-- **C88** (isolation): a session changes only when it expires or when a request is answered which, when it came,
carried the token of this session or was given this session as a new one. -/
theorem C88_isolated (w0 : Sv.W) (h : List (CEvent Sv M)) (e : CEvent Sv M) (j : Sv.Id)
    (hc : (creplay wk move (cstart w0) (h ++ [e])).st.sessions j ≠ (creplay wk move (cstart w0) h).st.sessions j) :
    e = .expire j ∨ ∃ n h1 rq h2 a, e = .finish n ∧ InFlight (creplay wk move (cstart w0) h) n rq j ∧
      h = h1 ++ .arrive rq :: h2 ∧ accept (creplay wk move (cstart w0) h1).st rq = some a ∧ a.id = j ∧
      ((∃ s, Addresses (creplay wk move (cstart w0) h1).st rq j s) ∨ Sv.idOf rq.freshCookie = some j) := by
  rw [creplay_snoc] at hc
  rcases cafter_sessions (wk := wk) (move := move) (creplay wk move (cstart w0) h) e with
    hq | ⟨n, rq, a, resp, data, keys, rfl, hfl, hso, hq⟩ | ⟨i, rfl, hq⟩
  · rw [hq] at hc; exact absurd rfl hc
  · rw [hq] at hc
    split at hc
    · rename_i hj
      subst hj
      obtain ⟨h1, h2, rfl, ha⟩ := flight_arrived w0 h n _ hfl
      refine .inr ⟨n, h1, rq, h2, a, rfl, ⟨a, _, hfl, rfl⟩, rfl, ha, rfl, ?_⟩
      obtain ⟨_, hfs, _⟩ := accept_eq_some ha
      rcases findSession_cases hfs with ⟨_, h3⟩ | ⟨_, h3, _⟩
      · exact .inl ⟨_, h3⟩
      · exact .inr h3
    · exact absurd rfl hc
  · rw [hq] at hc
    split at hc
    · rename_i hj
      rw [hj]; exact .inl rfl
    · exact absurd rfl hc

/-! ### Order -/

theorem cexchanges_append (i : Sv.Id) (σ : CSt Sv) (h h' : List (CEvent Sv M)) :
    cexchanges wk move i σ (h ++ h') = cexchanges wk move i σ h ++ cexchanges wk move i (creplay wk move σ h) h' := by
  induction h generalizing σ with
  | nil => rfl
  | cons e r ih => simp only [List.cons_append, cexchanges, creplay, ih, List.append_assoc]

theorem cexchanges_snoc (i : Sv.Id) (σ : CSt Sv) (h : List (CEvent Sv M)) (e : CEvent Sv M) :
    cexchanges wk move i σ (h ++ [e]) = cexchanges wk move i σ h ++ ended i (creplay wk move σ h) e := by
  rw [cexchanges_append]
  simp [cexchanges]

/-- Where a path ends. -/
def endOf : Option MsgType → List (MsgType × Option MsgType) → Option MsgType
  | p, [] => p
  | p, (_, none) :: r => endOf p r
  | _, (_, some om) :: r => endOf (some om) r

theorem endOf_snoc (p : Option MsgType) (l : List (MsgType × Option MsgType)) (im : MsgType) (o : Option MsgType) :
    endOf p (l ++ [(im, o)]) = match o with
      | none => endOf p l
      | some om => some om := by
  induction l generalizing p with
  | nil => cases o <;> rfl
  | cons x r ih =>
    obtain ⟨a, b⟩ := x
    cases b with
    | none => simp only [List.cons_append, endOf]; exact ih _
    | some om => simp only [List.cons_append, endOf]; exact ih _

theorem path_snoc {p : Option MsgType} {l : List (MsgType × Option MsgType)} (hp : Path p l) {im om : MsgType}
    (o : Option MsgType) (ho : o = none ∨ o = some om) (hm : (endOf p l, im, om) ∈ protocol) : Path p (l ++ [(im, o)]) := by
  induction hp with
  | nil p =>
    rcases ho with rfl | rfl
    · exact .refused hm (.nil _)
    · exact .answered hm (.nil _)
  | refused h1 h2 ih => exact .refused h1 (ih hm)
  | answered h1 h2 ih => exact .answered h1 (ih hm)

/-- **C88** (order): as long as the requests of a session are not served at the same time, its exchanges form a path in
the protocol graph, whatever happens in other sessions at the same time. Missing: requests of the same session
served at the same time (`C88_order_violated`). -/
theorem C88_order_partial (hroutes : ∀ r ∈ Sv.routes, r ∈ rvRoutes ++ ownerRoutes ++ mfgRoutes) (w0 : Sv.W) (i : Sv.Id)
    (h : List (CEvent Sv M)) (hf : CFreshIds wk move w0 h) (h1 : OneByOne wk move w0 i h) :
    Path none (cexchanges wk move i (cstart w0) h) := by
  have main := chistory_induction wk move (cstart w0) (fun h σ => CFreshIds wk move w0 h → OneByOne wk move w0 i h →
    Path none (cexchanges wk move i (cstart w0) h) ∧
    (∀ s, σ.st.sessions i = some s → s.last = endOf none (cexchanges wk move i (cstart w0) h)) ∧
    (∀ n rq a t, σ.flights n = some ⟨rq, a, t⟩ → a.id = i →
      (endOf none (cexchanges wk move i (cstart w0) h), rq.type, a.om) ∈ protocol) ∧
    (∀ n m rq rq', InFlight σ n rq i → InFlight σ m rq' i → n = m) ∧
    ((∀ rq a, Arrived wk move w0 h rq a → a.id ≠ i) → cexchanges wk move i (cstart w0) h = [])) ?_ ?_ h
  · exact (main hf h1).1
  · intro _ _
    exact ⟨.nil _, fun s hs => (nomatch hs), fun n rq a t hfl => (nomatch hfl),
      fun n m rq rq' h => (by obtain ⟨a, t, hfl, _⟩ := h; cases hfl), fun _ => rfl⟩
  · intro h e ih hf h1
    have hf' : CFreshIds wk move w0 h := by
      rintro a rq b acc rfl hacc
      exact hf a rq (b ++ [e]) acc (by simp) hacc
    have h1' : OneByOne wk move w0 i h := by
      rintro a rq b acc rfl hacc
      exact h1 a rq (b ++ [e]) acc (by simp) hacc
    obtain ⟨ip, is, ifl, iu, ie⟩ := ih hf' h1'
    rw [cexchanges_snoc]
    generalize hl : cexchanges wk move i (cstart w0) h = l at ip is ifl ie ⊢
    generalize hσ : creplay wk move (cstart w0) h = σ at is ifl iu ⊢
    -- nothing of session `i` ends
    have quiet : ended i σ e = [] → (∀ s, (cafter wk move σ e).st.sessions i = some s → σ.st.sessions i = some s) →
        (∀ n rq a t, (cafter wk move σ e).flights n = some ⟨rq, a, t⟩ → a.id = i →
          (∃ t', σ.flights n = some ⟨rq, a, t'⟩)) →
        Path none (l ++ ended i σ e) ∧
        (∀ s, (cafter wk move σ e).st.sessions i = some s → s.last = endOf none (l ++ ended i σ e)) ∧
        (∀ n rq a t, (cafter wk move σ e).flights n = some ⟨rq, a, t⟩ → a.id = i →
          (endOf none (l ++ ended i σ e), rq.type, a.om) ∈ protocol) ∧
        (∀ n m rq rq', InFlight (cafter wk move σ e) n rq i → InFlight (cafter wk move σ e) m rq' i → n = m) ∧
        ((∀ rq a, Arrived wk move w0 (h ++ [e]) rq a → a.id ≠ i) → l ++ ended i σ e = []) := by
      intro hq hs hfl
      rw [hq, List.append_nil]
      refine ⟨ip, fun s h => is s (hs s h), fun n rq a t h hi => ?_, ?_, fun hno => ie fun rq a h => hno rq a (h.mono e)⟩
      · obtain ⟨t', h'⟩ := hfl n rq a t h hi
        exact ifl n rq a t' h' hi
      · rintro n m rq rq' ⟨a, t, h2, h3⟩ ⟨a', t', h2', h3'⟩
        obtain ⟨u, hu⟩ := hfl n rq a t h2 h3
        obtain ⟨u', hu'⟩ := hfl m rq' a' t' h2' h3'
        exact iu n m rq rq' ⟨a, u, hu, h3⟩ ⟨a', u', hu', h3'⟩
    -- a request of session `i` ends
    have ends : ∀ n rq a t o, σ.flights n = some ⟨rq, a, t⟩ → a.id = i → ended i σ e = [(rq.type, o)] →
        (o = none ∨ o = some a.om) →
        (∀ s, (cafter wk move σ e).st.sessions i = some s → match o with
          | none => σ.st.sessions i = some s
          | some om => s.last = some om) →
        (∀ m, (cafter wk move σ e).flights m = if m = n then none else σ.flights m) →
        Path none (l ++ ended i σ e) ∧
        (∀ s, (cafter wk move σ e).st.sessions i = some s → s.last = endOf none (l ++ ended i σ e)) ∧
        (∀ n rq a t, (cafter wk move σ e).flights n = some ⟨rq, a, t⟩ → a.id = i →
          (endOf none (l ++ ended i σ e), rq.type, a.om) ∈ protocol) ∧
        (∀ n m rq rq', InFlight (cafter wk move σ e) n rq i → InFlight (cafter wk move σ e) m rq' i → n = m) ∧
        ((∀ rq a, Arrived wk move w0 (h ++ [e]) rq a → a.id ≠ i) → l ++ ended i σ e = []) := by
      intro n rq a t o hfl hi hq ho hs hfs
      rw [hq]
      have nomore : ∀ m rq', ¬ InFlight (cafter wk move σ e) m rq' i := by
        rintro m rq' ⟨a', t', h2, h3⟩
        rw [hfs] at h2
        split at h2
        · cases h2
        · rename_i hmn
          exact hmn (iu m n rq' rq ⟨a', t', h2, h3⟩ ⟨a, t, hfl, hi⟩)
      refine ⟨path_snoc ip o ho (ifl n rq a t hfl hi), fun s h => ?_, fun m rq' a' t' h hi' => ?_, ?_, fun hno => ?_⟩
      · rw [endOf_snoc]
        have := hs s h
        cases o with
        | none => exact is s this
        | some om => exact this
      · exact absurd ⟨a', t', h, hi'⟩ (nomore m rq')
      · exact fun m m' rq' _ h _ => absurd h (nomore m rq')
      · subst hσ
        exact absurd hi (hno rq a ((flight_arrived w0 h n _ hfl).mono e))
    have putnone : ∀ m n, (σ.put n none).flights m = if m = n then none else σ.flights m := fun m n => rfl
    cases e with
    | expire j =>
      refine quiet rfl (fun s hs => ?_) (fun n rq a t hfl _ => ⟨t, hfl⟩)
      simp only [cafter] at hs
      split at hs
      · cases hs
      · exact hs
    | internal m => exact quiet rfl (fun s hs => hs) (fun n rq a t hfl _ => ⟨t, hfl⟩)
    | work n =>
      refine quiet rfl (fun s hs => ?_) (fun m rq a t hfl _ => ?_)
      · simp only [cafter, work] at hs
        split at hs <;> exact hs
      · rcases cafter_flights hfl with hfl | ⟨_, _, h, _⟩ | ⟨g, k, h, hfl, _⟩
        · exact ⟨t, hfl⟩
        · cases h
        · exact ⟨_, hfl⟩
    | drop n =>
      cases hfl : σ.flights n with
      | none =>
        refine quiet (by simp [ended, hfl]) (fun s hs => hs) (fun m rq a t hfl' _ => ?_)
        rcases cafter_flights hfl' with hfl' | ⟨_, _, h, _⟩ | ⟨g, k, h, _, _⟩
        · exact ⟨t, hfl'⟩
        · cases h
        · cases h
      | some f =>
        obtain ⟨rq, a, t⟩ := f
        by_cases hi : a.id = i
        · exact ends n rq a t none hfl hi (by simp [ended, hfl, hi]) (.inl rfl) (fun s hs => hs) (fun m => rfl)
        · refine quiet (by simp [ended, hfl, hi]) (fun s hs => hs) (fun m rq a t hfl' _ => ?_)
          rcases cafter_flights hfl' with hfl' | ⟨_, _, h, _⟩ | ⟨g, k, h, _, _⟩
          · exact ⟨t, hfl'⟩
          · cases h
          · cases h
    | finish n =>
      have other : ∀ m rq a t, (cafter wk move σ (.finish n)).flights m = some ⟨rq, a, t⟩ → a.id = i →
          ∃ t', σ.flights m = some ⟨rq, a, t'⟩ := by
        intro m rq a t hfl' _
        rcases cafter_flights hfl' with hfl' | ⟨_, _, h, _⟩ | ⟨g, k, h, _, _⟩
        · exact ⟨t, hfl'⟩
        · cases h
        · cases h
      cases hfl : σ.flights n with
      | none =>
        refine quiet (by simp [ended, hfl]) (fun s hs => ?_) other
        simpa [cafter, finish, hfl] using hs
      | some f =>
        obtain ⟨rq, a, t⟩ := f
        cases t with
        | op g k =>
          refine quiet (by simp [ended, hfl]) (fun s hs => ?_) other
          simpa [cafter, finish, hfl] using hs
        | ret r =>
          cases r with
          | none =>
            by_cases hi : a.id = i
            · refine ends n rq a _ none hfl hi (by simp [ended, hfl, hi]) (.inl rfl) (fun s hs => ?_) (fun m => ?_)
              · simpa [cafter, finish, hfl, CSt.put] using hs
              · simp [cafter, finish, hfl, CSt.put]
            · refine quiet (by simp [ended, hfl, hi]) (fun s hs => ?_) other
              simpa [cafter, finish, hfl, CSt.put] using hs
          | some x =>
            obtain ⟨resp, data, keys⟩ := x
            cases hso : rq.storeOk with
            | false =>
              by_cases hi : a.id = i
              · refine ends n rq a _ none hfl hi (by simp [ended, hfl, hi, hso]) (.inl rfl) (fun s hs => ?_) (fun m => ?_)
                · simpa [cafter, finish, hfl, CSt.put, hso] using hs
                · simp [cafter, finish, hfl, CSt.put, hso]
              · refine quiet (by simp [ended, hfl, hi]) (fun s hs => ?_) other
                simpa [cafter, finish, hfl, CSt.put, hso] using hs
            | true =>
              by_cases hi : a.id = i
              · refine ends n rq a _ (some a.om) hfl hi (by simp [ended, hfl, hi, hso]) (.inr rfl) (fun s hs => ?_) (fun m => ?_)
                · simp only [cafter, finish, hfl, CSt.put, hso, putSession, hi, if_true, Option.some.injEq] at hs
                  rw [← hs]
                · simp [cafter, finish, hfl, CSt.put, hso]
              · refine quiet (by simp [ended, hfl, hi]) (fun s hs => ?_) other
                simp only [cafter, finish, hfl, CSt.put, hso, putSession, if_true] at hs
                rw [if_neg (fun hh => hi hh.symm)] at hs
                exact hs
    | arrive rq =>
      have hsess : ∀ s, (cafter wk move σ (.arrive rq)).st.sessions i = some s → σ.st.sessions i = some s := by
        intro s hs
        simp only [cafter, carrive] at hs
        split at hs <;> exact hs
      cases ha : accept σ.st rq with
      | none =>
        refine quiet rfl hsess (fun m rq' a t hfl _ => ?_)
        rcases cafter_flights hfl with hfl | ⟨_, _, h, ha', _⟩ | ⟨g, k, h, _, _⟩
        · exact ⟨t, hfl⟩
        · cases h; rw [ha] at ha'; cases ha'
        · cases h
      | some a =>
        by_cases hi : a.id = i
        · have none' : ∀ n rq', ¬ InFlight σ n rq' i := by
            subst hσ
            exact h1 h rq [] a rfl ha hi
          have hfl : ∀ m rq' a' t, (cafter wk move σ (.arrive rq)).flights m = some ⟨rq', a', t⟩ → a'.id = i →
              m = σ.next ∧ rq' = rq ∧ a' = a := by
            intro m rq' a' t hfl hi'
            simp only [cafter, carrive, ha, CSt.put] at hfl
            split at hfl
            · rename_i hm
              cases hfl
              exact ⟨hm, rfl, rfl⟩
            · exact absurd ⟨a', t, hfl, hi'⟩ (none' m rq')
          obtain ⟨hr, hfs, hv, _, _⟩ := accept_eq_some ha
          have hmem := (routes_protocol _ _ _ (hroutes _ (routeOf_mem hr))).1 hv
          have hend : a.sess.last = endOf none l := by
            rcases findSession_cases hfs with ⟨_, _, _, _, h3⟩ | ⟨hck, _, h3, _⟩
            · rw [hi] at h3; exact is _ h3
            · have hempty : l = [] := by
                refine ie fun rq' a' harr => ?_
                have := hf h rq [] a rfl (by rw [hσ]; exact ha) (by rw [hck]; simp) rq' a' harr
                rw [hi] at this; exact this
              rw [h3, hempty]; rfl
          have hend0 : ended i σ (CEvent.arrive (M := M) rq) = [] := rfl
          rw [hend0, List.append_nil]
          refine ⟨ip, fun s hs => is s (hsess s hs), fun m rq' a' t h hi' => ?_, ?_, fun hno => ?_⟩
          · obtain ⟨_, rfl, rfl⟩ := hfl m rq' a' t h hi'
            rw [← hend]; exact hmem
          · rintro m m' r r' ⟨a1, t1, g1, g2⟩ ⟨a2, t2, g3, g4⟩
            rw [(hfl _ _ _ _ g1 g2).1, (hfl _ _ _ _ g3 g4).1]
          · exact absurd hi (hno rq a ⟨h, [], rfl, by rw [hσ]; exact ha⟩)
        · refine quiet rfl hsess (fun m rq' a' t hfl hi' => ?_)
          rcases cafter_flights hfl with hfl | ⟨_, _, h, ha', hff⟩ | ⟨g, k, h, _, _⟩
          · exact ⟨t, hfl⟩
          · cases h
            rw [ha] at ha'
            cases ha'
            cases hff
            exact absurd hi' hi
          · cases h

theorem path_final {p : Option MsgType} {l : List (MsgType × Option MsgType)} (hp : Path p l)
    {l1 l2 : List (MsgType × Option MsgType)} {im om : MsgType} (hl : l = l1 ++ (im, some om) :: l2) (hf : om ∈ finals) :
    l2 = [] := by
  have stuck : ∀ {l}, Path (some om) l → l = [] := by
    intro l h
    have no : ∀ im' om', (some om, im', om') ∉ protocol := by
      intro im' om' hm
      simp only [finals, List.mem_cons, List.not_mem_nil, or_false] at hf
      rcases hf with rfl | rfl | rfl | rfl <;> simp [protocol] at hm
    cases h with
    | nil => rfl
    | refused hm _ => exact absurd hm (no _ _)
    | answered hm _ => exact absurd hm (no _ _)
  induction hp generalizing l1 with
  | nil p => cases l1 <;> cases hl
  | refused hm h ih =>
    cases l1 with
    | nil => cases hl
    | cons x r => cases hl; exact ih rfl
  | answered hm h ih =>
    cases l1 with
    | nil => cases hl; exact stuck h
    | cons x r => cases hl; exact ih rfl

/-- **C88** (finished sessions): under the same conditions, a session that has reached the end of its protocol serves
nothing more. Missing: requests of the same session served at the same time (`C88_reopened_violated`). -/
theorem C88_finished_partial (hroutes : ∀ r ∈ Sv.routes, r ∈ rvRoutes ++ ownerRoutes ++ mfgRoutes) (w0 : Sv.W) (i : Sv.Id)
    (h : List (CEvent Sv M)) (hf : CFreshIds wk move w0 h) (h1 : OneByOne wk move w0 i h)
    {l1 l2 : List (MsgType × Option MsgType)} {im om : MsgType}
    (hl : cexchanges wk move i (cstart w0) h = l1 ++ (im, some om) :: l2) (hfin : om ∈ finals) : l2 = [] :=
  path_final (C88_order_partial hroutes w0 i h hf h1) hl hfin

/-! ### Checking histories -/

/-- Check of `OneByOne`. -/
def oneByOneB (wk : Work Sv) (move : M → Sv.W → Sv.W) (i : Sv.Id) : CSt Sv → List (CEvent Sv M) → Bool
  | _, [] => true
  | σ, e :: r =>
    (match e with
      | .arrive rq =>
        match accept σ.st rq with
        | some a => !decide (a.id = i) || (List.range σ.next).all fun n =>
            match σ.flights n with
            | some f => !decide (f.a.id = i)
            | none => true
        | none => true
      | _ => true) && oneByOneB wk move i (cafter wk move σ e) r

theorem oneByOne_of (w0 : Sv.W) (i : Sv.Id) (h : List (CEvent Sv M)) (hc : oneByOneB wk move i (cstart w0) h = true) :
    OneByOne wk move w0 i h := by
  suffices H : ∀ (r h0 : List (CEvent Sv M)), oneByOneB wk move i (creplay wk move (cstart w0) h0) r = true →
      ∀ h1 rq h2 a, r = h1 ++ .arrive rq :: h2 → accept (creplay wk move (cstart w0) (h0 ++ h1)).st rq = some a →
        a.id = i → ∀ n rq', ¬ InFlight (creplay wk move (cstart w0) (h0 ++ h1)) n rq' i by
    intro h1 rq h2 a hh ha
    exact H h [] hc h1 rq h2 a hh ha
  intro r
  induction r with
  | nil => intro h0 _ h1 rq h2 a hh; cases h1 <;> cases hh
  | cons e r ih =>
    intro h0 hc h1 rq h2 a hh ha hi n rq'
    simp only [oneByOneB, Bool.and_eq_true] at hc
    cases h1 with
    | nil =>
      cases hh
      rw [List.append_nil] at ha ⊢
      have hc := hc.1
      simp only [ha, hi, decide_true, Bool.not_true, Bool.false_or, List.all_eq_true, List.mem_range] at hc
      rintro ⟨a', t, hf, hi'⟩
      have hlt : n < (creplay wk move (cstart w0) h0).next := by
        apply Nat.lt_of_not_le
        intro hle
        rw [next_free w0 h0 n hle] at hf; cases hf
      have := hc n hlt
      rw [hf] at this
      simp [hi'] at this
    | cons x l =>
      cases hh
      have := ih (h0 ++ [e]) (by rw [creplay_snoc]; exact hc.2) l rq h2 a rfl (by simpa using ha) hi n rq'
      simpa using this

/-- Check of `CFreshIds`: `used` are the ids used before. -/
def freshIdsB (wk : Work Sv) (move : M → Sv.W → Sv.W) : List Sv.Id → CSt Sv → List (CEvent Sv M) → Bool
  | _, _, [] => true
  | used, σ, e :: r =>
    match e with
    | .arrive rq =>
      match accept σ.st rq with
      | some a => (a.cookie.isNone || !decide (a.id ∈ used)) && freshIdsB wk move (a.id :: used) (cafter wk move σ e) r
      | none => freshIdsB wk move used (cafter wk move σ e) r
    | _ => freshIdsB wk move used (cafter wk move σ e) r

theorem freshIds_of (w0 : Sv.W) (h : List (CEvent Sv M)) (hc : freshIdsB wk move [] (cstart w0) h = true) :
    CFreshIds wk move w0 h := by
  suffices H : ∀ (r h0 : List (CEvent Sv M)) used, (∀ rq a, Arrived wk move w0 h0 rq a → a.id ∈ used) →
      freshIdsB wk move used (creplay wk move (cstart w0) h0) r = true →
      ∀ h1 rq h2 a, r = h1 ++ .arrive rq :: h2 → accept (creplay wk move (cstart w0) (h0 ++ h1)).st rq = some a →
        a.cookie ≠ none → ∀ rq' a', Arrived wk move w0 (h0 ++ h1) rq' a' → a'.id ≠ a.id by
    intro h1 rq h2 a hh ha
    exact H h [] [] (by rintro rq a ⟨h1, h2, hh, _⟩; cases h1 <;> cases hh) hc h1 rq h2 a hh ha
  have snoc : ∀ (h0 : List (CEvent Sv M)) e rq a, Arrived wk move w0 (h0 ++ [e]) rq a →
      Arrived wk move w0 h0 rq a ∨ (e = .arrive rq ∧ accept (creplay wk move (cstart w0) h0).st rq = some a) := by
    rintro h0 e rq a ⟨h1, h2, hh, ha⟩
    rcases List.eq_nil_or_concat h2 with rfl | ⟨l, x, rfl⟩
    · have := List.append_inj' hh rfl
      obtain ⟨rfl, h3⟩ := this
      cases h3
      exact .inr ⟨rfl, ha⟩
    · left
      have hh : h0 ++ [e] = (h1 ++ .arrive rq :: l) ++ [x] := by rw [hh]; simp
      have := List.append_inj' hh rfl
      exact ⟨h1, l, this.1, ha⟩
  intro r
  induction r with
  | nil => intro h0 used _ _ h1 rq h2 a hh; cases h1 <;> cases hh
  | cons e r ih =>
    intro h0 used hu hc h1 rq h2 a hh ha hck rq' a' harr
    cases h1 with
    | nil =>
      cases hh
      rw [List.append_nil] at ha harr
      simp only [freshIdsB, ha, Bool.and_eq_true] at hc
      have hnot : a.id ∉ used := by
        have := hc.1
        cases hcc : a.cookie with
        | none => exact absurd hcc hck
        | some x => rw [hcc] at this; simpa using this
      intro heq
      exact hnot (heq ▸ hu rq' a' harr)
    | cons x l =>
      cases hh
      have step : ∃ used', (∀ rq a, Arrived wk move w0 (h0 ++ [e]) rq a → a.id ∈ used') ∧
          freshIdsB wk move used' (creplay wk move (cstart w0) (h0 ++ [e])) (l ++ .arrive rq :: h2) = true := by
        rw [creplay_snoc]
        cases e with
        | arrive rq0 =>
          simp only [freshIdsB] at hc
          split at hc
          · rename_i a0 ha0
            refine ⟨a0.id :: used, fun rq a harr => ?_, (Bool.and_eq_true _ _ ▸ hc).2⟩
            rcases snoc h0 _ rq a harr with h | ⟨h, h'⟩
            · exact List.mem_cons_of_mem _ (hu rq a h)
            · cases h
              rw [ha0] at h'
              cases h'
              exact List.mem_cons_self
          · rename_i ha0
            refine ⟨used, fun rq a harr => ?_, hc⟩
            rcases snoc h0 _ rq a harr with h | ⟨h, h'⟩
            · exact hu rq a h
            · cases h
              rw [ha0] at h'
              cases h'
        | work n => exact ⟨used, fun rq a harr => (snoc h0 _ rq a harr).elim (hu rq a) (fun h => nomatch h.1), hc⟩
        | finish n => exact ⟨used, fun rq a harr => (snoc h0 _ rq a harr).elim (hu rq a) (fun h => nomatch h.1), hc⟩
        | drop n => exact ⟨used, fun rq a harr => (snoc h0 _ rq a harr).elim (hu rq a) (fun h => nomatch h.1), hc⟩
        | expire n => exact ⟨used, fun rq a harr => (snoc h0 _ rq a harr).elim (hu rq a) (fun h => nomatch h.1), hc⟩
        | internal n => exact ⟨used, fun rq a harr => (snoc h0 _ rq a harr).elim (hu rq a) (fun h => nomatch h.1), hc⟩
      obtain ⟨used', hu', hc'⟩ := step
      exact ih (h0 ++ [e]) used' hu' hc' l rq h2 a rfl (by simpa using ha) hck rq' a' (by simpa using harr)

end Verif.Http

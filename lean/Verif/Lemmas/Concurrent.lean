import Verif.Spec.Concurrent
import Verif.Props.Http
/-!
Reasoning about requests served at the same time: what each task relies on and what it guarantees.
-/
namespace Verif.Http
open Verif

variable {Sv : Server} {M : Type} (wk : Work Sv) (move : M → Sv.W → Sv.W)

theorem creplay_append (σ : CSt Sv) (h h' : List (CEvent Sv M)) :
    creplay wk move σ (h ++ h') = creplay wk move (creplay wk move σ h) h' := by
  induction h generalizing σ with
  | nil => rfl
  | cons e r ih => exact ih _

theorem creplay_snoc (σ : CSt Sv) (h : List (CEvent Sv M)) (e : CEvent Sv M) :
    creplay wk move σ (h ++ [e]) = cafter wk move (creplay wk move σ h) e := by
  rw [creplay_append]; rfl

/-- Induction over a history from its end. -/
theorem chistory_induction (σ : CSt Sv) (I : List (CEvent Sv M) → CSt Sv → Prop) (h0 : I [] σ)
    (hs : ∀ h e, I h (creplay wk move σ h) → I (h ++ [e]) (cafter wk move (creplay wk move σ h) e))
    (h : List (CEvent Sv M)) : I h (creplay wk move σ h) := by
  suffices H : ∀ (r h : List (CEvent Sv M)), I h (creplay wk move σ h) → I (h ++ r) (creplay wk move σ (h ++ r)) by
    simpa using H h [] h0
  intro r
  induction r with
  | nil => intro h hi; simpa using hi
  | cons e r ih =>
    intro h hi
    have := ih (h ++ [e]) (by rw [creplay_snoc]; exact hs h e hi)
    simpa using this

/-- What a task relies on and guarantees: at each operation, the invariant `J` of the world is kept, whatever
happened since; at the end, the session it stores meets `Q`, and its answer `P`. -/
def Good (w0 : Sv.W) (Q : Sv.Id → List (CEvent Sv M) → Sess Sv → Prop) (J : List (CEvent Sv M) → Sv.W → Prop)
    (P : List (CEvent Sv M) → Request Sv → Accepted Sv → Sv.Resp × Sv.S × Option Keys → Prop)
    (rq : Request Sv) (a : Accepted Sv) :
    List (CEvent Sv M) → Task Sv.W (Sv.Resp × Sv.S × Option Keys) → Prop
  | _, .ret none => True
  | h, .ret (some (resp, data, keys)) => ∀ h' n, h <+: h' →
      (creplay wk move (cstart w0) h').flights n = some ⟨rq, a, .ret (some (resp, data, keys))⟩ →
      P h' rq a (resp, data, keys) ∧ (rq.storeOk = true → Q a.id (h' ++ [.finish n]) ⟨some a.om, keys, data⟩)
  | h, .op f k => ∀ h' n, h <+: h' →
      (creplay wk move (cstart w0) h').flights n = some ⟨rq, a, .op f k⟩ →
      J h' (creplay wk move (cstart w0) h').st.world →
      J (h' ++ [.work n]) (f (creplay wk move (cstart w0) h').st.world) ∧
      Good w0 Q J P rq a (h' ++ [.work n]) (k (creplay wk move (cstart w0) h').st.world)

variable {wk move}

theorem Good.mono {w0 : Sv.W} {Q : Sv.Id → List (CEvent Sv M) → Sess Sv → Prop} {J : List (CEvent Sv M) → Sv.W → Prop}
    {P : List (CEvent Sv M) → Request Sv → Accepted Sv → Sv.Resp × Sv.S × Option Keys → Prop}
    {rq : Request Sv} {a : Accepted Sv} {h h' : List (CEvent Sv M)}
    {t : Task Sv.W (Sv.Resp × Sv.S × Option Keys)} (hg : Good wk move w0 Q J P rq a h t) (hp : h <+: h') :
    Good wk move w0 Q J P rq a h' t := by
  cases t with
  | ret r =>
    cases r with
    | none => trivial
    | some x =>
      obtain ⟨resp, data, keys⟩ := x
      exact fun h'' n hp' hf => hg h'' n (hp.trans hp') hf
  | op f k => exact fun h'' n hp' hf hj => hg h'' n (hp.trans hp') hf hj

theorem prefix_snoc {α : Type} (h : List α) (e : α) : h <+: h ++ [e] := ⟨[e], rfl⟩

/-- The flights after an event. -/
theorem cafter_flights {σ : CSt Sv} {e : CEvent Sv M} {n : Nat} {f : Flight Sv}
    (h : (cafter wk move σ e).flights n = some f) :
    σ.flights n = some f ∨
    (∃ rq a, e = .arrive rq ∧ accept σ.st rq = some a ∧
      f = ⟨rq, a, wk rq.oracle rq.type a.req a.sess.data a.sess.keys⟩) ∨
    (∃ g k, e = .work n ∧ σ.flights n = some ⟨f.rq, f.a, .op g k⟩ ∧ f.task = k σ.st.world) := by
  cases e with
  | arrive rq =>
    simp only [cafter, carrive] at h
    cases ha : accept σ.st rq with
    | none => rw [ha] at h; exact .inl h
    | some a =>
      rw [ha] at h
      simp only [CSt.put] at h
      split at h
      · cases h
        exact .inr (.inl ⟨rq, a, rfl, ha, rfl⟩)
      · exact .inl h
  | work m =>
    simp only [cafter, work] at h
    split at h
    · rename_i rq a g k hf
      simp only [CSt.put] at h
      split at h
      · rename_i hmn
        cases h
        subst hmn
        exact .inr (.inr ⟨g, k, rfl, hf, rfl⟩)
      · exact .inl h
    · exact .inl h
  | finish m =>
    simp only [cafter, finish] at h
    have key : (σ.put m none).flights n = some f → σ.flights n = some f := by
      intro h
      simp only [CSt.put] at h
      split at h
      · cases h
      · exact h
    split at h
    · exact .inl (key h)
    · split at h
      · exact .inl (key h)
      · exact .inl (key h)
    · exact .inl h
  | drop m =>
    simp only [cafter, CSt.put] at h
    split at h
    · cases h
    · exact .inl h
  | expire i => exact .inl h
  | internal m => exact .inl h

/-- The world after an event. -/
theorem cafter_world (σ : CSt Sv) (e : CEvent Sv M) :
    (cafter wk move σ e).st.world = σ.st.world ∨
    (∃ n rq a f k, e = .work n ∧ σ.flights n = some ⟨rq, a, .op f k⟩ ∧
      (cafter wk move σ e).st.world = f σ.st.world) ∨
    (∃ m, e = .internal m ∧ (cafter wk move σ e).st.world = move m σ.st.world) := by
  cases e with
  | arrive rq =>
    left
    simp only [cafter, carrive]
    split <;> rfl
  | work n =>
    simp only [cafter, work]
    split
    · rename_i rq a f k hf
      exact .inr (.inl ⟨n, rq, a, f, k, rfl, hf, rfl⟩)
    · exact .inl rfl
  | finish n =>
    left
    simp only [cafter, finish]
    split
    · rfl
    · split <;> rfl
    · rfl
  | drop n => exact .inl rfl
  | expire i => exact .inl rfl
  | internal m => exact .inr (.inr ⟨m, rfl, rfl⟩)

/-- The sessions after an event. -/
theorem cafter_sessions (σ : CSt Sv) (e : CEvent Sv M) :
    (cafter wk move σ e).st.sessions = σ.st.sessions ∨
    (∃ n rq a resp data keys, e = .finish n ∧ σ.flights n = some ⟨rq, a, .ret (some (resp, data, keys))⟩ ∧
      rq.storeOk = true ∧ ∀ j, (cafter wk move σ e).st.sessions j =
        if j = a.id then some ⟨some a.om, keys, data⟩ else σ.st.sessions j) ∨
    (∃ i, e = .expire i ∧ ∀ j, (cafter wk move σ e).st.sessions j = if j = i then none else σ.st.sessions j) := by
  cases e with
  | arrive rq =>
    left
    simp only [cafter, carrive]
    split <;> rfl
  | work n =>
    left
    simp only [cafter, work]
    split <;> rfl
  | finish n =>
    simp only [cafter, finish]
    split
    · exact .inl rfl
    · rename_i rq a resp data keys hf
      split
      · rename_i hso
        exact .inr (.inl ⟨n, rq, a, resp, data, keys, rfl, hf, hso, fun j => rfl⟩)
      · exact .inl rfl
    · exact .inl rfl
  | drop n => exact .inl rfl
  | expire i => exact .inr (.inr ⟨i, rfl, fun j => rfl⟩)
  | internal m => exact .inl rfl

/-- Invariants of servers which serve requests at the same time: if every request is good when it arrives, then
all sessions are explained by the history, the world is, and all requests being served are good. -/
theorem concurrent_invariant (w0 : Sv.W) (Q : Sv.Id → List (CEvent Sv M) → Sess Sv → Prop)
    (J : List (CEvent Sv M) → Sv.W → Prop)
    (P : List (CEvent Sv M) → Request Sv → Accepted Sv → Sv.Resp × Sv.S × Option Keys → Prop)
    (hnew : ∀ i h, Q i h (Sess.new Sv)) (hmono : ∀ i h e s, Q i h s → Q i (h ++ [e]) s)
    (h0 : J [] w0) (jmono : ∀ h e w, J h w → J (h ++ [e]) w) (jmove : ∀ h m w, J h w → J h (move m w))
    (harr : ∀ h rq a, accept (creplay wk move (cstart w0) h).st rq = some a → Q a.id h a.sess →
      Good wk move w0 Q J P rq a (h ++ [.arrive rq]) (wk rq.oracle rq.type a.req a.sess.data a.sess.keys))
    (h : List (CEvent Sv M)) :
    (∀ i s, (creplay wk move (cstart w0) h).st.sessions i = some s → Q i h s) ∧
    J h (creplay wk move (cstart w0) h).st.world ∧
    ∀ n f, (creplay wk move (cstart w0) h).flights n = some f → Good wk move w0 Q J P f.rq f.a h f.task := by
  refine chistory_induction wk move (cstart w0) (fun h σ => (∀ i s, σ.st.sessions i = some s → Q i h s) ∧
    J h σ.st.world ∧ ∀ n f, σ.flights n = some f → Good wk move w0 Q J P f.rq f.a h f.task) ?_ ?_ h
  · exact ⟨fun i s hs => (nomatch hs), h0, fun n f hf => (nomatch hf)⟩
  · rintro h e ⟨ihs, ihw, ihf⟩
    refine ⟨fun i s hs => ?_, ?_, fun n f hf => ?_⟩
    · rcases cafter_sessions (wk := wk) (move := move) (creplay wk move (cstart w0) h) e with
        hq | ⟨n, rq, a, resp, data, keys, rfl, hfl, hso, hq⟩ | ⟨j, rfl, hq⟩
      · rw [hq] at hs; exact hmono i h e s (ihs i s hs)
      · rw [hq] at hs
        split at hs
        · rename_i hi
          cases hs
          rw [hi]
          exact (ihf n _ hfl h n (List.prefix_refl h) hfl).2 hso
        · exact hmono i h _ s (ihs i s hs)
      · rw [hq] at hs
        split at hs
        · cases hs
        · exact hmono i h _ s (ihs i s hs)
    · rcases cafter_world (wk := wk) (move := move) (creplay wk move (cstart w0) h) e with
        hq | ⟨n, rq, a, f, k, rfl, hfl, hq⟩ | ⟨m, rfl, hq⟩
      · rw [hq]; exact jmono h e _ ihw
      · rw [hq]
        exact (ihf n _ hfl h n (List.prefix_refl h) hfl ihw).1
      · rw [hq]; exact jmono h _ _ (jmove h m _ ihw)
    · rcases cafter_flights hf with hf | ⟨rq, a, rfl, ha, rfl⟩ | ⟨g, k, rfl, hfl, ht⟩
      · exact (ihf n f hf).mono (prefix_snoc h e)
      · refine harr h rq a ha ?_
        obtain ⟨_, hfs, _⟩ := accept_eq_some ha
        rcases findSession_cases hfs with ⟨_, _, _, _, h3⟩ | ⟨_, _, h3, _⟩
        · exact ihs _ _ h3
        · rw [h3]; exact hnew _ _
      · rw [ht]
        exact (ihf n _ hfl h n (List.prefix_refl h) hfl ihw).2

/-- Goodness of a task which does one operation. -/
theorem Good.once {w0 : Sv.W} {Q : Sv.Id → List (CEvent Sv M) → Sess Sv → Prop} {J : List (CEvent Sv M) → Sv.W → Prop}
    {P : List (CEvent Sv M) → Request Sv → Accepted Sv → Sv.Resp × Sv.S × Option Keys → Prop}
    {rq : Request Sv} {a : Accepted Sv} {h : List (CEvent Sv M)}
    {hd : Sv.W → Sv.W × Option (Sv.Resp × Sv.S × Option Keys)}
    (hg : ∀ h' n, h <+: h' → InFlight (creplay wk move (cstart w0) h') n rq a.id →
      J h' (creplay wk move (cstart w0) h').st.world →
      J (h' ++ [.work n]) (hd (creplay wk move (cstart w0) h').st.world).1 ∧
      ∀ resp data keys, (hd (creplay wk move (cstart w0) h').st.world).2 = some (resp, data, keys) →
        ∀ h'' m, h' ++ [.work n] <+: h'' →
          (creplay wk move (cstart w0) h'').flights m = some ⟨rq, a, .ret (some (resp, data, keys))⟩ →
          P h'' rq a (resp, data, keys) ∧ (rq.storeOk = true → Q a.id (h'' ++ [.finish m]) ⟨some a.om, keys, data⟩)) :
    Good wk move w0 Q J P rq a h (Task.once hd) := by
  intro h' n hp hf hj
  obtain ⟨h1, h2⟩ := hg h' n hp ⟨a, _, hf, rfl⟩ hj
  refine ⟨h1, ?_⟩
  show Good wk move w0 Q J P rq a (h' ++ [.work n]) (.ret (hd (creplay wk move (cstart w0) h').st.world).2)
  cases hr : (hd (creplay wk move (cstart w0) h').st.world).2 with
  | none => trivial
  | some x =>
    obtain ⟨resp, data, keys⟩ := x
    exact h2 resp data keys hr

/-- The reply of a request whose handler succeeded. -/
theorem replyOf_ret {σ : CSt Sv} {n : Nat} {rq : Request Sv} {a : Accepted Sv} {resp : Sv.Resp} {data : Sv.S}
    {keys : Option Keys} (hf : σ.flights n = some ⟨rq, a, .ret (some (resp, data, keys))⟩) (hs : rq.storeOk = true) :
    replyOf σ n = some (respond a.om resp a.cookie keys rq.iv) := by
  simp only [replyOf, hf, hs, if_true]

/-- A reply other than a refusal comes from a handler which succeeded. -/
theorem replies_ok {σ : CSt Sv} {e : CEvent Sv M} {rq : Request Sv} {i : Sv.Id} {om : MsgType} {b : Bytes}
    {tok : Option (List Char)} (h : Replies σ e rq i (.ok om b tok)) :
    ∃ n a resp data keys, e = .finish n ∧ σ.flights n = some ⟨rq, a, .ret (some (resp, data, keys))⟩ ∧ a.id = i ∧
      rq.storeOk = true ∧ om = a.om ∧ encOk a.om keys = true ∧
      encryptWith Sv.aead keys rq.iv (Sv.encode resp) = some b ∧ tok = a.cookie := by
  obtain ⟨n, rfl, ⟨a, t, hf, hi⟩, hr⟩ := h
  unfold replyOf at hr
  rw [hf] at hr
  cases t with
  | op f k => simp at hr
  | ret r =>
    cases r with
    | none => simp at hr
    | some x =>
      obtain ⟨resp, data, keys⟩ := x
      simp only at hr
      split at hr
      · rename_i hso
        unfold respond at hr
        split at hr
        · simp at hr
        rename_i he
        split at hr
        · simp at hr
        rename_i b' hb
        simp only [Option.some.injEq, Reply.ok.injEq] at hr
        obtain ⟨rfl, rfl, rfl⟩ := hr
        exact ⟨n, a, resp, data, keys, rfl, hf, hi, hso, rfl, by simpa using he, hb, rfl⟩
      · simp at hr

/-- A handler's answer in clear. -/
theorem replies_clear {σ : CSt Sv} {n : Nat} {rq : Request Sv} {a : Accepted Sv} {resp : Sv.Resp} {data : Sv.S}
    (hf : σ.flights n = some ⟨rq, a, .ret (some (resp, data, none))⟩) (hs : rq.storeOk = true)
    (hc : a.om ∈ Spec.clear) :
    Replies (M := M) σ (.finish n) rq a.id (.ok a.om (Sv.encode resp) a.cookie) := by
  refine ⟨n, rfl, ⟨a, _, hf, rfl⟩, ?_⟩
  rw [replyOf_ret hf hs]
  unfold respond encOk
  rw [(encReq_spec a.om).2.2 hc]
  rfl

end Verif.Http

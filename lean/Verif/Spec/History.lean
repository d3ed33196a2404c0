import Verif.Props.Http
/-!
Histories of a server: requests from any number of clients, expiry of sessions, and internal moves of the
server (such as maintenance of its stores) given by `move`. Used to state properties of every history.
-/
namespace Verif.Http
open Verif

variable {Sv : Server} {M : Type} (move : M → Sv.W → Sv.W)

/-- What happens to a server. -/
inductive Event (Sv : Server) (M : Type) where
  | request (rq : Request Sv)
  | expire (i : Sv.Id)
  | internal (m : M)

/-- State after one event. -/
def after (σ : St Sv) : Event Sv M → St Sv
  | .request rq => (step σ rq).1
  | .expire i => { σ with sessions := fun j => if j = i then none else σ.sessions j }
  | .internal m => { σ with world := move m σ.world }

/-- State after a history. -/
def replay (σ : St Sv) : List (Event Sv M) → St Sv
  | [] => σ
  | e :: r => replay (after move σ e) r

/-- A server that has not served anything yet. -/
def start (w : Sv.W) : St Sv := ⟨fun _ => none, w⟩

/-- The request reaches its handler in session `i`. -/
def InSession (σ : St Sv) (rq : Request Sv) (i : Sv.Id) : Prop := ∃ a, accept σ rq = some a ∧ a.id = i

theorem replay_append (σ : St Sv) (h h' : List (Event Sv M)) :
    replay move σ (h ++ h') = replay move (replay move σ h) h' := by
  induction h generalizing σ with
  | nil => rfl
  | cons e r ih => exact ih _

theorem replay_snoc (σ : St Sv) (h : List (Event Sv M)) (e : Event Sv M) :
    replay move σ (h ++ [e]) = after move (replay move σ h) e := by
  rw [replay_append]; rfl

/-- Induction over a history from its end. -/
theorem history_induction (σ : St Sv) (I : List (Event Sv M) → St Sv → Prop) (h0 : I [] σ)
    (hs : ∀ h e, I h (replay move σ h) → I (h ++ [e]) (after move (replay move σ h) e)) (h : List (Event Sv M)) :
    I h (replay move σ h) := by
  suffices H : ∀ (r h : List (Event Sv M)), I h (replay move σ h) → I (h ++ r) (replay move σ (h ++ r)) by
    simpa using H h [] h0
  intro r
  induction r with
  | nil => intro h hi; simpa using hi
  | cons e r ih =>
    intro h hi
    have := ih (h ++ [e]) (by rw [replay_snoc]; exact hs h e hi)
    simpa using this

/-- Every event keeps the history as it is as far as earlier events are concerned. -/
theorem split_snoc {α : Type} {h h1 h2 : List α} {x e : α} (hh : h = h1 ++ x :: h2) :
    h ++ [e] = h1 ++ x :: (h2 ++ [e]) := by rw [hh]; simp

/-- Invariants of sessions: `Q i h s` says that the history `h` explains that session `i` is `s`. It has
to hold for new sessions, to survive everything but the expiry of the session, and to be established by
every request that is answered. -/
theorem session_invariant (w0 : Sv.W) (Q : Sv.Id → List (Event Sv M) → Sess Sv → Prop)
    (hnew : ∀ i h, Q i h (Sess.new Sv))
    (hmono : ∀ i h e s, Q i h s → (∀ j, e = .expire j → j ≠ i) → Q i (h ++ [e]) s)
    (hstep : ∀ h rq a w resp data keys, accept (replay move (start w0) h) rq = some a →
      Sv.handle rq.oracle rq.type a.req a.sess.data a.sess.keys (replay move (start w0) h).world = (w, some (resp, data, keys)) →
      rq.storeOk = true → Q a.id h a.sess → Q a.id (h ++ [.request rq]) ⟨some a.om, keys, data⟩)
    (h : List (Event Sv M)) :
    (∀ i s, (replay move (start w0) h).sessions i = some s → Q i h s) ∧
    (∀ rq a, accept (replay move (start w0) h) rq = some a → Q a.id h a.sess) := by
  have hacc : ∀ h, (∀ i s, (replay move (start w0) h).sessions i = some s → Q i h s) →
      ∀ rq a, accept (replay move (start w0) h) rq = some a → Q a.id h a.sess := by
    intro h hs rq a ha
    obtain ⟨_, hf, _⟩ := accept_eq_some ha
    rcases findSession_cases hf with ⟨_, _, _, _, h3⟩ | ⟨_, _, h3, _⟩
    · exact hs _ _ h3
    · rw [h3]; exact hnew _ _
  have main := history_induction move (start w0)
    (fun h σ => ∀ i s, σ.sessions i = some s → Q i h s) (fun i s hs => by cases hs) ?_ h
  · exact ⟨main, hacc h main⟩
  · intro h e ih i s hs
    cases e with
    | internal m => exact hmono i h _ s (ih i s hs) (fun j hj => by cases hj)
    | expire j =>
      simp only [after] at hs
      split at hs
      · cases hs
      · rename_i hne
        exact hmono i h _ s (ih i s hs) (fun j' hj => by cases hj; exact fun hh => hne hh.symm)
    | request rq =>
      have keep : (replay move (start w0) h).sessions i = some s → Q i (h ++ [.request rq]) s :=
        fun hs => hmono i h _ s (ih i s hs) (fun j hj => by cases hj)
      simp only [after, step] at hs
      cases ha : accept (replay move (start w0) h) rq with
      | none => rw [ha] at hs; exact keep hs
      | some a =>
        rw [ha] at hs
        simp only at hs
        cases hh : Sv.handle rq.oracle rq.type a.req a.sess.data a.sess.keys (replay move (start w0) h).world with
        | mk w o =>
          rw [hh] at hs
          cases o with
          | none => exact keep hs
          | some out =>
            obtain ⟨resp, data, keys⟩ := out
            simp only at hs
            cases hso : rq.storeOk with
            | false => rw [hso] at hs; exact keep hs
            | true =>
              rw [hso] at hs
              simp only [Bool.not_true, Bool.false_eq_true, if_false, putSession] at hs
              split at hs
              · rename_i hi
                cases hs
                rw [hi]
                exact hstep h rq a w resp data keys ha hh hso (hacc h ih rq a ha)
              · exact keep hs

/-- Invariants of the world: `J h w` says that the history `h` explains the world `w`. -/
theorem world_invariant (w0 : Sv.W) (J : List (Event Sv M) → Sv.W → Prop) (h0 : J [] w0)
    (hmono : ∀ h e, (∀ m, e ≠ .internal m) → J h (replay move (start w0) h).world → J (h ++ [e]) (replay move (start w0) h).world)
    (hint : ∀ h m, J h (replay move (start w0) h).world → J (h ++ [.internal m]) (move m (replay move (start w0) h).world))
    (hreq : ∀ h rq a, accept (replay move (start w0) h) rq = some a → J h (replay move (start w0) h).world →
      J (h ++ [.request rq])
        (Sv.handle rq.oracle rq.type a.req a.sess.data a.sess.keys (replay move (start w0) h).world).1)
    (h : List (Event Sv M)) : J h (replay move (start w0) h).world := by
  refine history_induction move (start w0) (fun h σ => J h σ.world) h0 ?_ h
  intro h e ih
  cases e with
  | expire i => exact hmono h _ (fun m hm => nomatch hm) ih
  | internal m => exact hint h m ih
  | request rq =>
    simp only [after, step]
    cases ha : accept (replay move (start w0) h) rq with
    | none => exact hmono h _ (fun m hm => nomatch hm) ih
    | some a =>
      have := hreq h rq a ha ih
      simp only
      cases hh : Sv.handle rq.oracle rq.type a.req a.sess.data a.sess.keys (replay move (start w0) h).world with
      | mk w o =>
        rw [hh] at this
        cases o with
        | none => exact this
        | some out =>
          simp only
          split
          · exact this
          · exact this

/-- A successful reply comes from the handler, whose session was stored. -/
theorem step_ok {σ : St Sv} {rq : Request Sv} {om : MsgType} {b : Bytes} {tok : Option (List Char)}
    (h : (step σ rq).2 = .ok om b tok) :
    ∃ a w resp data keys, accept σ rq = some a ∧
      Sv.handle rq.oracle rq.type a.req a.sess.data a.sess.keys σ.world = (w, some (resp, data, keys)) ∧
      rq.storeOk = true ∧ om = a.om ∧ encryptWith Sv.aead keys rq.iv (Sv.encode resp) = some b ∧ tok = a.cookie := by
  unfold step at h
  cases ha : accept σ rq with
  | none => rw [ha] at h; cases h
  | some a =>
    rw [ha] at h
    simp only at h
    cases hh : Sv.handle rq.oracle rq.type a.req a.sess.data a.sess.keys σ.world with
    | mk w o =>
      rw [hh] at h
      cases o with
      | none => cases h
      | some out =>
        obtain ⟨resp, data, keys⟩ := out
        simp only at h
        split at h
        · cases h
        rename_i hso
        unfold respond at h
        split at h
        · cases h
        split at h
        · cases h
        rename_i b' hb
        cases h
        exact ⟨a, w, resp, data, keys, rfl, hh, by simpa using hso, rfl, hb, rfl⟩

/-- The world after a request is what the handler leaves. -/
theorem step_world {σ : St Sv} {rq : Request Sv} {a : Accepted Sv} (ha : accept σ rq = some a) :
    (step σ rq).1.world = (Sv.handle rq.oracle rq.type a.req a.sess.data a.sess.keys σ.world).1 := by
  unfold step
  rw [ha]
  simp only
  cases hh : Sv.handle rq.oracle rq.type a.req a.sess.data a.sess.keys σ.world with
  | mk w o =>
    cases o with
    | none => rfl
    | some out =>
      simp only
      split <;> rfl

/-- The reply to a request whose handler succeeds. -/
theorem step_reply {σ : St Sv} {rq : Request Sv} {a : Accepted Sv} {w : Sv.W} {resp : Sv.Resp}
    {data : Sv.S} {keys : Option Keys} (ha : accept σ rq = some a)
    (hh : Sv.handle rq.oracle rq.type a.req a.sess.data a.sess.keys σ.world = (w, some (resp, data, keys)))
    (hs : rq.storeOk = true) : (step σ rq).2 = respond a.om resp a.cookie keys rq.iv := by
  unfold step
  rw [ha]
  simp only [hh, hs, Bool.not_true, Bool.false_eq_true, if_false]

/-- The sessions after a request, and its reply. -/
theorem step_sessions (σ : St Sv) (rq : Request Sv) :
    (step σ rq).1.sessions = σ.sessions ∧ (∀ om b tok, (step σ rq).2 ≠ .ok om b tok) ∨
    ∃ a w resp data keys, accept σ rq = some a ∧
      Sv.handle rq.oracle rq.type a.req a.sess.data a.sess.keys σ.world = (w, some (resp, data, keys)) ∧
      (∀ j, (step σ rq).1.sessions j = if j = a.id then some ⟨some a.om, keys, data⟩ else σ.sessions j) ∧
      (step σ rq).2 = respond a.om resp a.cookie keys rq.iv := by
  unfold step
  cases ha : accept σ rq with
  | none => exact .inl ⟨rfl, fun _ _ _ h => nomatch h⟩
  | some a =>
    simp only
    cases hh : Sv.handle rq.oracle rq.type a.req a.sess.data a.sess.keys σ.world with
    | mk w o =>
      cases o with
      | none => exact .inl ⟨rfl, fun _ _ _ h => nomatch h⟩
      | some out =>
        obtain ⟨resp, data, keys⟩ := out
        simp only
        cases hso : rq.storeOk with
        | false => exact .inl ⟨rfl, fun _ _ _ h => nomatch h⟩
        | true => exact .inr ⟨a, w, resp, data, keys, rfl, hh, fun j => rfl, rfl⟩

/-- A handler's answer is sent in clear if the type of the request demands a session without keys, and
the keys stay. -/
theorem step_clear {σ : St Sv} {rq : Request Sv} {a : Accepted Sv} {w : Sv.W} {resp : Sv.Resp} {data : Sv.S}
    (ha : accept σ rq = some a) (hc : rq.type ∈ Spec.clear) (hc' : a.om ∈ Spec.clear)
    (hh : Sv.handle rq.oracle rq.type a.req a.sess.data a.sess.keys σ.world = (w, some (resp, data, a.sess.keys)))
    (hs : rq.storeOk = true) : (step σ rq).2 = .ok a.om (Sv.encode resp) a.cookie := by
  have hk := ((C23_requests σ rq a ha).2.1 hc).1
  unfold step
  rw [ha]
  simp only [hh, hs, Bool.not_true, Bool.false_eq_true, if_false]
  unfold respond encOk
  rw [(encReq_spec a.om).2.2 hc', hk]
  rfl

end Verif.Http

import Verif.Model.Http
import Verif.Spec.Protocol
/-!
Properties C22–C26: message order, encryption, session isolation, client side acceptance, replay.
-/
namespace Verif.Http
open Verif Verif.Spec

variable {Sv : Server}

/-! ### The static tables -/

/-- The implementation's message tables agree with the protocol graph, for the routes of the three
servers. -/
theorem routes_protocol (p : Option MsgType) (im om : MsgType)
    (h : (im, om) ∈ rvRoutes ++ ownerRoutes ++ mfgRoutes) :
    im.validPrev p = true ↔ (p, im, om) ∈ protocol := by
  have : ∀ r ∈ rvRoutes ++ ownerRoutes ++ mfgRoutes, ∀ p : Option MsgType,
      r.1.validPrev p = true ↔ (p, r.1, r.2) ∈ protocol := by
    intro r hr p
    simp only [rvRoutes, ownerRoutes, mfgRoutes, List.cons_append, List.nil_append, List.mem_cons,
      List.not_mem_nil, or_false] at hr
    rcases hr with rfl | rfl | rfl | rfl | rfl | rfl | rfl | rfl | rfl | rfl | rfl | rfl | rfl | rfl | rfl <;>
      simp [MsgType.validPrev, protocol]
  exact this (im, om) h p

theorem encReq_spec (t : MsgType) :
    (t.encReq = some .mustBe ↔ t ∈ secret) ∧ (t.encReq = some .mustNotBe ↔ t ∈ clear) := by
  cases t <;> decide

/-- The servers start: every route passes the startup check. -/
theorem startup_ok : startup rvRoutes = .ok () ∧ startup ownerRoutes = .ok () ∧ startup mfgRoutes = .ok () := by
  decide

/-! ### What reaches a handler -/

theorem routeOf_mem {routes : List (MsgType × MsgType)} {t om : MsgType} (h : routeOf routes t = some om) :
    (t, om) ∈ routes := by
  unfold routeOf at h
  cases hf : routes.find? (fun r => r.1 = t) with
  | none => rw [hf] at h; cases h
  | some r =>
    rw [hf] at h
    simp only [Option.map_some, Option.some.injEq] at h
    have h1 := List.find?_some hf
    have h2 := List.mem_of_find?_eq_some hf
    simp only [decide_eq_true_eq] at h1
    rw [← h1, ← h]
    exact h2

theorem accept_eq_some {σ : St Sv} {rq : Request Sv} {a : Accepted Sv} (h : accept σ rq = some a) :
    routeOf Sv.routes rq.type = some a.om ∧ findSession σ rq = some (a.id, a.sess, a.cookie) ∧
    rq.type.validPrev a.sess.last = true ∧ encOk rq.type a.sess.keys = true ∧
    ∃ plain, decryptWith Sv.aead a.sess.keys rq.body = some plain ∧ Sv.decode rq.type plain = some a.req := by
  unfold accept at h
  split at h
  · cases h
  rename_i om hr
  split at h
  · cases h
  split at h
  · cases h
  split at h
  · cases h
  rename_i i s c hf
  split at h
  · cases h
  rename_i req hp
  cases h
  refine ⟨hr, hf, ?_⟩
  unfold parseRequest at hp
  split at hp
  · cases hp
  rename_i h1
  split at hp
  · cases hp
  rename_i h2
  refine ⟨by simpa using h1, by simpa using h2, ?_⟩
  split at hp
  · cases hp
  · rename_i plain hd
    exact ⟨plain, hd, hp⟩

/-- Which session a request addresses: the one its token names, if it exists; otherwise none. -/
def Addresses (σ : St Sv) (rq : Request Sv) (i : Sv.Id) (s : Sess Sv) : Prop :=
  ∃ hdr, rq.auth = some hdr ∧ Sv.idOf (bearer hdr) = some i ∧ σ.sessions i = some s

theorem findSession_cases {σ : St Sv} {rq : Request Sv} {i : Sv.Id} {s : Sess Sv} {c : Option (List Char)}
    (h : findSession σ rq = some (i, s, c)) :
    (c = none ∧ Addresses σ rq i s) ∨
    (c = some rq.freshCookie ∧ Sv.idOf rq.freshCookie = some i ∧ s = Sess.new Sv ∧
      ∀ j s', ¬ Addresses σ rq j s') := by
  unfold findSession at h
  simp only at h
  cases ha : rq.auth with
  | none =>
    rw [ha] at h
    simp only [Option.map_eq_some_iff] at h
    obtain ⟨i', h1, h2⟩ := h
    cases h2
    refine .inr ⟨rfl, h1, rfl, ?_⟩
    rintro j s' ⟨hdr, h, _⟩
    rw [ha] at h; cases h
  | some hdr =>
    rw [ha] at h
    simp only at h
    cases hi : Sv.idOf (bearer hdr) with
    | none => rw [hi] at h; cases h
    | some j =>
      rw [hi] at h
      simp only at h
      cases hs : σ.sessions j with
      | some s' =>
        rw [hs] at h
        cases h
        exact .inl ⟨rfl, hdr, ha, hi, hs⟩
      | none =>
        rw [hs] at h
        simp only [Option.map_eq_some_iff] at h
        obtain ⟨i', h1, h2⟩ := h
        cases h2
        refine .inr ⟨rfl, h1, rfl, ?_⟩
        rintro j' s' ⟨hdr', h, h', h''⟩
        rw [ha] at h; cases h
        rw [hi] at h'; cases h'
        rw [hs] at h''; cases h''

/-! ### C22 -/

/-- The exchanges of a run: session id, request type, and the response type recorded in the session, if
the handler did not refuse. -/
def exchanges (σ : St Sv) : List (Act Sv) → List (Sv.Id × MsgType × Option MsgType)
  | [] => []
  | .request rq :: r =>
    (match accept σ rq with
      | none => []
      | some a =>
        [(a.id, rq.type,
          match Sv.handle rq.oracle rq.type a.req a.sess.data a.sess.keys σ.world with
          | (_, none) => none
          | (_, some _) => if rq.storeOk then some a.om else none)]) ++
    exchanges (act σ (.request rq)) r
  | a :: r => exchanges (act σ a) r

/-- The exchanges of one session. -/
def ofSession (i : Sv.Id) (l : List (Sv.Id × MsgType × Option MsgType)) : List (MsgType × Option MsgType) :=
  (l.filter (fun e => e.1 = i)).map (·.2)

/-- Randomness of session cookies: the ids of new sessions were never used before. -/
def FreshIds : List Sv.Id → List (Act Sv) → Prop
  | _, [] => True
  | used, .request rq :: r =>
    (∀ i, Sv.idOf rq.freshCookie = some i → i ∉ used ∧ FreshIds (i :: used) r) ∧
    (Sv.idOf rq.freshCookie = none → FreshIds used r)
  | used, _ :: r => FreshIds used r

theorem freshIds_mono {used used' : List Sv.Id} (acts : List (Act Sv)) (hsub : ∀ i ∈ used', i ∈ used)
    (h : FreshIds used acts) : FreshIds used' acts := by
  induction acts generalizing used used' with
  | nil => trivial
  | cons a r ih =>
    cases a with
    | request rq =>
      obtain ⟨h1, h2⟩ := h
      refine ⟨fun i hi => ?_, fun hn => ih hsub (h2 hn)⟩
      obtain ⟨h3, h4⟩ := h1 i hi
      refine ⟨fun hm => h3 (hsub i hm), ih ?_ h4⟩
      intro j hj
      rcases List.mem_cons.1 hj with rfl | hj
      · simp
      · exact List.mem_cons_of_mem _ (hsub j hj)
    | expire i => exact ih hsub h
    | outside w => exact ih hsub h

/-- Position of a session in the protocol: nothing is known about ids not yet used. -/
theorem exchanges_path (hroutes : ∀ r ∈ Sv.routes, r ∈ rvRoutes ++ ownerRoutes ++ mfgRoutes)
    (acts : List (Act Sv)) : ∀ (used : List Sv.Id) (σ : St Sv),
    (∀ i, σ.sessions i ≠ none → i ∈ used) → FreshIds used acts → ∀ i,
      (∀ s, σ.sessions i = some s → Path s.last (ofSession i (exchanges σ acts))) ∧
      (i ∉ used → Path none (ofSession i (exchanges σ acts))) ∧
      (i ∈ used → σ.sessions i = none → ofSession i (exchanges σ acts) = []) := by
  induction acts with
  | nil =>
    intro used σ _ _ i
    exact ⟨fun _ _ => .nil _, fun _ => .nil _, fun _ _ => rfl⟩
  | cons a r ih =>
    intro used σ hu hf i
    cases a with
    | outside w =>
      exact ih used { σ with world := w } hu hf i
    | expire j =>
      have hu' : ∀ i, (act σ (.expire j)).sessions i ≠ none → i ∈ used := by
        intro i hi
        refine hu i fun hn => hi ?_
        simp only [act]
        split
        · rfl
        · exact hn
      obtain ⟨h1, h2, h3⟩ := ih used _ hu' hf i
      have e : exchanges σ (.expire j :: r) = exchanges (act σ (.expire j)) r := rfl
      rw [e]
      refine ⟨?_, h2, ?_⟩
      · intro s hs
        by_cases hij : i = j
        · have : (act σ (.expire j)).sessions i = none := by simp [act, hij]
          rw [h3 (hu i (by rw [hs]; simp)) this]
          exact .nil _
        · exact h1 s (by simpa [act, hij] using hs)
      · intro hi hs
        refine h3 hi ?_
        simp only [act]
        split
        · rfl
        · exact hs
    | request rq =>
      have e : exchanges σ (.request rq :: r) = _ ++ exchanges (step σ rq).1 r := rfl
      cases ha : accept σ rq with
      | none =>
        have hst : (step σ rq).1 = σ := by simp [step, ha]
        have hf' : FreshIds used r := by
          cases hn : Sv.idOf rq.freshCookie with
          | none => exact hf.2 hn
          | some k => exact freshIds_mono r (fun i h => by simp [h]) (hf.1 k hn).2
        rw [e, ha, hst]
        exact ih used σ hu hf' i
      | some a =>
        obtain ⟨hr, hfs, hv, _, _⟩ := accept_eq_some ha
        have hpm : ∀ om, (rq.type, om) ∈ Sv.routes → (a.sess.last, rq.type, om) ∈ protocol := fun om ho =>
          (routes_protocol _ _ _ (hroutes _ ho)).1 hv
        have hmem := hpm _ (routeOf_mem hr)
        -- the ids in use afterwards, and the state reached
        have hused : ∃ used', (∀ j ∈ used, j ∈ used') ∧ a.id ∈ used' ∧ FreshIds used' r ∧
            (∀ j ∈ used', j ∈ used ∨ j = a.id ∨ Sv.idOf rq.freshCookie = some j) ∧
            (∀ j, j ∉ used → j ∈ used' → j ≠ a.id → σ.sessions j = none) ∧
            ((a.id ∈ used ∧ σ.sessions a.id = some a.sess) ∨ (a.id ∉ used ∧ a.sess = Sess.new Sv)) := by
          rcases findSession_cases hfs with ⟨_, hdr, h1, h2, h3⟩ | ⟨_, h1, h2, _⟩
          · have hin := hu a.id (by rw [h3]; simp)
            refine ⟨used, fun _ h => h, hin, ?_, fun j h => .inl h, fun j h h' => absurd h' h, .inl ⟨hin, h3⟩⟩
            cases hn : Sv.idOf rq.freshCookie with
            | none => exact hf.2 hn
            | some k => exact freshIds_mono r (fun i h => by simp [h]) (hf.1 k hn).2
          · obtain ⟨h3, h4⟩ := hf.1 _ h1
            refine ⟨a.id :: used, fun _ h => by simp [h], by simp, h4, ?_, ?_, .inr ⟨h3, h2⟩⟩
            · intro j hj
              rcases List.mem_cons.1 hj with rfl | hj
              · exact .inr (.inl rfl)
              · exact .inl hj
            · intro j hj hj' hne
              rcases List.mem_cons.1 hj' with rfl | hj'
              · exact absurd rfl hne
              · exact absurd hj' hj
        obtain ⟨used', hsub, hain, hf', hback, hnone, hpos⟩ := hused
        cases hh : Sv.handle rq.oracle rq.type a.req a.sess.data a.sess.keys σ.world with
        | mk w o =>
        have refusedCase : (step σ rq).1 = { σ with world := w } →
            exchanges σ (.request rq :: r) = (a.id, rq.type, none) :: exchanges (step σ rq).1 r →
            ((∀ s, σ.sessions i = some s → Path s.last (ofSession i (exchanges σ (.request rq :: r)))) ∧
             (i ∉ used → Path none (ofSession i (exchanges σ (.request rq :: r)))) ∧
             (i ∈ used → σ.sessions i = none → ofSession i (exchanges σ (.request rq :: r)) = [])) := by
          intro hst hex
          have hu' : ∀ j, ({ σ with world := w } : St Sv).sessions j ≠ none → j ∈ used' :=
            fun j hj => hsub j (hu j hj)
          obtain ⟨i1, i2, i3⟩ := ih used' _ hu' hf' i
          rw [hex, hst]
          by_cases hi : a.id = i
          · subst hi
            have ef : ofSession a.id ((a.id, rq.type, none) :: exchanges { σ with world := w } r) =
                (rq.type, none) :: ofSession a.id (exchanges { σ with world := w } r) := by
              simp [ofSession]
            rw [ef]
            refine ⟨?_, ?_, ?_⟩
            · intro s hs
              rcases hpos with ⟨_, h⟩ | ⟨h, _⟩
              · rw [hs] at h; cases h
                exact .refused hmem (i1 _ hs)
              · exact absurd (hu a.id (by rw [hs]; simp)) h
            · intro hn
              rcases hpos with ⟨h, _⟩ | ⟨_, h⟩
              · exact absurd h hn
              · have hsn : σ.sessions a.id = none := by
                  cases hs : σ.sessions a.id with
                  | none => rfl
                  | some s => exact absurd (hu a.id (by rw [hs]; simp)) hn
                rw [i3 hain hsn]
                rw [h] at hmem
                exact .refused hmem (.nil _)
            · intro hin hs
              rcases hpos with ⟨_, h⟩ | ⟨h, _⟩
              · rw [hs] at h; cases h
              · exact absurd hin h
          · have ef : ofSession i ((a.id, rq.type, none) :: exchanges { σ with world := w } r) =
                ofSession i (exchanges { σ with world := w } r) := by
              simp [ofSession, hi]
            rw [ef]
            refine ⟨i1, ?_, fun hin hs => i3 (hsub i hin) hs⟩
            intro hn
            by_cases hin' : i ∈ used'
            · rw [i3 hin' (hnone i hn hin' (Ne.symm hi))]; exact .nil _
            · exact i2 hin'
        cases o with
        | none =>
          refine refusedCase (by simp [step, ha, hh]) ?_
          rw [e, ha]; simp [hh]
        | some out =>
          obtain ⟨resp, data, keys⟩ := out
          cases hso : rq.storeOk with
          | false =>
            refine refusedCase (by simp [step, ha, hh, hso]) ?_
            rw [e, ha]; simp [hh, hso]
          | true =>
            have hst : (step σ rq).1 = putSession { σ with world := w } a.id ⟨some a.om, keys, data⟩ := by
              simp [step, ha, hh, hso]
            have hex : exchanges σ (.request rq :: r) =
                (a.id, rq.type, some a.om) :: exchanges (step σ rq).1 r := by
              rw [e, ha]; simp [hh, hso]
            rw [hex, hst]
            generalize hσ' : putSession { σ with world := w } a.id ⟨some a.om, keys, data⟩ = σ'
            have hsame : ∀ j, j ≠ a.id → σ'.sessions j = σ.sessions j := by
              intro j hj; subst hσ'; simp [putSession, hj]
            have hown : σ'.sessions a.id = some ⟨some a.om, keys, data⟩ := by
              subst hσ'; simp [putSession]
            have hu' : ∀ j, σ'.sessions j ≠ none → j ∈ used' := by
              intro j hj
              by_cases hja : j = a.id
              · rw [hja]; exact hain
              · rw [hsame j hja] at hj; exact hsub j (hu j hj)
            obtain ⟨i1, i2, i3⟩ := ih used' σ' hu' hf' i
            by_cases hi : a.id = i
            · subst hi
              have ef : ofSession a.id ((a.id, rq.type, some a.om) :: exchanges σ' r) =
                  (rq.type, some a.om) :: ofSession a.id (exchanges σ' r) := by
                simp [ofSession]
              rw [ef]
              have hp := i1 _ hown
              refine ⟨?_, ?_, ?_⟩
              · intro s hs
                rcases hpos with ⟨_, h⟩ | ⟨h, _⟩
                · rw [hs] at h; cases h
                  exact .answered hmem hp
                · exact absurd (hu a.id (by rw [hs]; simp)) h
              · intro hn
                rcases hpos with ⟨h, _⟩ | ⟨_, h⟩
                · exact absurd h hn
                · rw [h] at hmem
                  exact .answered hmem hp
              · intro hin hs
                rcases hpos with ⟨_, h⟩ | ⟨h, _⟩
                · rw [hs] at h; cases h
                · exact absurd hin h
            · have ef : ofSession i ((a.id, rq.type, some a.om) :: exchanges σ' r) =
                  ofSession i (exchanges σ' r) := by
                simp [ofSession, hi]
              rw [ef]
              refine ⟨fun s hs => i1 s (by rw [hsame i (Ne.symm hi)]; exact hs), ?_,
                fun hin hs => i3 (hsub i hin) (by rw [hsame i (Ne.symm hi)]; exact hs)⟩
              intro hn
              by_cases hin' : i ∈ used'
              · rw [i3 hin' (by rw [hsame i (Ne.symm hi)]; exact hnone i hn hin' (Ne.symm hi))]; exact .nil _
              · exact i2 hin'

/-- **C22**: for every history of requests, expiries and outside changes on a server that starts without
sessions and creates sessions under unused ids, the exchanges of every session form a path in the
protocol graph. -/
theorem C22_message_order (hroutes : ∀ r ∈ Sv.routes, r ∈ rvRoutes ++ ownerRoutes ++ mfgRoutes)
    (w : Sv.W) (acts : List (Act Sv)) (hf : FreshIds [] acts) (i : Sv.Id) :
    Path none (ofSession i (exchanges ⟨fun _ => none, w⟩ acts)) :=
  (exchanges_path hroutes acts [] ⟨fun _ => none, w⟩ (fun _ h => absurd rfl h) hf i).2.1 (by simp)

/-- **C22** (everything else is refused): a request that is not allowed after the last response of the
session it addresses is rejected and changes nothing at all. -/
theorem C22_out_of_order_rejected (σ : St Sv) (rq : Request Sv)
    (hroutes : ∀ r ∈ Sv.routes, r ∈ rvRoutes ++ ownerRoutes ++ mfgRoutes)
    (i : Sv.Id) (s : Sess Sv) (ha : Addresses σ rq i s)
    (hno : ∀ om, (s.last, rq.type, om) ∉ protocol) : step σ rq = (σ, .reject) := by
  cases h : accept σ rq with
  | none => simp [step, h]
  | some a =>
    exfalso
    obtain ⟨hr, hfs, hv, _, _⟩ := accept_eq_some h
    have hs : a.sess = s := by
      rcases findSession_cases hfs with ⟨_, hdr, h1, h2, h3⟩ | ⟨_, _, _, h4⟩
      · obtain ⟨hdr', g1, g2, g3⟩ := ha
        rw [h1] at g1; cases g1
        rw [h2] at g2; cases g2
        rw [h3] at g3; cases g3
        rfl
      · exact absurd ha (h4 i s)
    rw [hs] at hv
    exact hno _ ((routes_protocol _ _ _ (hroutes _ (routeOf_mem hr))).1 hv)

/-- **C22** (a refused request leaves all sessions as they were). -/
theorem C22_reject_keeps_sessions (σ : St Sv) (rq : Request Sv)
    (h : accept σ rq = none ∨ ∃ a, accept σ rq = some a ∧
      (Sv.handle rq.oracle rq.type a.req a.sess.data a.sess.keys σ.world).2 = none) :
    (step σ rq).1.sessions = σ.sessions ∧ (step σ rq).2 = .reject := by
  rcases h with h | ⟨a, h, hh⟩
  · simp [step, h]
  · unfold step
    rw [h]
    simp only
    cases hd : Sv.handle rq.oracle rq.type a.req a.sess.data a.sess.keys σ.world with
    | mk w o =>
      rw [hd] at hh
      simp only at hh
      subst hh
      simp

/-! ### C23 -/

/-- **C23** (requests): a request whose type must be encrypted reaches its handler only in a session
with keys, as what its body decrypts to under them; a type that must be in clear only in a session
without keys; any other type is decrypted if there are keys. -/
theorem C23_requests (σ : St Sv) (rq : Request Sv) (a : Accepted Sv) (h : accept σ rq = some a) :
    (rq.type ∈ secret → ∃ k plain, a.sess.keys = some k ∧ Sv.aead.decrypt k.sevk rq.body = some plain ∧
      Sv.decode rq.type plain = some a.req) ∧
    (rq.type ∈ clear → a.sess.keys = none ∧ Sv.decode rq.type rq.body = some a.req) ∧
    (∀ k, a.sess.keys = some k → ∃ plain, Sv.aead.decrypt k.sevk rq.body = some plain ∧
      Sv.decode rq.type plain = some a.req) := by
  obtain ⟨_, _, _, he, plain, hd, hdec⟩ := accept_eq_some h
  unfold encOk at he
  refine ⟨?_, ?_, ?_⟩
  · intro hs
    rw [(encReq_spec _).1.2 hs] at he
    simp only [Option.isSome_iff_exists] at he
    obtain ⟨k, hk⟩ := he
    rw [hk] at hd
    exact ⟨k, plain, hk, hd, hdec⟩
  · intro hs
    rw [(encReq_spec _).2.2 hs] at he
    simp only [Option.isNone_iff_eq_none] at he
    rw [he] at hd
    cases hd
    exact ⟨he, hdec⟩
  · intro k hk
    rw [hk] at hd
    exact ⟨plain, hd, hdec⟩

/-- **C23** (responses): whatever response is sent, it belongs to the session as stored; a type that
must be encrypted is sent as ciphertext under the keys of that session, a type that must be in clear only
if the session has no keys. -/
theorem C23_responses (σ : St Sv) (rq : Request Sv) (om : MsgType) (b : Bytes) (tok : Option (List Char))
    (h : (step σ rq).2 = .ok om b tok) :
    ∃ i s resp, (step σ rq).1.sessions i = some s ∧ s.last = some om ∧
      (om ∈ secret → ∃ k, s.keys = some k ∧ Sv.aead.encrypt k.sevk rq.iv (Sv.encode resp) = some b) ∧
      (om ∈ clear → s.keys = none ∧ b = Sv.encode resp) ∧
      (∀ k, s.keys = some k → Sv.aead.encrypt k.sevk rq.iv (Sv.encode resp) = some b) := by
  unfold step at h ⊢
  cases ha : accept σ rq with
  | none => rw [ha] at h; cases h
  | some a =>
    rw [ha] at h
    simp only at h ⊢
    cases hh : Sv.handle rq.oracle rq.type a.req a.sess.data a.sess.keys σ.world with
    | mk w o =>
      rw [hh] at h
      cases o with
      | none => cases h
      | some out =>
        obtain ⟨resp, data, keys⟩ := out
        simp only at h ⊢
        split at h
        · cases h
        rename_i hso
        rw [if_neg hso]
        refine ⟨a.id, ⟨some a.om, keys, data⟩, resp, by simp [putSession], ?_⟩
        unfold respond at h
        split at h
        · cases h
        rename_i he
        split at h
        · cases h
        rename_i b' hb
        simp only [Reply.ok.injEq] at h
        obtain ⟨rfl, rfl, rfl⟩ := h
        simp only [Bool.not_eq_true', Bool.not_eq_false] at he
        unfold encOk at he
        refine ⟨rfl, ?_, ?_, ?_⟩
        · intro hs
          rw [(encReq_spec _).1.2 hs] at he
          simp only [Option.isSome_iff_exists] at he
          obtain ⟨k, hk⟩ := he
          subst hk
          exact ⟨k, rfl, hb⟩
        · intro hs
          rw [(encReq_spec _).2.2 hs] at he
          simp only [Option.isNone_iff_eq_none] at he
          subst he
          cases hb
          exact ⟨rfl, rfl⟩
        · intro k hk
          simp only at hk
          subst hk
          exact hb

/-! ### C24 -/

/-- **C24** (isolation of writes): a request changes at most the session it addresses, or, if it
addresses none, the session created for it. -/
theorem C24_other_sessions_unchanged (σ : St Sv) (rq : Request Sv) (j : Sv.Id)
    (h1 : ∀ s, ¬ Addresses σ rq j s)
    (h2 : (∃ i s, Addresses σ rq i s) ∨ Sv.idOf rq.freshCookie ≠ some j) :
    (step σ rq).1.sessions j = σ.sessions j := by
  unfold step
  cases ha : accept σ rq with
  | none => rfl
  | some a =>
    obtain ⟨_, hfs, _⟩ := accept_eq_some ha
    have hne : j ≠ a.id := by
      rintro rfl
      rcases findSession_cases hfs with ⟨_, h⟩ | ⟨_, h, _, h4⟩
      · exact h1 _ h
      · rcases h2 with ⟨i, s, h2⟩ | h2
        · exact h4 i s h2
        · exact h2 h
    simp only
    split
    · rfl
    · split
      · rfl
      · simp [putSession, hne]

/-- **C24** (isolation of reads): the reply and the resulting session depend only on the world and on
the session addressed; all other sessions may be arbitrary. -/
theorem C24_other_sessions_irrelevant (σ τ : St Sv) (rq : Request Sv) (hw : σ.world = τ.world)
    (hs : ∀ hdr i, rq.auth = some hdr → Sv.idOf (bearer hdr) = some i → σ.sessions i = τ.sessions i) :
    (step σ rq).2 = (step τ rq).2 ∧ (step σ rq).1.world = (step τ rq).1.world ∧ accept σ rq = accept τ rq := by
  have hf : findSession σ rq = findSession τ rq := by
    unfold findSession
    cases ha : rq.auth with
    | none => rfl
    | some hdr =>
      simp only
      cases hi : Sv.idOf (bearer hdr) with
      | none => rfl
      | some i => simp only [hs hdr i ha hi]
  have ha : accept σ rq = accept τ rq := by
    unfold accept
    rw [hf]
  refine ⟨?_, ?_, ha⟩
  · unfold step
    rw [ha, hw]
    cases accept τ rq with
    | none => rfl
    | some a =>
      simp only
      cases Sv.handle rq.oracle rq.type a.req a.sess.data a.sess.keys τ.world with
      | mk w o =>
        cases o with
        | none => rfl
        | some out => simp only; split <;> rfl
  · unfold step
    rw [ha, hw]
    cases accept τ rq with
    | none => simp only; exact hw
    | some a =>
      simp only
      cases Sv.handle rq.oracle rq.type a.req a.sess.data a.sess.keys τ.world with
      | mk w o =>
        cases o with
        | none => rfl
        | some out => simp only; split <;> rfl

/-- **C24** (fresh sessions): a request without a token, or whose token names no stored session, runs in
an empty session stored under the id of a newly made cookie, which is sent to the client. -/
theorem C24_fresh_session (σ : St Sv) (rq : Request Sv) (hno : ∀ i s, ¬ Addresses σ rq i s)
    (a : Accepted Sv) (h : accept σ rq = some a) :
    a.sess.last = none ∧ a.sess.keys = none ∧ a.sess.data = Sv.init ∧ Sv.idOf rq.freshCookie = some a.id ∧
    ∀ om b tok, (step σ rq).2 = .ok om b tok → tok = some rq.freshCookie := by
  obtain ⟨_, hfs, _⟩ := accept_eq_some h
  rcases findSession_cases hfs with ⟨_, h'⟩ | ⟨hc, hi, hs, _⟩
  · exact absurd h' (hno _ _)
  · refine ⟨by rw [hs]; rfl, by rw [hs]; rfl, by rw [hs]; rfl, hi, ?_⟩
    intro om b tok hr
    unfold step at hr
    rw [h] at hr
    simp only at hr
    split at hr
    · cases hr
    · split at hr
      · cases hr
      · unfold respond at hr
        split at hr
        · cases hr
        · split at hr
          · cases hr
          · cases hr; exact hc

/-! ### C26 -/

/-- Response types after which the protocol of a session is over. -/
def finals : List MsgType := [.to2Done2, .to0AcceptOwner, .to1RVRedirect, .diDone]

/-- **C26** (safety part): once the last response of a session was final, no request under its token
reaches a handler; each is rejected and nothing changes. Missing: the token is not given a new session
(`C26_token_dead_violated`). -/
theorem C26_no_replay_partial (σ : St Sv) (rq : Request Sv)
    (hroutes : ∀ r ∈ Sv.routes, r ∈ rvRoutes ++ ownerRoutes ++ mfgRoutes)
    (i : Sv.Id) (s : Sess Sv) (ha : Addresses σ rq i s) (hl : ∃ t ∈ finals, s.last = some t) :
    step σ rq = (σ, .reject) := by
  refine C22_out_of_order_rejected σ rq hroutes i s ha ?_
  obtain ⟨t, ht, hl⟩ := hl
  rw [hl]
  intro om
  simp only [finals, List.mem_cons, List.not_mem_nil, or_false] at ht
  rcases ht with rfl | rfl | rfl | rfl <;> simp [protocol]

/-- **C26** (every history): as long as its record is not dropped, a finished session stays exactly as
it is, whatever requests arrive for any session, so that `C26_no_replay_partial` applies at every later
moment. -/
theorem C26_history_partial (hroutes : ∀ r ∈ Sv.routes, r ∈ rvRoutes ++ ownerRoutes ++ mfgRoutes)
    (i : Sv.Id) (s : Sess Sv) (hl : ∃ t ∈ finals, s.last = some t) (acts : List (Act Sv)) :
    ∀ (used : List Sv.Id) (σ : St Sv), i ∈ used → σ.sessions i = some s → FreshIds used acts →
      (∀ a ∈ acts, ∀ j, a = .expire j → j ≠ i) →
      (run σ acts).sessions i = some s ∧ ∀ rq, Addresses (run σ acts) rq i s → step (run σ acts) rq = (run σ acts, .reject) := by
  induction acts with
  | nil =>
    intro used σ _ hs _ _
    exact ⟨hs, fun rq ha => C26_no_replay_partial _ rq hroutes i s ha hl⟩
  | cons a r ih =>
    intro used σ hin hs hf hex
    have hex' : ∀ a ∈ r, ∀ j, a = .expire j → j ≠ i := fun a ha => hex a (by simp [ha])
    cases a with
    | outside w => exact ih used { σ with world := w } hin hs hf hex'
    | expire j =>
      have hj := hex (.expire j) (by simp) j rfl
      refine ih used (act σ (.expire j)) hin ?_ hf hex'
      simp only [act, if_neg (Ne.symm hj)]
      exact hs
    | request rq =>
      have hs' : (act σ (.request rq)).sessions i = some s := by
        by_cases ha : Addresses σ rq i s
        · simp only [act]
          rw [C26_no_replay_partial σ rq hroutes i s ha hl]
          exact hs
        · simp only [act]
          rw [C24_other_sessions_unchanged σ rq i ?_ ?_]
          · exact hs
          · intro s' hs'
            obtain ⟨hdr, h1, h2, h3⟩ := hs'
            rw [hs] at h3
            cases h3
            exact ha ⟨hdr, h1, h2, hs⟩
          · exact .inr fun h => (hf.1 _ h).1 hin
      cases hn : Sv.idOf rq.freshCookie with
      | none => exact ih used _ hin hs' (hf.2 hn) hex'
      | some k => exact ih (k :: used) _ (by simp [hin]) hs' (hf.1 k hn).2 hex'

/-- A server for examples: the owner server's routes, sessions holding a counter, handlers that always
answer; keys are set when the device is proven. Encryption prefixes the key. -/
def toyServer : Server where
  S := Nat
  W := Nat
  Req := Bytes
  Resp := Bytes
  Oracle := Unit
  Id := List Char
  idEq := inferInstance
  aead := ⟨fun k _ p => some (k ++ p), fun k c => if k.isPrefixOf c then some (c.drop k.length) else none⟩
  idOf := fun c => some c
  init := 0
  routes := ownerRoutes
  decode := fun _ b => some b
  encode := id
  handle := fun _ t r s k w => (w + 1, some (r, s + 1, if t = .to2ProveDevice then some ⟨.a128gcm, [9]⟩ else k))

theorem toyServer_routes : ∀ r ∈ toyServer.routes, r ∈ rvRoutes ++ ownerRoutes ++ mfgRoutes := by
  intro r hr
  have hr : r ∈ ownerRoutes := hr
  simp [hr]

/-- A toy request. -/
def toyRq (t : MsgType) (auth : Option (List Char)) (body : Bytes) (cookie : List Char) : Request toyServer :=
  ⟨t, true, auth, body, cookie, [], (), true⟩

/-- The full C26 is false: the session stays stored after `Done2`, so that starting a new onboarding
under the old token is refused, while without a token it is served. -/
theorem C26_token_dead_violated : ∃ (σ : St toyServer) (rq : Request toyServer) (s : Sess toyServer),
    rq.type = .to2HelloDevice ∧ Addresses σ rq ['a'] s ∧ s.last = some .to2Done2 ∧
    (step σ rq).2 = .reject ∧ (step σ { rq with auth := none }).2 ≠ .reject := by
  refine ⟨⟨fun (i : List Char) => if i = ['a'] then some ⟨some .to2Done2, none, (0 : Nat)⟩ else none, (0 : Nat)⟩,
    toyRq .to2HelloDevice (some ['a']) [] ['b'], ⟨some .to2Done2, none, (0 : Nat)⟩, rfl,
    ⟨['a'], rfl, rfl, rfl⟩, rfl, ?_, ?_⟩
  · rfl
  · intro h; cases h

/-- A complete onboarding over the toy server: two sessions interleaved, one of them out of order. -/
def toyActs : List (Act toyServer) :=
  [ .request (toyRq .to2HelloDevice none [1] ['a']),
    .request (toyRq .to2HelloDevice none [2] ['b']),
    .request (toyRq .to2Done (some ['b']) [2] ['c']),
    .request (toyRq .to2GetOVNextEntry (some ['a']) [3] ['d']),
    .request (toyRq .to2ProveDevice (some "Bearer a".toList) [4] ['e']),
    .request (toyRq .to2DeviceServiceInfoReady (some ['a']) [9, 5] ['f']),
    .request (toyRq .to2DeviceServiceInfoReady (some ['a']) [5] ['g']) ]

example : FreshIds [] toyActs := by
  simp [FreshIds, toyActs, toyRq, toyServer]

example : ofSession (Sv := toyServer) ['a'] (exchanges ⟨fun _ => none, (0 : Nat)⟩ toyActs) =
    [(.to2HelloDevice, some .to2ProveOVHdr), (.to2GetOVNextEntry, some .to2OVNextEntry),
     (.to2ProveDevice, some .to2SetupDevice), (.to2DeviceServiceInfoReady, some .to2OwnerServiceInfoReady)] := by
  rfl

/-- A finished session and a later history for it. -/
example : ∃ (s : Sess toyServer) (σ : St toyServer), (∃ t ∈ finals, s.last = some t) ∧
    σ.sessions ['a'] = some s ∧ FreshIds (Sv := toyServer) [['a']] (toyActs.drop 1) := by
  refine ⟨⟨some .to2Done2, none, (0 : Nat)⟩, ⟨fun _ => some ⟨some .to2Done2, none, (0 : Nat)⟩, (0 : Nat)⟩, ⟨_, by simp [finals], rfl⟩, rfl, ?_⟩
  simp [FreshIds, toyActs, toyRq, toyServer]

/-! ### C25 -/

/-- **C25**: if sending returns a message, then the reply had a success status and the awaited type; the
request was allowed after the last exchange, and the response after the request; a response that must be
encrypted is what the body decrypts to under the keys in force, a response that must be in clear was
accepted only without keys; and the request was sent accordingly. Missing: `newKeys` must not be "no
keys" (`C25_null_keys_violated`). -/
theorem C25_accepts_only_awaited_partial {R : Type} (A : Aead) (dec : Bytes → Option R) (c c' : Client)
    (om sm : MsgType) (plain iv : Bytes) (newKeys : Option (Option Keys)) (net : Sent → Option NetReply) (m : R)
    (hk : newKeys ≠ some none)
    (h : send A dec c om sm plain iv newKeys net = (c', .ok m)) :
    ∃ body r, encryptWith A c.keys iv plain = some body ∧
      net ⟨om, c.token, body⟩ = some r ∧ r.success = true ∧ r.type = .code sm.code ∧
      om.validPrev c.last = true ∧ sm.validPrev (some om) = true ∧
      (om ∈ secret → ∃ k, c.keys = some k ∧ A.encrypt k.sevk iv plain = some body) ∧
      (om ∈ clear → c.keys = none) ∧
      (sm ∈ secret → ∃ k p, c'.keys = some k ∧ A.decrypt k.sevk r.body = some p ∧ dec p = some m) ∧
      (sm ∈ clear → c'.keys = none ∧ dec r.body = some m) ∧
      c'.last = some sm := by
  unfold send at h
  cases hp : precheck c om sm newKeys with
  | some e =>
    rw [hp] at h
    cases e <;> cases h
  | none =>
    rw [hp] at h
    simp only at h
    unfold precheck at hp
    split at hp
    · cases hp
    rename_i h1
    split at hp
    · cases hp
    rename_i h2
    split at hp
    · cases hp
    rename_i h3
    simp only [Bool.not_eq_true', Bool.not_eq_false] at h1 h2 h3
    cases hb : encryptWith A c.keys iv plain with
    | none => rw [hb] at h; cases h
    | some body =>
      rw [hb] at h
      simp only at h
      cases hn : net ⟨om, c.token, body⟩ with
      | none => rw [hn] at h; cases h
      | some r =>
        rw [hn] at h
        simp only at h
        refine ⟨body, r, rfl, hn, ?_⟩
        generalize hc : (({ c with last := some sm } : Client).setKeys newKeys) = c1 at h
        have hlast : c1.last = some sm := by subst hc; cases newKeys <;> rfl
        have hkeys : c1.keys = match newKeys with
          | some k => k
          | none => c.keys := by subst hc; cases newKeys <;> rfl
        have hkd : ∀ b, (c1.noteKdf b).last = c1.last ∧ (c1.noteKdf b).keys = c1.keys := by
          intro b; unfold Client.noteKdf; split <;> exact ⟨rfl, rfl⟩
        have hres : ∃ t, replyType r = .ok t ∧ outcome A dec c1.keys sm t r = .ok m ∧ c'.last = some sm ∧
            c'.keys = c1.keys := by
          unfold receive at h
          cases ht : replyType r with
          | err e => rw [ht] at h; cases h
          | panic => rw [ht] at h; cases h
          | ok t =>
            rw [ht] at h
            simp only at h
            cases hauth : r.auth with
            | none =>
              rw [hauth] at h
              simp only [Prod.mk.injEq] at h
              obtain ⟨g1, g2⟩ := h
              subst g1
              exact ⟨t, rfl, g2, by rw [(hkd _).1, hlast], (hkd _).2⟩
            | some tok =>
              rw [hauth] at h
              cases tok with
              | none => cases h
              | some tok =>
                simp only [Prod.mk.injEq] at h
                obtain ⟨g1, g2⟩ := h
                subst g1
                exact ⟨t, rfl, g2, by rw [show ((c1.noteKdf r.kdfHeader).setToken (some tok)).last =
                  (c1.noteKdf r.kdfHeader).last from rfl, (hkd _).1, hlast], (hkd r.kdfHeader).2⟩
        clear h
        obtain ⟨t, ht, ho, hl', hk'⟩ := hres
        unfold outcome at ho
        split at ho
        case isFalse => split at ho <;> cases ho
        rename_i hs
        split at ho
        · cases ho
        rename_i hts
        have hts : t = sm := by simpa using hts
        cases hd : decryptWith A c1.keys r.body with
        | none => rw [hd] at ho; cases ho
        | some p =>
        rw [hd] at ho
        simp only at ho
        have hde : dec p = some m := by
          cases hde : dec p with
          | none => rw [hde] at ho; cases ho
          | some m' => rw [hde] at ho; cases ho; rfl
        have hcode : r.type = .code sm.code := by
          unfold replyType at ht
          cases hty : r.type with
          | absent => rw [hty] at ht; simp [hs] at ht
          | unreadable => rw [hty] at ht; cases ht
          | code n =>
            rw [hty] at ht
            simp only at ht
            cases hof : MsgType.ofCode n with
            | none => rw [hof] at ht; cases ht
            | some t' =>
              rw [hof] at ht
              cases ht
              have : n = t.code := by
                unfold MsgType.ofCode at hof
                split at hof <;> first | (cases hof; rfl) | cases hof
              rw [this, hts]
        refine ⟨hs, hcode, h1, h2, ?_, ?_, ?_, ?_, hl'⟩
        · intro ho
          unfold encOk at h3
          rw [(encReq_spec _).1.2 ho] at h3
          obtain ⟨k, hk'⟩ := Option.isSome_iff_exists.1 h3
          rw [hk'] at hb
          exact ⟨k, hk', hb⟩
        · intro ho
          unfold encOk at h3
          rw [(encReq_spec _).2.2 ho] at h3
          simpa using h3
        · intro ho
          rw [(encReq_spec _).1.2 ho] at hp
          have : c1.keys ≠ none := by
            rw [hkeys]
            cases newKeys with
            | some k => intro hh; simp only at hh; subst hh; exact hk rfl
            | none =>
              simp only
              intro hh
              rw [hh] at hp
              simp at hp
          rw [hk']
          cases hck : c1.keys with
          | none => exact absurd hck this
          | some k =>
            rw [hck] at hd
            exact ⟨k, p, rfl, hd, hde⟩
        · intro ho
          rw [(encReq_spec _).2.2 ho] at hp
          have : c1.keys = none := by
            rw [hkeys]
            cases newKeys with
            | some k => simp at hp
            | none =>
              simp only
              cases hck : c.keys with
              | none => rfl
              | some k => rw [hck] at hp; simp at hp
          rw [this] at hd
          cases hd
          exact ⟨by rw [hk', this], hde⟩

/-- The full C25 is false in two ways. First, sending with `newKeys = Some(unencrypted)` accepts a
response in clear although its type must be encrypted. -/
theorem C25_null_keys_violated (A : Aead) : ∃ (c c' : Client) (net : Sent → Option NetReply) (m : Bytes),
    MsgType.to2SetupDevice ∈ secret ∧ c.keys = none ∧
    send A (fun b => some b) c .to2ProveDevice .to2SetupDevice [] [] (some none) net = (c', .ok m) ∧ c'.keys = none := by
  refine ⟨⟨none, none, some .to2OVNextEntry, none⟩, ⟨none, none, some .to2SetupDevice, some false⟩,
    fun _ => some ⟨true, .code 65, none, false, [7]⟩, [7], by decide, rfl, rfl, rfl⟩

/-- Second, a reply with an Authorization header that is not visible ASCII aborts the client. -/
theorem C25_auth_header_violated (A : Aead) : ∃ (c : Client) (net : Sent → Option NetReply),
    (send A (fun b => some b) c .to1HelloRV .to1HelloRVAck [] [] none net).2 = .panic := by
  refine ⟨Client.new, fun _ => some ⟨true, .code 31, some none, false, []⟩, rfl⟩

/-- An error status never yields a message. -/
theorem C25_error_status {R : Type} (A : Aead) (dec : Bytes → Option R) (c : Client)
    (om sm : MsgType) (plain iv : Bytes) (newKeys : Option (Option Keys)) (net : Sent → Option NetReply)
    (hn : ∀ s r, net s = some r → r.success = false) (c' : Client) (m : R) :
    send A dec c om sm plain iv newKeys net ≠ (c', .ok m) := by
  intro h
  by_cases hk : newKeys = some none
  · subst hk
    unfold send at h
    cases hp : precheck c om sm (some none) with
    | some e => rw [hp] at h; cases e <;> cases h
    | none =>
      rw [hp] at h
      simp only at h
      split at h
      · cases h
      · split at h
        · cases h
        · rename_i r hr
          have hs := hn _ _ hr
          have hout : ∀ k t, outcome A dec k sm t r ≠ .ok m := by
            intro k t ho
            unfold outcome at ho
            rw [hs] at ho
            simp only [Bool.false_eq_true, if_false] at ho
            split at ho <;> cases ho
          unfold receive at h
          split at h
          · cases h
          · cases h
          · split at h
            · cases h
            · simp only [Prod.mk.injEq] at h; exact hout _ _ h.2
            · simp only [Prod.mk.injEq] at h; exact hout _ _ h.2
  · obtain ⟨body, r, _, h2, h3, _⟩ := C25_accepts_only_awaited_partial A dec c c' om sm plain iv newKeys net m hk h
    rw [hn _ _ h2] at h3
    cases h3

/-- A client that has proven itself accepts an encrypted response to an encrypted request. -/
example : send toyServer.aead (fun b => some b) ⟨some ['a'], some ⟨.a128gcm, [9]⟩, some .to2SetupDevice, some false⟩
    .to2DeviceServiceInfoReady .to2OwnerServiceInfoReady [1] [] none
    (fun s => if s.body = [9, 1] then some ⟨true, .code 67, none, false, [9, 4]⟩ else none) =
    (⟨some ['a'], some ⟨.a128gcm, [9]⟩, some .to2OwnerServiceInfoReady, some false⟩, .ok [4]) := by
  rfl

end Verif.Http

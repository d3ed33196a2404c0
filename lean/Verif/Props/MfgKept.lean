import Verif.Props.MfgServer
import Verif.Props.OwnerRenewal
import Mathlib.Data.List.Induction
/-!
C43, continued: vouchers of devices which were told that they are done are held by the server, and stay. C45:
the checks at start-up rule out that issuing vouchers aborts.
-/
namespace Verif.MfgServer
open Verif Verif.Voucher Verif.Store Verif.Types

/-- An element whose image under `f` occurs once in the list determines how the list is split at it. -/
theorem split_unique {α β : Type} (f : α → Option β) {y : β} (a b a' b' : List α) (x x' : α)
    (h : a ++ x :: b = a' ++ x' :: b') (hx : f x = some y) (hx' : f x' = some y)
    (hn : ((a ++ x :: b).filterMap f).Nodup) : a = a' ∧ x = x' ∧ b = b' := by
  have no : ∀ (l p q : List α) (z z' : α), l = p ++ z' :: q → f z = some y → f z' = some y →
      ¬ ((z :: l).filterMap f).Nodup := by
    intro l p q z z' hl hz hz' hnd
    rw [List.filterMap_cons, hz] at hnd
    simp only [List.nodup_cons] at hnd
    refine hnd.1 (List.mem_filterMap.2 ⟨z', ?_, hz'⟩)
    rw [hl]
    simp
  induction a generalizing a' with
  | nil =>
    cases a' with
    | nil => simp only [List.nil_append, List.cons.injEq] at h; exact ⟨rfl, h⟩
    | cons z a' =>
      simp only [List.nil_append, List.cons_append, List.cons.injEq] at h
      obtain ⟨rfl, h⟩ := h
      exact absurd hn (no _ _ _ x x' h hx hx')
  | cons z a ih =>
    cases a' with
    | nil =>
      simp only [List.nil_append, List.cons_append, List.cons.injEq] at h
      obtain ⟨rfl, h⟩ := h
      exact absurd hn (no _ _ _ z x rfl hx' hx)
    | cons z' a' =>
      simp only [List.cons_append, List.cons.injEq] at h
      obtain ⟨rfl, h⟩ := h
      have hn' : ((a ++ x :: b).filterMap f).Nodup := by
        rw [List.cons_append, List.filterMap_cons] at hn
        split at hn
        · exact hn
        · exact (List.nodup_cons.1 hn).2
      obtain ⟨rfl, h'⟩ := ih a' h hn'
      exact ⟨rfl, h'⟩

section
variable {R : MfgEnv} {c : Bool} {B : MStore} {cfg : Config R}
  {Id : Type} [DecidableEq Id] {idOf : List Char → Option Id} {aead : Http.Aead} {encode : Resp → Bytes}

local notation "Srv" => server R c B cfg Id idOf aead encode
local notation "Reached" => reached R c B cfg idOf aead encode
local notation "Histories" => Hist R c B cfg idOf aead encode

theorem reached_snoc (h : Histories) (e : Http.Event Srv Move) :
    Reached (h ++ [e]) = Http.after (move B) (Reached h) e := Http.replay_snoc _ _ _ _

/-- Session `i` is the one of a device that was told that it is done. -/
def Finished (σ : Http.St Srv) (i : Id) : Prop := ∃ s, σ.sessions i = some s ∧ s.last = some .diDone

/-- No further request reaches a handler in a finished session. -/
theorem finished_rejects {σ : Http.St Srv} {i : Id} (hf : Finished σ i) {rq : Http.Request Srv} {a : Http.Accepted Srv}
    (ha : Http.accept σ rq = some a) (hfresh : a.cookie ≠ none → σ.sessions a.id = none) : a.id ≠ i := by
  rintro rfl
  obtain ⟨s, hs, hl⟩ := hf
  obtain ⟨_, hfs, _⟩ := Http.accept_eq_some ha
  have hlast : a.sess.last = some .diDone := by
    rcases Http.findSession_cases hfs with ⟨_, _, _, _, h3⟩ | ⟨hck, _⟩
    · have h3 : σ.sessions a.id = some a.sess := h3
      rw [hs] at h3
      rw [← Option.some.inj h3]
      exact hl
    · have := hfresh (by rw [hck]; exact nofun)
      rw [hs] at this
      cases this
  rcases accepted_cases ha with ⟨_, _, h | h, _⟩ | ⟨_, _, h, _⟩ | ⟨_, _, h, _⟩ | ⟨_, _, h, _⟩ | ⟨_, _, h, _⟩ <;>
    rw [hlast] at h <;> cases h

/-- A finished session stays so until it expires. -/
theorem finished_after {σ : Http.St Srv} {i : Id} (hf : Finished σ i) (e : Http.Event Srv Move) (he : e ≠ .expire i)
    (hfresh : ∀ rq a, e = .request rq → Http.accept σ rq = some a → a.cookie ≠ none → σ.sessions a.id = none) :
    Finished (Http.after (move B) σ e) i := by
  cases e with
  | internal m => exact hf
  | expire j =>
    obtain ⟨s, hs, hl⟩ := hf
    refine ⟨s, ?_, hl⟩
    simp only [Http.after]
    rw [if_neg (fun h => he (by rw [h]))]
    exact hs
  | request rq =>
    rcases Http.step_sessions σ rq with ⟨h, _⟩ | ⟨a, w, resp, data, keys, ha, _, h, _⟩
    · obtain ⟨s, hs, hl⟩ := hf
      refine ⟨s, ?_, hl⟩
      simp only [Http.after]
      rw [h]
      exact hs
    · have hne := finished_rejects hf ha (hfresh rq a rfl ha)
      obtain ⟨s, hs, hl⟩ := hf
      refine ⟨s, ?_, hl⟩
      simp only [Http.after]
      rw [h, if_neg (fun hh => hne hh.symm)]
      exact hs

/-- Effect of an event on what the store has: only a SetHMAC for the GUID itself may change it. -/
theorem has_after {Inv : B.W → Prop} {Has : B.W → Name → Bytes → Prop} (K : KeepStore B Inv Has) (h : Histories)
    (e : Http.Event Srv Move) (hi : Inv (Reached h).world) :
    Inv (Http.after (move B) (Reached h) e).world ∧
    ∀ k b, Good k → Has (Reached h).world k b → Has (Http.after (move B) (Reached h) e).world k b ∨
      ∃ rq a m g v, e = .request rq ∧ Http.accept (Reached h) rq = some a ∧ a.sess.last = some .diSetCredentials ∧
        sessionVoucher R c cfg m a.sess.data = .ok (g, v) ∧ k = guidText g := by
  cases e with
  | expire j => exact ⟨hi, fun k b _ h => .inl h⟩
  | internal m =>
    cases m with
    | maintain now ls => exact ⟨K.inv_maintain _ _ _ hi, fun k b _ h => .inl (K.maintain _ _ _ _ _ h)⟩
    | fetch now path =>
      have hl : (move B (.fetch now path) (Reached h).world) = (Reached h).world ∨
          ∃ g, move B (.fetch now path) (Reached h).world = (B.load now (Reached h).world (guidText g)).1 := by
        simp only [move, getOv]
        split
        · exact .inl rfl
        · rename_i g hg
          refine .inr ⟨g, ?_⟩
          split <;> (rename_i hx; rw [hx])
      change Inv (move B (.fetch now path) (Reached h).world) ∧ ∀ k b, Good k → _ →
        Has (move B (.fetch now path) (Reached h).world) k b ∨ _
      rcases hl with hl | ⟨g, hl⟩
      · rw [hl]; exact ⟨hi, fun k b _ h => .inl h⟩
      · rw [hl]; exact ⟨K.inv_load _ _ _ hi, fun k b _ h => .inl (K.load _ _ _ _ _ h)⟩
  | request rq =>
    cases ha : Http.accept (Reached h) rq with
    | none =>
      have : Http.after (move B) (Reached h) (.request rq) = Reached h := by
        simp only [Http.after, Http.step, ha]
      rw [this]
      exact ⟨hi, fun k b _ h => .inl h⟩
    | some a =>
      have hw : (Http.after (move B) (Reached h) (.request rq)).world =
          (handleRes R c B cfg rq.oracle a.req a.sess.data a.sess.keys (Reached h).world).1 := Http.step_world ha
      rw [hw]
      rcases accepted_cases ha with ⟨_, _, _, _, _, _, _, hr⟩ | ⟨ht, hom, hlast, plain, m, hpl, hm, hr⟩ |
        ⟨_, _, _, _, _, hr⟩ | ⟨_, _, _, hr⟩ | ⟨_, _, _, _, _, _, _, _, _, _, hr⟩
      · rw [hr]; exact ⟨hi, fun k b _ h => .inl h⟩
      · rw [hr]
        simp only [handleRes]
        rcases setHmac_cases (B := B) (c := c) (cfg := cfg) m a.sess.data (Reached h).world with
          hd | ⟨g, v, b', hadm, hsv, hser, hw, _⟩
        · rw [hd.1]; exact ⟨hi, fun k b _ h => .inl h⟩
        · rw [hw]
          refine ⟨K.inv_put _ _ _ (guidText_good g) hi, fun k b hk hh => ?_⟩
          by_cases hkg : k = guidText g
          · exact .inr ⟨rq, a, m, g, v, rfl, ha, hlast, hsv, hkg⟩
          · exact .inl (K.other _ _ _ _ _ hi (guidText_good g) hk hkg hh)
      · rw [hr]; exact ⟨hi, fun k b _ h => .inl h⟩
      · rw [hr]; exact ⟨hi, fun k b _ h => .inl h⟩
      · rw [hr]; exact ⟨hi, fun k b _ h => .inl h⟩

theorem inv_reached {Inv : B.W → Prop} {Has : B.W → Name → Bytes → Prop} (K : KeepStore B Inv Has) (h : Histories) :
    Inv (Reached h).world :=
  Http.history_induction (Sv := Srv) (move B) (Http.start B.empty) (fun _ (σ : Http.St Srv) => Inv σ.world) K.inv_empty
    (fun h e ih => (has_after K h e ih).1) h

/-- The device of `Started`: the session in which the GUID was drawn. -/
theorem started_session {h h1 h2 : Histories} {i j : Id} {ks ks' : Option Http.Keys} {info info' : String}
    {der der' g hb hb' : Bytes} (hh : h = h1 ++ h2)
    (hn : (h.filterMap (drawn R c B cfg idOf aead encode)).Nodup)
    (s1 : Started R c B cfg idOf aead encode h1 i ks info der g hb)
    (s2 : Started R c B cfg idOf aead encode h j ks' info' der' g hb') : j = i ∧ .expire i ∉ h2 := by
  obtain ⟨p1, rqa, p2, _, _, _, e1, t1, ⟨a, ha, hai⟩, _, _, _, _, g1, _, _, _⟩ := s1
  obtain ⟨q1, rqb, q2, _, _, _, e2, t2, ⟨b, hb, hbi⟩, _, _, _, _, g2, _, _, x2⟩ := s2
  have e1' : h = p1 ++ .request rqa :: (p2 ++ h2) := by rw [hh, e1]; simp
  have hd : ∀ rq : Http.Request Srv, rq.type = .diAppStart → rq.oracle.guid = some g →
      drawn R c B cfg idOf aead encode (.request rq) = some g := by
    intro rq h1 h2
    simp only [drawn]
    rw [if_pos h1, h2]
  obtain ⟨r1, r2, r3⟩ := split_unique (drawn R c B cfg idOf aead encode) p1 (p2 ++ h2) q1 q2 (.request rqa) (.request rqb)
    (e1'.symm.trans e2) (hd _ t1 g1) (hd _ t2 g2) (by rw [← e1']; exact hn)
  cases r2
  subst r1 r3
  rw [ha] at hb
  cases hb
  refine ⟨by rw [← hai, ← hbi], ?_⟩
  have : j = i := by rw [← hai, ← hbi]
  rw [this] at x2
  simp only [List.mem_append, not_or] at x2
  exact x2.2

/-- The voucher of a finished session, with the session's data. -/
theorem kept {Inv : B.W → Prop} {Has : B.W → Name → Bytes → Prop} (K : KeepStore B Inv Has) (L : Laws R cfg)
    (h1 : Histories) (rq : Http.Request Srv) (h2 : Histories)
    (hsm : SmallHeaders R c B cfg idOf aead encode (h1 ++ .request rq :: h2))
    (hid : FreshIds R c B cfg idOf aead encode (h1 ++ .request rq :: h2))
    (hg : ((h1 ++ .request rq :: h2).filterMap (drawn R c B cfg idOf aead encode)).Nodup)
    (body : Bytes) (tok : Option (List Char)) (hdone : (Http.step (Reached h1) rq).2 = .ok .diDone body tok) :
    ∃ a m info der g hb v b, Http.accept (Reached h1) rq = some a ∧ a.req = .setHmac m ∧
      Answered R c B cfg idOf aead encode h1 rq a.id a.sess.keys m ∧
      Started R c B cfg idOf aead encode h1 a.id a.sess.keys info der g hb ∧ Prepared R cfg a.sess.data info der g hb ∧
      hb.length < 2 ^ 63 ∧ sessionVoucher R c cfg m a.sess.data = .ok (g, v) ∧ Voucher.serialize v = .ok b ∧
      (∀ now, (B.load now (Reached (h1 ++ .request rq :: h2)).world (guidText g)).2 = .ok (some b)) := by
  obtain ⟨a, w, resp, data, keys, ha, hh, hso, hom, _, _⟩ := Http.step_ok hdone
  have hsess : (Http.step (Reached h1) rq).1.sessions a.id = some ⟨some a.om, keys, data⟩ := by
    rcases Http.step_sessions (Reached h1) rq with ⟨_, h⟩ | ⟨a', w', resp', data', keys', ha', hh', h, _⟩
    · exact absurd hdone (h _ _ _)
    · rw [ha] at ha'
      have := Option.some.inj ha'
      subst this
      rw [hh] at hh'
      simp only [Prod.mk.injEq, Option.some.injEq] at hh'
      obtain ⟨_, _, rfl, rfl⟩ := hh'
      rw [h, if_pos rfl]
  rw [← hom] at hsess
  rw [server_handle] at hh
  simp only [Prod.mk.injEq] at hh
  obtain ⟨hw, hh⟩ := hh
  have hh := answer_some hh
  rcases accepted_cases ha with ⟨_, hom', _⟩ | ⟨ht, hom', hlast, plain, m, hpl, hm, hr⟩ |
    ⟨_, hom', _⟩ | ⟨_, hom', _⟩ | ⟨_, hom', _⟩
  · rw [hom'] at hom; cases hom
  · rw [hr] at hh hw
    simp only [handleRes] at hh hw
    obtain ⟨hx, _⟩ := keep_ok hh
    rcases setHmac_cases (B := B) (c := c) (cfg := cfg) m a.sess.data (Reached h1).world with
      hd | ⟨g', v, b, hadm, hsv, hser, hput, hd | hd⟩
    · exact absurd hx (hd.2 _)
    · have q := explained h1 rq a ha
      obtain ⟨info, der, g, hb, p, sd⟩ := q.header (by
        intro hn
        unfold sessionVoucher at hsv
        rw [hn] at hsv
        cases hsv)
      have hsz := hsm h1 _ _ _ _ _ _ ⟨_, rfl⟩ sd
      obtain ⟨rfl, hgl⟩ := prepared_guid (c := c) L p hsz hsv
      refine ⟨a, m, info, der, g', hb, v, b, ha, hr, ⟨ht, ⟨a, ha, rfl⟩, plain, hpl, hm⟩, sd, p, hsz, hsv, hser, ?_⟩
      · -- the store keeps it
        have hw1 : (Reached (h1 ++ [.request rq])).world = (B.put (Reached h1).world (guidText g') b).1 := by
          rw [reached_snoc]
          have := Http.step_world ha
          simp only [Http.after]
          rw [this, server_handle, hr]
          simp only [handleRes]
          exact hput
        have main : ∀ r : Histories, r <+: h2 →
            Has (Reached (h1 ++ .request rq :: r)).world (guidText g') b ∧
            (.expire a.id ∉ r → Finished (Reached (h1 ++ .request rq :: r)) a.id) := by
          intro r
          induction r using List.reverseRecOn with
          | nil =>
            intro _
            refine ⟨?_, fun _ => ⟨⟨some .diDone, keys, data⟩, ?_, rfl⟩⟩
            · rw [hw1]
              exact K.put _ _ _ (inv_reached K h1) (guidText_good g') hd.1
            · rw [reached_snoc]
              exact hsess
          | append_singleton r e ih =>
            intro hpre
            obtain ⟨t, rfl⟩ := hpre
            obtain ⟨i1, i2⟩ := ih ⟨e :: t, by simp⟩
            have hre : h1 ++ .request rq :: (r ++ [e]) = (h1 ++ .request rq :: r) ++ [e] := by simp
            have hfr : ∀ rq' a', e = .request rq' → Http.accept (Reached (h1 ++ .request rq :: r)) rq' = some a' →
                a'.cookie ≠ none → (Reached (h1 ++ .request rq :: r)).sessions a'.id = none := by
              rintro rq' a' rfl ha' hck
              exact hid (h1 ++ .request rq :: r) rq' t a' (by simp) ha' hck
            rw [hre, reached_snoc]
            constructor
            · rcases (has_after K (h1 ++ .request rq :: r) e (inv_reached K _)).2 _ _ (guidText_good g') i1 with hk | hk
              · exact hk
              · exfalso
                obtain ⟨rq', a', m', g2, v2, rfl, ha', hl', hsv', hgg⟩ := hk
                have q' := explained (h1 ++ .request rq :: r) rq' a' ha'
                obtain ⟨info', der', g3, hb3, p3, sd3⟩ := q'.header (by
                  intro hn
                  unfold sessionVoucher at hsv'
                  rw [hn] at hsv'
                  cases hsv')
                have hsz3 := hsm _ _ _ _ _ _ _ ⟨.request rq' :: t, by simp⟩ sd3
                obtain ⟨rfl, hgl3⟩ := prepared_guid (c := c) L p3 hsz3 hsv'
                have hgeq : g' = g2 := guidText_injective _ _ hgl hgl3 hgg
                subst hgeq
                have hnd : ((h1 ++ .request rq :: r).filterMap (drawn R c B cfg idOf aead encode)).Nodup := by
                  refine List.Nodup.sublist ?_ hg
                  refine List.Sublist.filterMap _ ?_
                  simp
                obtain ⟨hid', hex⟩ := started_session (h2 := .request rq :: r) rfl hnd sd sd3
                have hfin := i2 (fun hm => hex (List.mem_cons_of_mem _ hm))
                exact finished_rejects hfin ha' (hfr rq' a' rfl ha') hid'
            · intro hex
              simp only [List.mem_append, List.mem_singleton, not_or] at hex
              exact finished_after (i2 hex.1) e (fun hh => hex.2 hh.symm) hfr
        intro now
        exact K.found now _ _ _ (main h2 ⟨[], by simp⟩).1
    · exact absurd hx (hd.2 _)
  · rw [hom'] at hom; cases hom
  · rw [hom'] at hom; cases hom
  · rw [hom'] at hom; cases hom

/-- **C43**, continued: once a device was told that it is done, the store has the voucher of its session, with the
header that was sent to it and the HMAC it sent, and keeps it whatever happens afterwards, provided that random
GUIDs and session ids do not repeat. -/
theorem C43_kept {Inv : B.W → Prop} {Has : B.W → Name → Bytes → Prop} (K : KeepStore B Inv Has) (L : Laws R cfg)
    (st : Settings R) (hst : startup R st = some cfg) (h1 : Histories) (rq : Http.Request Srv) (h2 : Histories)
    (hsm : SmallHeaders R c B cfg idOf aead encode (h1 ++ .request rq :: h2))
    (hid : FreshIds R c B cfg idOf aead encode (h1 ++ .request rq :: h2))
    (hg : ((h1 ++ .request rq :: h2).filterMap (drawn R c B cfg idOf aead encode)).Nodup)
    (body : Bytes) (tok : Option (List Char)) (hdone : (Http.step (Reached h1) rq).2 = .ok .diDone body tok) :
    ∃ i ks hmac info der g hb b, Answered R c B cfg idOf aead encode h1 rq i ks hmac ∧
      Started R c B cfg idOf aead encode h1 i ks info der g hb ∧
      (∀ now, (B.load now (Reached (h1 ++ .request rq :: h2)).world (guidText g)).2 = .ok (some b)) ∧
      (b.length < 2 ^ 63 → ∃ v, deserialize c b = .ok (v, []) ∧ v.header.guid = g ∧ v.hmac = hmac ∧
        getLeaf R.E.decBytes v.contents 1 = .ok hb ∧ Certifies R cfg v info der ∧ OwnedAsConfigured R c cfg v) := by
  have hpair : cfg.mfgKey.isNone = cfg.owner.isNone := by
    obtain ⟨_, _, _, _, hp, _⟩ := startup_some hst
    exact hp
  obtain ⟨a, m, info, der, g, hb, v, b, _, _, h3, h4, h5, h6, h7, h8, h9⟩ := kept K L h1 rq h2 hsm hid hg body tok hdone
  refine ⟨a.id, a.sess.keys, m, info, der, g, hb, b, h3, h4, h9, ?_⟩
  intro hbsz
  obtain ⟨_, _, hrd, p1, _, p3, _, _, p6, p7, p8, _⟩ := issued (c := c) L hpair h5 h6 h7 h8 hbsz
  exact ⟨v, hrd, p1, p6, p3, p7, p8⟩

/-! ### C45 -/

/-- **C45**, manufacturing server: a server that started has both or none of manufacturer key and owner. -/
theorem C45_paired (st : Settings R) (hst : startup R st = some cfg) :
    (∃ k o, cfg.mfgKey = some k ∧ cfg.owner = some o) ∨ (cfg.mfgKey = none ∧ cfg.owner = none) := by
  obtain ⟨_, _, _, _, hp, _⟩ := startup_some hst
  cases hk : cfg.mfgKey with
  | none => rw [hk] at hp; exact .inr ⟨rfl, by simpa using hp.symm⟩
  | some k =>
    rw [hk] at hp
    cases ho : cfg.owner with
    | none => rw [ho] at hp; cases hp
    | some o => exact .inl ⟨k, o, rfl, rfl⟩

/-- Without the check, issuing a voucher aborts: with a manufacturer key, but no owner, whatever the device sends. -/
theorem C45_unpaired_aborts (k : R.E.Priv) (hk : cfg.mfgKey = some k) (ho : cfg.owner = none) (header : Header R.E)
    (hb : Bytes) (hc : Cbor.serialize header.contents = .ok hb) (hmac : Hash) (ch : R.E.Chain) :
    issue R c cfg header hmac ch = .panic := by
  unfold issue
  have : ∃ v, Voucher.new header hmac (some ch) = .ok v := by
    unfold Voucher.new
    rw [hc]
    exact ⟨_, rfl⟩
  obtain ⟨v, hv⟩ := this
  rw [hv]
  simp only [Res.bind_ok, hk, ho]

/-- **C45**, manufacturing server: a server that started never aborts in AppStart or SetHMAC, whatever happened
before, unless a store does. -/
theorem C45_no_abort {Inv : B.W → Prop} {Has : B.W → Name → Bytes → Prop} (K : KeepStore B Inv Has) (L : Laws R cfg)
    (st : Settings R) (hst : startup R st = some cfg) (hch : ∀ l, l ≠ [] → R.certs (R.mkChain l) ≠ [])
    (h : Histories) (hsm : SmallHeaders R c B cfg idOf aead encode h) (rq : Http.Request Srv) (a : Http.Accepted Srv)
    (ha : Http.accept (Reached h) rq = some a) (ht : rq.type = .diAppStart ∨ rq.type = .diSetHmac)
    (hkeys : ∀ n, rq.oracle.keys n ≠ .panic) :
    (handleRes R c B cfg rq.oracle a.req a.sess.data a.sess.keys (Reached h).world).2 ≠ .panic := by
  have hkeep : ∀ (k : Option Http.Keys) (x : Res Err (Resp × Data R)), x ≠ .panic → keep R k x ≠ .panic := by
    intro k x hx
    cases x with
    | ok a => exact nofun
    | err e => exact nofun
    | panic => exact absurd rfl hx
  obtain ⟨chain, _, hne, hcc, hpair, _⟩ := startup_some hst
  rcases accepted_cases ha with ⟨_, _, _, _, raw, _, _, hr⟩ | ⟨_, _, _, _, m, _, _, hr⟩ |
    ⟨h1, _⟩ | ⟨h1, _⟩ | ⟨h1, _⟩
  · rw [hr]
    simp only [handleRes]
    refine hkeep _ _ ?_
    intro hp
    unfold appStart at hp
    split at hp
    · cases hp
    split at hp
    · cases hp
    · cases hp
    rename_i info hinfo
    rcases Res.bind_eq_panic.1 hp with hp | ⟨der, _, hp⟩
    · unfold deviceKeyDer at hp
      split at hp
      · cases hp
      split at hp
      · split at hp
        · cases hp
        · cases hp
        · cases hp
        · rename_i hk; exact hkeys _ hk
      · cases hp
    rcases Res.bind_eq_panic.1 hp with hp | ⟨key, _, hp⟩
    · exact ofOpt_ne_panic hp
    rcases Res.bind_eq_panic.1 hp with hp | ⟨cert, _, hp⟩
    · unfold deviceCert at hp
      split at hp
      · rename_i hn
        rw [List.head?_eq_none_iff, hcc] at hn
        exact hch chain hne hn
      split at hp
      · cases hp
      · exact ofOpt_ne_panic hp
    split at hp
    · cases hp
    split at hp
    · cases hp
    rename_i g hg _
    rcases Res.bind_eq_panic.1 hp with hp | ⟨header, hh, hp⟩
    · unfold newHeader at hp
      rcases Res.bind_eq_panic.1 hp with hp | ⟨_, _, hp⟩
      · exact ofOpt_ne_panic hp
      rcases Res.bind_eq_panic.1 hp with hp | ⟨_, _, hp⟩
      · exact hashData_ne_panic hp
      rcases Res.bind_eq_panic.1 hp with hp | ⟨_, _, hp⟩
      · exact ofOpt_ne_panic hp
      · cases hp
    rcases Res.bind_eq_panic.1 hp with hp | ⟨hb, _, hp⟩
    · unfold newHeader at hh
      simp only [Res.bind_eq_ok] at hh
      obtain ⟨_, _, _, _, _, _, hh⟩ := hh
      cases hh
      unfold Header.serialize at hp
      split at hp
      · cases hp
      · exact liftP_ne_panic (serialize_ne_panic (by simp [Header.new]) (.inl rfl)) hp
    · cases hp
  · rw [hr]
    simp only [handleRes]
    refine hkeep _ _ ?_
    unfold setHmac
    have q := explained h rq a ha
    have hs : sessionVoucher R c cfg m a.sess.data ≠ .panic ∧
        ∀ g' v, sessionVoucher R c cfg m a.sess.data = .ok (g', v) → Voucher.serialize v ≠ .panic := by
      by_cases hn : a.sess.data.header = none
      · unfold sessionVoucher
        rw [hn]
        exact ⟨nofun, nofun⟩
      · obtain ⟨info, der, g, hb, p, sd⟩ := q.header hn
        exact session_ne_panic L hpair p (hsm h _ _ _ _ _ _ ⟨[], by simp⟩ sd) m
    split
    · exact nofun
    split
    · exact nofun
    · rename_i hp; exact absurd hp hs.1
    rename_i g v hv
    split
    · exact nofun
    · rename_i hp; exact absurd hp (hs.2 g v hv)
    rename_i b hb
    have hnp := K.nopanic (Reached h).world (guidText g) b (guidText_good g)
    split
    · exact nofun
    · exact nofun
    · rename_i hp; rw [hp] at hnp; exact absurd rfl hnp
  · rcases ht with ht | ht <;> rw [ht] at h1 <;> cases h1
  · rcases ht with ht | ht <;> rw [ht] at h1 <;> cases h1
  · rcases ht with ht | ht <;> rw [ht] at h1 <;> cases h1

end

/-- **C45**, owner server: a server that started has a registration window which is shorter than the period and
longer than the interval of maintenance (60 seconds). -/
theorem C45_owner_times (period window : Option Nat) (p w : Nat)
    (h : OwnerServer.startupTimes period window = some (p, w)) : 60 < w ∧ w < p := OwnerServer.startupTimes_some h

example : OwnerServer.startupTimes none none = some (600, 61) := by decide
example : OwnerServer.startupTimes (some 100) (some 60) = none := by decide

end Verif.MfgServer

import Verif.Lemmas.MfgServer
/-!
Properties C42 and C43: the manufacturing server issues vouchers to admitted devices only, and these are
consistent. C45: checks at start-up.
-/
namespace Verif.MfgServer
open Verif Verif.Voucher Verif.Store Verif.Types

section
variable {R : MfgEnv} {c : Bool} {B : MStore} {cfg : Config R}
  {Id : Type} [DecidableEq Id] {idOf : List Char → Option Id} {aead : Http.Aead} {encode : Resp → Bytes}

local notation "Srv" => server R c B cfg Id idOf aead encode
local notation "Reached" => reached R c B cfg idOf aead encode
local notation "Histories" => Hist R c B cfg idOf aead encode

/-! ### What requests mean -/

theorem accept_decrypts {σ : Http.St Srv} {rq : Http.Request Srv} {a : Http.Accepted Srv}
    (ha : Http.accept σ rq = some a) :
    ∃ plain, Http.decryptWith aead a.sess.keys rq.body = some plain ∧ decode R rq.type plain = some a.req := by
  obtain ⟨_, _, _, _, plain, hd, hdec⟩ := Http.accept_eq_some ha
  exact ⟨plain, hd, hdec⟩

/-- The five kinds of requests which reach a handler. -/
theorem accepted_cases {σ : Http.St Srv} {rq : Http.Request Srv} {a : Http.Accepted Srv}
    (ha : Http.accept σ rq = some a) :
    (rq.type = .diAppStart ∧ a.om = .diSetCredentials ∧ (a.sess.last = none ∨ a.sess.last = some .diunDone) ∧
      ∃ plain raw, Http.decryptWith aead a.sess.keys rq.body = some plain ∧ R.decAppStart plain = some raw ∧
        a.req = .appStart raw) ∨
    (rq.type = .diSetHmac ∧ a.om = .diDone ∧ a.sess.last = some .diSetCredentials ∧
      ∃ plain m, Http.decryptWith aead a.sess.keys rq.body = some plain ∧ R.decSetHmac plain = some m ∧
        a.req = .setHmac m) ∨
    (rq.type = .diunConnect ∧ a.om = .diunAccept ∧ a.sess.last = none ∧
      ∃ m, R.decConnect rq.body = some m ∧ a.req = .connect m) ∨
    (rq.type = .diunRequestKeyParameters ∧ a.om = .diunProvideKeyParameters ∧ a.sess.last = some .diunAccept ∧
      a.req = .requestKey) ∨
    (rq.type = .diunProvideKey ∧ a.om = .diunDone ∧ a.sess.last = some .diunProvideKeyParameters ∧
      ∃ k plain der st, a.sess.keys = some k ∧ aead.decrypt k.sevk rq.body = some plain ∧
        R.decProvideKey plain = some (der, st) ∧ a.req = .provideKey der st) := by
  have hr := Http.routeOf_mem (Http.accept_eq_some ha).1
  have hreq := Http.C23_requests σ rq a ha
  have hprev := (Http.accept_eq_some ha).2.2.1
  obtain ⟨plain, hpl, hdec⟩ := accept_decrypts ha
  have hr' : (rq.type, a.om) ∈ mfgRoutes := hr
  simp only [mfgRoutes, List.mem_cons, Prod.mk.injEq, List.not_mem_nil, or_false] at hr'
  rcases hr' with ⟨h1, h2⟩ | ⟨h1, h2⟩ | ⟨h1, h2⟩ | ⟨h1, h2⟩ | ⟨h1, h2⟩
  · rw [h1] at hdec hprev
    simp only [decode, Option.map_eq_some_iff] at hdec
    obtain ⟨raw, hraw, h⟩ := hdec
    refine .inl ⟨h1, h2, ?_, plain, raw, hpl, hraw, h.symm⟩
    simpa [MsgType.validPrev] using hprev
  · rw [h1] at hdec hprev
    simp only [decode, Option.map_eq_some_iff] at hdec
    obtain ⟨m, hm, h⟩ := hdec
    refine .inr (.inl ⟨h1, h2, ?_, plain, m, hpl, hm, h.symm⟩)
    simpa [MsgType.validPrev] using hprev
  · obtain ⟨hk, h⟩ := hreq.2.1 (by rw [h1]; decide)
    have h : decode R rq.type rq.body = some a.req := h
    rw [h1] at h hprev
    simp only [decode, Option.map_eq_some_iff] at h
    obtain ⟨m, hm, h⟩ := h
    refine .inr (.inr (.inl ⟨h1, h2, ?_, m, hm, h.symm⟩))
    simpa [MsgType.validPrev] using hprev
  · rw [h1] at hdec hprev
    simp only [decode] at hdec
    split at hdec
    · refine .inr (.inr (.inr (.inl ⟨h1, h2, ?_, (Option.some.inj hdec).symm⟩)))
      simpa [MsgType.validPrev] using hprev
    · cases hdec
  · obtain ⟨k, plain, hk, hp, h⟩ := hreq.1 (by rw [h1]; decide)
    have h : decode R rq.type plain = some a.req := h
    rw [h1] at h hprev
    simp only [decode, Option.map_eq_some_iff] at h
    obtain ⟨⟨der, st⟩, hm, h⟩ := h
    refine .inr (.inr (.inr (.inr ⟨h1, h2, ?_, k, plain, der, st, hk, hp, hm, h.symm⟩)))
    simpa [MsgType.validPrev] using hprev

theorem server_handle {o : Oracle R} {t : MsgType} {r : Req} {s : Data R} {k : Option Http.Keys} {w : B.W} :
    (Srv).handle o t r s k w = ((handleRes R c B cfg o r s k w).1, answer (handleRes R c B cfg o r s k w).2) := rfl

/-! ### Where session data comes from -/

theorem Connected.mono {h : Histories} {i : Id} {ks : Http.Keys} (hn : Connected R c B cfg idOf aead encode h i ks)
    (e : Http.Event Srv Move) (he : ∀ j, e = .expire j → j ≠ i) :
    Connected R c B cfg idOf aead encode (h ++ [e]) i ks := by
  obtain ⟨h1, rq, h2, m, key, random, flag, token, tok, rfl, p1, p2, p3, p4, p5, p6, p7, f⟩ := hn
  refine ⟨h1, rq, h2 ++ [e], m, key, random, flag, token, tok, by simp, p1, p2, p3, p4, p5, p6, p7, ?_⟩
  simp only [List.mem_append, List.mem_singleton, not_or]
  exact ⟨f, fun hh => he i hh.symm rfl⟩

theorem Agreed.mono {h : Histories} {i : Id} {ks : Http.Keys} (hn : Agreed R c B cfg idOf aead encode h i ks)
    (e : Http.Event Srv Move) (he : ∀ j, e = .expire j → j ≠ i) :
    Agreed R c B cfg idOf aead encode (h ++ [e]) i ks := by
  obtain ⟨h1, rq, h2, rfl, p1, p2, p3, f⟩ := hn
  refine ⟨h1, rq, h2 ++ [e], by simp, p1, p2, p3, ?_⟩
  simp only [List.mem_append, List.mem_singleton, not_or]
  exact ⟨f, fun hh => he i hh.symm rfl⟩

theorem Provided.mono {h : Histories} {i : Id} {der : Bytes} {ks : Http.Keys}
    (hn : Provided R c B cfg idOf aead encode h i der ks)
    (e : Http.Event Srv Move) (he : ∀ j, e = .expire j → j ≠ i) :
    Provided R c B cfg idOf aead encode (h ++ [e]) i der ks := by
  obtain ⟨h1, rq, h2, plain, st, rfl, p1, p2, p3, p4, p5, f⟩ := hn
  refine ⟨h1, rq, h2 ++ [e], plain, st, by simp, p1, p2, p3, p4, p5, ?_⟩
  simp only [List.mem_append, List.mem_singleton, not_or]
  exact ⟨f, fun hh => he i hh.symm rfl⟩

theorem Started.mono {h : Histories} {i : Id} {ks : Option Http.Keys} {info : String} {der g hb : Bytes}
    (hn : Started R c B cfg idOf aead encode h i ks info der g hb)
    (e : Http.Event Srv Move) (he : ∀ j, e = .expire j → j ≠ i) :
    Started R c B cfg idOf aead encode (h ++ [e]) i ks info der g hb := by
  obtain ⟨h1, rq, h2, plain, raw, tok, rfl, p1, p2, p3, p4, p5, p6, p7, p8, p9, f⟩ := hn
  refine ⟨h1, rq, h2 ++ [e], plain, raw, tok, by simp, p1, p2, p3, p4, p5, p6, p7, p8, p9, ?_⟩
  simp only [List.mem_append, List.mem_singleton, not_or]
  exact ⟨f, fun hh => he i hh.symm rfl⟩

/-- The history explains the data in session `i`. -/
structure Explained (i : Id) (h : Histories) (s : Http.Sess Srv) : Prop where
  fresh : s.last = none → s = Http.Sess.new Srv
  conn : ∀ k, s.data.diunKeys = some k → Connected R c B cfg idOf aead encode h i k
  keys : ∀ k, s.keys = some k → Agreed R c B cfg idOf aead encode h i k
  device : ∀ d, s.data.deviceKey = some d → ∃ k, s.keys = some k ∧ Provided R c B cfg idOf aead encode h i d k
  early : s.data.deviceKey ≠ none → s.last ≠ some .diunAccept ∧ s.last ≠ some .diunProvideKeyParameters
  performed : s.data.performed = true → s.data.deviceKey ≠ none
  header : s.data.header ≠ none → ∃ info der g hb, Prepared R cfg s.data info der g hb ∧
    Started R c B cfg idOf aead encode h i s.keys info der g hb
  late : s.data.header ≠ none → s.last = some .diSetCredentials ∨ s.last = some .diDone

/-- Session data survives everything else. -/
theorem Explained.mono {i : Id} {h : Histories} {s : Http.Sess Srv} (q : Explained i h s)
    (e : Http.Event Srv Move) (he : ∀ j, e = .expire j → j ≠ i) : Explained i (h ++ [e]) s where
  fresh := q.fresh
  conn k hk := (q.conn k hk).mono e he
  keys k hk := (q.keys k hk).mono e he
  device d hd := by
    obtain ⟨k, hk, p⟩ := q.device d hd
    exact ⟨k, hk, p.mono e he⟩
  early := q.early
  performed := q.performed
  header hh := by
    obtain ⟨info, der, g, hb, p, st⟩ := q.header hh
    exact ⟨info, der, g, hb, p, st.mono e he⟩
  late := q.late

theorem explained (h : Histories) :
    ∀ rq a, Http.accept (Reached h) rq = some a → Explained (R := R) (B := B) (cfg := cfg) a.id h a.sess := by
  refine (Http.session_invariant (move B) (Sv := Srv) B.empty
    (fun i h s => Explained (R := R) (B := B) (cfg := cfg) i h s) ?_ ?_ ?_ h).2
  · intro i h
    exact ⟨fun _ => rfl, fun _ hn => (nomatch hn), fun _ hn => (nomatch hn), fun _ hn => (nomatch hn),
      fun hn => (hn rfl).elim, fun hn => (nomatch hn), fun hn => (hn rfl).elim, fun hn => (hn rfl).elim⟩
  · intro i h e s q he
    exact q.mono e he
  · intro h rq a w resp data keys ha hh hso q
    have q' := q.mono (.request rq) (fun j hj => nomatch hj)
    have hreply := Http.step_reply ha hh hso
    have hh0 := hh
    rw [server_handle] at hh
    simp only [Prod.mk.injEq] at hh
    obtain ⟨hw, hh⟩ := hh
    have hh := answer_some hh
    rcases accepted_cases ha with ⟨ht, hom, hlast, plain, raw, hpl, hraw, hr⟩ | ⟨ht, hom, hlast, plain, m, hpl, hm, hr⟩ |
      ⟨ht, hom, hlast, m, hm, hr⟩ | ⟨ht, hom, hlast, hr⟩ | ⟨ht, hom, hlast, k, plain, der, st, hk, hpl, hd, hr⟩
    · rw [hr] at hh
      simp only [handleRes] at hh
      obtain ⟨hx, rfl⟩ := keep_ok hh
      obtain ⟨info, der, g, hb, hadm, hinfo, hder, hg, hresp, hp, e1, e2, e3⟩ := appStart_ok hx
      refine ⟨fun hl => (nomatch hl), by rw [e1]; exact q'.conn, q'.keys, by rw [e2]; exact q'.device, ?_,
        by rw [e2, e3]; exact q'.performed, fun _ => ⟨info, der, g, hb, hp, ?_⟩, fun _ => .inl (by rw [hom])⟩
      · intro _
        rw [hom]
        exact ⟨nofun, nofun⟩
      · refine ⟨h, rq, [], plain, raw, a.cookie, rfl, ht, ⟨a, ha, rfl⟩, ?_, hpl, hraw, hinfo, hg, ?_, ?_, by simp⟩
        · cases hks : a.sess.keys with
          | none => trivial
          | some k => exact q.keys k hks
        · rcases deviceKeyDer_ok hder with hdk | ⟨hn, hst, hky⟩
          · obtain ⟨k, hk, hp⟩ := q.device der hdk
            exact .inl ⟨k, hk, hp⟩
          · refine .inr ⟨?_, hst, hky⟩
            unfold admitted at hadm
            rcases Bool.or_eq_true _ _ ▸ hadm with h | h
            · exact h
            · exact absurd hn (q.performed h)
        · rw [hom, hresp] at hreply
          exact hreply
    · rw [hr] at hh
      simp only [handleRes] at hh
      obtain ⟨hx, rfl⟩ := keep_ok hh
      obtain rfl : data = a.sess.data := by
        rcases setHmac_cases (B := B) (c := c) (cfg := cfg) m a.sess.data
          (Http.replay (move B) (Http.start B.empty) h).world with hd | ⟨g, v, b, _, _, _, _, hd | hd⟩
        · exact absurd hx (hd.2 _)
        · rw [hd.2] at hx; cases hx; rfl
        · exact absurd hx (hd.2 _)
      refine ⟨fun hl => (nomatch hl), q'.conn, q'.keys, q'.device, ?_, q'.performed, q'.header, fun _ => .inr (by rw [hom])⟩
      intro _
      rw [hom]
      exact ⟨nofun, nofun⟩
    · rw [hr] at hh
      simp only [handleRes] at hh
      obtain ⟨hx, rfl⟩ := keep_ok hh
      obtain ⟨d, key, random, k, token, hd, hkx, hk, hresp, rfl⟩ := connect_ok hx
      have hnew := q.fresh hlast
      have hkn : a.sess.keys = none := by rw [hnew]; rfl
      refine ⟨fun hl => (nomatch hl), fun k' hk' => ?_, q'.keys, q'.device, ?_, q'.performed, ?_, ?_⟩
      · cases hk'
        refine ⟨h, rq, [], m, key, random, rq.oracle.nonInterop, token, a.cookie, rfl, ht, ⟨a, ha, rfl⟩, hm, hkx, rfl,
          hk, ?_, by simp⟩
        have := Http.step_clear ha (by rw [ht]; decide) (by rw [hom]; decide) hh0 hso
        rw [hom, hresp] at this
        exact this
      · intro hn
        rw [hnew] at hn
        exact (hn rfl).elim
      · intro hn
        rw [hnew] at hn
        exact (hn rfl).elim
      · intro hn
        rw [hnew] at hn
        exact (hn rfl).elim
    · rw [hr] at hh
      simp only [handleRes] at hh
      obtain ⟨k, hk, rfl, rfl⟩ := requestKey_ok hh
      have hnd : a.sess.data.deviceKey = none := by
        apply Classical.byContradiction
        intro hn
        exact (q.early hn).1 hlast
      have hnh : a.sess.data.header = none := by
        apply Classical.byContradiction
        intro hn
        rcases q.late hn with h | h <;> rw [hlast] at h <;> cases h
      refine ⟨fun hl => (nomatch hl), fun _ hn => (nomatch hn), fun k' hk' => ?_, fun d hd => ?_, ?_, q'.performed, ?_, ?_⟩
      · cases hk'
        exact ⟨h, rq, [], rfl, ht, ⟨a, ha, rfl⟩, q.conn k hk, by simp⟩
      · have hd : a.sess.data.deviceKey = some d := hd
        rw [hnd] at hd; cases hd
      · exact fun hn => (hn hnd).elim
      · exact fun hn => (hn hnh).elim
      · exact fun hn => (hn hnh).elim
    · rw [hr] at hh
      simp only [handleRes] at hh
      obtain ⟨hx, rfl⟩ := keep_ok hh
      obtain rfl := provideKey_ok hx
      have hnh : a.sess.data.header = none := by
        apply Classical.byContradiction
        intro hn
        rcases q.late hn with h | h <;> rw [hlast] at h <;> cases h
      refine ⟨fun hl => (nomatch hl), q'.conn, q'.keys, fun d hd' => ?_, ?_, fun _ => nofun, ?_, ?_⟩
      · cases hd'
        exact ⟨k, hk, h, rq, [], plain, st, rfl, ht, ⟨a, ha, rfl⟩, q.keys k hk, hpl, hd, by simp⟩
      · intro _
        rw [hom]
        exact ⟨nofun, nofun⟩
      · exact fun hn => (hn hnh).elim
      · exact fun hn => (hn hnh).elim

/-! ### C42 and C43 -/

/-- Where a voucher in the store comes from: a SetHMAC request in a prepared session. -/
theorem stored_origin {Holds : B.W → Name → Bytes → Prop} (S : SoundStore B Holds) (h : Histories) (k : Name)
    (hk : Good k) (b : Bytes) (hb : Holds (Reached h).world k b) :
    ∃ h1 rq h2 i ks hmac info der g hb s v g', h = h1 ++ .request rq :: h2 ∧
      Answered R c B cfg idOf aead encode h1 rq i ks hmac ∧
      Started R c B cfg idOf aead encode h1 i ks info der g hb ∧ Prepared R cfg s info der g hb ∧
      sessionVoucher R c cfg hmac s = .ok (g', v) ∧ Voucher.serialize v = .ok b ∧ k = guidText g' := by
  revert k b
  refine Http.world_invariant (move B) (Sv := Srv) B.empty
    (fun h w => ∀ k, Good k → ∀ b, Holds w k b →
      ∃ h1 rq h2 i ks hmac info der g hb s v g', h = h1 ++ .request rq :: h2 ∧
        Answered R c B cfg idOf aead encode h1 rq i ks hmac ∧
        Started R c B cfg idOf aead encode h1 i ks info der g hb ∧ Prepared R cfg s info der g hb ∧
        sessionVoucher R c cfg hmac s = .ok (g', v) ∧ Voucher.serialize v = .ok b ∧ k = guidText g') ?_ ?_ ?_ ?_ h
  · intro k _ b hb
    exact absurd hb (S.empty k b)
  · intro h e _ ih k hk b hb
    obtain ⟨h1, rq, h2, i, ks, hmac, info, der, g, hb', s, v, g', rfl, rest⟩ := ih k hk b hb
    exact ⟨h1, rq, h2 ++ [e], i, ks, hmac, info, der, g, hb', s, v, g', by simp, rest⟩
  · intro h m ih k hk b hb
    have hb1 : Holds (Http.replay (move B) (Http.start B.empty) h).world k b := by
      cases m with
      | maintain now ls => exact S.maintain _ _ _ _ _ hb
      | fetch now path =>
        simp only [move, getOv] at hb
        split at hb
        · exact hb
        · rename_i gg hgg
          have hl : (B.load now (Http.replay (move B) (Http.start B.empty) h).world (guidText gg)).1 =
              (getOv B (fun _ => true) now path (Http.replay (move B) (Http.start B.empty) h).world).1 := by
            simp only [getOv, hgg]
            split <;> (rename_i hx; rw [hx])
          refine S.load now _ (guidText gg) _ _ ?_
          rw [hl]
          simp only [getOv, hgg]
          exact hb
    obtain ⟨h1, rq, h2, i, ks, hmac, info, der, g, hb', s, v, g', rfl, rest⟩ := ih k hk b hb1
    exact ⟨h1, rq, h2 ++ [.internal m], i, ks, hmac, info, der, g, hb', s, v, g', by simp, rest⟩
  · intro h rq a ha ih k hk b hb
    have old : Holds (Http.replay (move B) (Http.start B.empty) h).world k b →
        ∃ h1 rq' h2 i ks hmac info der g hb s v g', h ++ [.request rq] = h1 ++ .request rq' :: h2 ∧
        Answered R c B cfg idOf aead encode h1 rq' i ks hmac ∧
        Started R c B cfg idOf aead encode h1 i ks info der g hb ∧ Prepared R cfg s info der g hb ∧
        sessionVoucher R c cfg hmac s = .ok (g', v) ∧ Voucher.serialize v = .ok b ∧ k = guidText g' := by
      intro hb
      obtain ⟨h1, rq', h2, i, ks, hmac, info, der, g, hb', s, v, g', rfl, rest⟩ := ih k hk b hb
      exact ⟨h1, rq', h2 ++ [.request rq], i, ks, hmac, info, der, g, hb', s, v, g', by simp, rest⟩
    have q := explained h rq a ha
    rw [server_handle] at hb
    rcases accepted_cases ha with ⟨ht, hom, hlast, plain, raw, hpl, hraw, hr⟩ | ⟨ht, hom, hlast, plain, m, hpl, hm, hr⟩ |
      ⟨ht, hom, hlast, m, hm, hr⟩ | ⟨ht, hom, hlast, hr⟩ | ⟨ht, hom, hlast, k, plain, der, st, hkk, hpl, hd, hr⟩
    · rw [hr] at hb; exact old hb
    · rw [hr] at hb
      simp only [handleRes] at hb
      rcases setHmac_cases (B := B) (c := c) (cfg := cfg) m a.sess.data
        (Http.replay (move B) (Http.start B.empty) h).world with hd | ⟨g', v, b', hadm, hsv, hser, hw, _⟩
      · rw [hd.1] at hb; exact old hb
      · rw [hw] at hb
        have hhd : a.sess.data.header ≠ none := by
          intro hn
          unfold sessionVoucher at hsv
          rw [hn] at hsv
          cases hsv
        rcases S.put _ _ _ _ _ (guidText_good g') hk hb with hb | ⟨rfl, rfl⟩
        · exact old hb
        · obtain ⟨info, der, g, hb', p, st⟩ := q.header hhd
          exact ⟨h, rq, [], a.id, a.sess.keys, m, info, der, g, hb', a.sess.data, v, g', by simp,
            ⟨ht, ⟨a, ha, rfl⟩, plain, hpl, hm⟩, st, p, hsv, hser, rfl⟩
    · rw [hr] at hb; exact old hb
    · rw [hr] at hb; exact old hb
    · rw [hr] at hb; exact old hb

/-- **C43**: a voucher held by the store reads back as a voucher which is stored under its own GUID; its header is
the one the server sent in answer to an AppStart, its HMAC the one the device sent back in the same session. Its
chain consists of a certificate for the device's string and key and of the CA's chain, and its header has the
hash of these certificates. It belongs to the configured owner (the manufacturer if there is none). -/
theorem C43_consistent {Holds : B.W → Name → Bytes → Prop} (S : SoundStore B Holds) (L : Laws R cfg)
    (st : Settings R) (hst : startup R st = some cfg) (h : Histories)
    (hsm : SmallHeaders R c B cfg idOf aead encode h) (k : Name) (hk : Good k) (b : Bytes) (hsz : b.length < 2 ^ 63)
    (hb : Holds (Reached h).world k b) :
    ∃ v h1 rq h2 i ks hmac info der g hb, deserialize c b = .ok (v, []) ∧ h = h1 ++ .request rq :: h2 ∧
      Answered R c B cfg idOf aead encode h1 rq i ks hmac ∧
      Started R c B cfg idOf aead encode h1 i ks info der g hb ∧
      k = guidText g ∧ v.header.guid = g ∧ g.length = 16 ∧
      getLeaf R.E.decBytes v.contents 1 = .ok hb ∧ Header.serialize R.E v.header = .ok hb ∧
      v.header.deviceInfo = R.trim info ∧ v.header.rv = cfg.rv ∧ v.hmac = hmac ∧
      Certifies R cfg v info der ∧ OwnedAsConfigured R c cfg v := by
  obtain ⟨h1, rq, h2, i, ks, hmac, info, der, g, hb', s, v, g', rfl, han, hstd, hp, hsv, hser, rfl⟩ :=
    stored_origin S h k hk b hb
  obtain ⟨_, _, _, _, hpair, _⟩ := startup_some hst
  have hs := hsm h1 i ks info der g hb' ⟨_, rfl⟩ hstd
  obtain ⟨rfl, hgl, hrd, p1, p2, p3, p4, p5, p6, p7, p8, _⟩ := issued (c := c) L hpair hp hs hsv hser hsz
  exact ⟨v, h1, rq, h2, i, ks, hmac, info, der, g', hb', hrd, rfl, han, hstd, rfl, p1, hgl, p3, p2, p4, p5, p6, p7, p8⟩

/-- **C42**: the device certificate of every voucher held by the store certifies a key from an admitted source: if
plain DI is disabled, the one that was provided in the course of DIUN, in the same session; else that or the one in
the key store under the device's manufacturing string. -/
theorem C42_admitted {Holds : B.W → Name → Bytes → Prop} (S : SoundStore B Holds) (L : Laws R cfg)
    (st : Settings R) (hst : startup R st = some cfg) (h : Histories)
    (hsm : SmallHeaders R c B cfg idOf aead encode h) (k : Name) (hk : Good k) (b : Bytes) (hsz : b.length < 2 ^ 63)
    (hb : Holds (Reached h).world k b) :
    ∃ v ch dev rest key h1 rq h2 i ks hmac info der, deserialize c b = .ok (v, []) ∧ v.chain = some ch ∧
      R.certs ch = dev :: rest ∧ R.C.publicKey dev = some key ∧ R.keyFromDer der = some key ∧
      h = h1 ++ .request rq :: h2 ∧ Answered R c B cfg idOf aead encode h1 rq i ks hmac ∧
      ((∃ h0 ks', h0 <+: h1 ∧ ks = some ks' ∧ Provided R c B cfg idOf aead encode h0 i der ks') ∨
       (st.plainDi = some true ∧ cfg.keyStore = true ∧ ∃ h0 rq0 hr plain raw, h1 = h0 ++ .request rq0 :: hr ∧
         rq0.type = .diAppStart ∧ Http.InSession (Reached h0) rq0 i ∧ Http.decryptWith aead ks rq0.body = some plain ∧
         R.decAppStart plain = some raw ∧ R.decMfgInfo raw = some (some info) ∧
         rq0.oracle.keys info.toList = .ok (some der))) := by
  obtain ⟨v, h1, rq, h2, i, ks, hmac, info, der, g, hb', hrd, rfl, han, hstd, hk, _, _, _, _, _, _, _, hce, _⟩ :=
    C43_consistent S L st hst h hsm k hk b hsz hb
  obtain ⟨ch, ca, dev, f, key, ds, c1, _, c2, _, _, _, c3, c4, _⟩ := hce
  obtain ⟨h0, rq0, hr, plain, raw, tok, e1, e2, e3, _, e5, e6, e7, _, e9, _, _⟩ := hstd
  refine ⟨v, ch, dev, _, key, h1, rq, h2, i, ks, hmac, info, der, hrd, c1, c2, c4, c3, rfl, han, ?_⟩
  rcases e9 with ⟨k', hk', hp⟩ | ⟨hen, hks, hky⟩
  · exact .inl ⟨h0, k', ⟨_, e1.symm⟩, hk', hp⟩
  · refine .inr ⟨?_, hks, h0, rq0, hr, plain, raw, e1, e2, e3, e5, e6, e7, hky⟩
    obtain ⟨_, _, _, _, _, hdi, _⟩ := startup_some hst
    rw [hen] at hdi
    cases hpd : st.plainDi with
    | none => rw [hpd] at hdi; cases hdi
    | some x => rw [hpd] at hdi; simp only [Option.getD_some] at hdi; rw [hdi]

end

end Verif.MfgServer

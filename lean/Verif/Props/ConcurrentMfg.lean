import Verif.Lemmas.Concurrent
import Verif.Props.MfgServer
/-!
Property C88 for the manufacturing server: vouchers issued when requests are served at the same time.
-/
namespace Verif.MfgServer
open Verif Verif.Voucher Verif.Store Verif.Types

section
variable {R : MfgEnv} {c : Bool} {B : MStore} {cfg : Config R}
  {Id : Type} [DecidableEq Id] {idOf : List Char → Option Id} {aead : Http.Aead} {encode : Resp → Bytes}

local notation "Srv" => server R c B cfg Id idOf aead encode
local notation "Reached" => creached R c B cfg idOf aead encode
local notation "Histories" => CHist R c B cfg idOf aead encode
local notation "At" => fun h' => Http.creplay (Http.oneStep Srv) (move B) (Http.cstart B.empty) h'

theorem CConnected.mono {h : Histories} {i : Id} {ks : Http.Keys} (hn : CConnected R c B cfg idOf aead encode h i ks)
    {h' : Histories} (hp : h <+: h') : CConnected R c B cfg idOf aead encode h' i ks := by
  obtain ⟨l, rfl⟩ := hp
  obtain ⟨h1, e, h2, rq, m, key, random, flag, token, tok, rfl, p⟩ := hn
  exact ⟨h1, e, h2 ++ l, rq, m, key, random, flag, token, tok, by simp, p⟩

theorem CAgreed.mono {h : Histories} {i : Id} {ks : Http.Keys} (hn : CAgreed R c B cfg idOf aead encode h i ks)
    {h' : Histories} (hp : h <+: h') : CAgreed R c B cfg idOf aead encode h' i ks := by
  obtain ⟨l, rfl⟩ := hp
  obtain ⟨h1, e, h2, rq, rep, rfl, p⟩ := hn
  exact ⟨h1, e, h2 ++ l, rq, rep, by simp, p⟩

theorem CProvided.mono {h : Histories} {i : Id} {der : Bytes} {ks : Http.Keys}
    (hn : CProvided R c B cfg idOf aead encode h i der ks)
    {h' : Histories} (hp : h <+: h') : CProvided R c B cfg idOf aead encode h' i der ks := by
  obtain ⟨l, rfl⟩ := hp
  obtain ⟨h1, e, h2, rq, rep, plain, st, rfl, p⟩ := hn
  exact ⟨h1, e, h2 ++ l, rq, rep, plain, st, by simp, p⟩

theorem CStarted.mono {h : Histories} {i : Id} {ks : Option Http.Keys} {info : String} {der g hb : Bytes}
    (hn : CStarted R c B cfg idOf aead encode h i ks info der g hb)
    {h' : Histories} (hp : h <+: h') : CStarted R c B cfg idOf aead encode h' i ks info der g hb := by
  obtain ⟨l, rfl⟩ := hp
  obtain ⟨h1, e, h2, rq, plain, raw, tok, rfl, p⟩ := hn
  exact ⟨h1, e, h2 ++ l, rq, plain, raw, tok, by simp, p⟩

/-- The history explains the data in session `i`. -/
structure CExplained (i : Id) (h : Histories) (s : Http.Sess Srv) : Prop where
  fresh : s.last = none → s = Http.Sess.new Srv
  conn : ∀ k, s.data.diunKeys = some k → CConnected R c B cfg idOf aead encode h i k
  keys : ∀ k, s.keys = some k → CAgreed R c B cfg idOf aead encode h i k
  device : ∀ d, s.data.deviceKey = some d → ∃ k, s.keys = some k ∧ CProvided R c B cfg idOf aead encode h i d k
  early : s.data.deviceKey ≠ none → s.last ≠ some .diunAccept ∧ s.last ≠ some .diunProvideKeyParameters
  performed : s.data.performed = true → s.data.deviceKey ≠ none
  header : s.data.header ≠ none → ∃ info der g hb, Prepared R cfg s.data info der g hb ∧
    CStarted R c B cfg idOf aead encode h i s.keys info der g hb
  late : s.data.header ≠ none → s.last = some .diSetCredentials ∨ s.last = some .diDone

theorem CExplained.mono {i : Id} {h : Histories} {s : Http.Sess Srv} (q : CExplained i h s)
    {h' : Histories} (hp : h <+: h') : CExplained i h' s where
  fresh := q.fresh
  conn k hk := (q.conn k hk).mono hp
  keys k hk := (q.keys k hk).mono hp
  device d hd := by
    obtain ⟨k, hk, p⟩ := q.device d hd
    exact ⟨k, hk, p.mono hp⟩
  early := q.early
  performed := q.performed
  header hh := by
    obtain ⟨info, der, g, hb, p, st⟩ := q.header hh
    exact ⟨info, der, g, hb, p, st.mono hp⟩
  late := q.late

/-- Where a voucher comes from. -/
def Origin (h : Histories) (k : Name) (b : Bytes) : Prop :=
  ∃ h1 e h2 i ks hmac info der g hb s v g', h = h1 ++ e :: h2 ∧
    CAnswered R c B cfg idOf aead encode h1 e i ks hmac ∧
    CStarted R c B cfg idOf aead encode h1 i ks info der g hb ∧ Prepared R cfg s info der g hb ∧
    sessionVoucher R c cfg hmac s = .ok (g', v) ∧ Voucher.serialize v = .ok b ∧ k = guidText g'

theorem Origin.mono {h : Histories} {k : Name} {b : Bytes} (o : Origin h k b) {h' : Histories} (hp : h <+: h') :
    Origin h' k b := by
  obtain ⟨l, rfl⟩ := hp
  obtain ⟨h1, e, h2, i, ks, hmac, info, der, g, hb, s, v, g', rfl, p⟩ := o
  exact ⟨h1, e, h2 ++ l, i, ks, hmac, info, der, g, hb, s, v, g', by simp, p⟩

theorem move_holds {Holds : B.W → Name → Bytes → Prop} (S : SoundStore B Holds) (m : Move) (w : B.W) (k : Name)
    (b : Bytes) (hb : Holds (move B m w) k b) : Holds w k b := by
  cases m with
  | maintain now ls => exact S.maintain _ _ _ _ _ hb
  | fetch now path =>
    simp only [move, getOv] at hb
    split at hb
    · exact hb
    · rename_i gg hgg
      have hl : (B.load now w (guidText gg)).1 = (getOv B (fun _ => true) now path w).1 := by
        simp only [getOv, hgg]
        split <;> (rename_i hx; rw [hx])
      refine S.load now _ (guidText gg) _ _ ?_
      rw [hl]
      simp only [getOv, hgg]
      exact hb

/-- Everything in a manufacturing server is explained by its history. -/
theorem cexplained {Holds : B.W → Name → Bytes → Prop} (S : SoundStore B Holds) (h : Histories) :
    ∀ k, Good k → ∀ b, Holds (Reached h).st.world k b → Origin (c := c) h k b := by
  refine (Http.concurrent_invariant (wk := Http.oneStep Srv) (move := move B) (Sv := Srv) B.empty
    (fun i h s => CExplained (R := R) (B := B) (cfg := cfg) i h s)
    (fun h w => ∀ k, Good k → ∀ b, Holds w k b → Origin h k b) (fun _ _ _ _ => True) ?_ ?_ ?_ ?_ ?_ ?_ h).2.1
  · intro i h
    exact ⟨fun _ => rfl, fun _ hn => (nomatch hn), fun _ hn => (nomatch hn), fun _ hn => (nomatch hn),
      fun hn => (hn rfl).elim, fun hn => (nomatch hn), fun hn => (hn rfl).elim, fun hn => (hn rfl).elim⟩
  · exact fun i h e s q => q.mono (Http.prefix_snoc h e)
  · exact fun k _ b hb => absurd hb (S.empty k b)
  · exact fun h e w ih k hk b hb => (ih k hk b hb).mono (Http.prefix_snoc h e)
  · exact fun h m w ih k hk b hb => ih k hk b (move_holds S m w k b hb)
  · intro h rq a ha q
    refine Http.Good.once fun h' n hp' hfl hj => ?_
    have pre : h <+: h' := (Http.prefix_snoc h (.arrive rq)).trans hp'
    have old : ∀ k, Good k → ∀ b, Holds ((At) h').st.world k b → Origin (c := c) (h' ++ [.work n]) k b :=
      fun k hk b hb => (hj k hk b hb).mono (Http.prefix_snoc _ _)
    have till : ∀ (h'' : Histories), h' ++ [.work n] <+: h'' → h <+: h'' :=
      fun h'' hp'' => pre.trans (Http.prefix_snoc _ _) |>.trans hp''
    have later : ∀ (h'' : Histories) m, h' ++ [.work n] <+: h'' → CExplained a.id (h'' ++ [.finish m]) a.sess :=
      fun h'' m hp'' => q.mono ((till h'' hp'').trans (Http.prefix_snoc h'' (.finish m)))
    show (∀ k, Good k → ∀ b, Holds (handleRes R c B cfg rq.oracle a.req a.sess.data a.sess.keys ((At) h').st.world).1 k b →
        Origin (c := c) (h' ++ [.work n]) k b) ∧
      ∀ resp data keys, answer (handleRes R c B cfg rq.oracle a.req a.sess.data a.sess.keys ((At) h').st.world).2 =
          some (resp, data, keys) → _
    rcases accepted_cases ha with ⟨ht, hom, hlast, plain, raw, hpl, hraw, hr⟩ | ⟨ht, hom, hlast, plain, m, hpl, hm, hr⟩ |
      ⟨ht, hom, hlast, m, hm, hr⟩ | ⟨ht, hom, hlast, hr⟩ | ⟨ht, hom, hlast, k, plain, der, st, hk, hpl, hd, hr⟩
    · rw [hr]
      refine ⟨old, fun resp data keys hans h'' m' hp'' hf => ⟨trivial, fun hso => ?_⟩⟩
      have hh := answer_some hans
      have q' := later h'' m' hp''
      have qe := q.mono (till h'' hp'')
      simp only [handleRes] at hh
      obtain ⟨hx, rfl⟩ := keep_ok hh
      obtain ⟨info, der, g, hb, hadm, hinfo, hder, hg, hresp, hp, e1, e2, e3⟩ := appStart_ok hx
      refine ⟨fun hl => (nomatch hl), by rw [e1]; exact q'.conn, q'.keys, by rw [e2]; exact q'.device, ?_,
        by rw [e2, e3]; exact q'.performed, fun _ => ⟨info, der, g, hb, hp, ?_⟩, fun _ => .inl (by rw [hom])⟩
      · intro _
        rw [hom]
        exact ⟨nofun, nofun⟩
      · refine ⟨h'', .finish m', [], rq, plain, raw, a.cookie, rfl, ht, ⟨m', rfl, ⟨a, _, hf, rfl⟩, ?_⟩, qe.keys, hpl, hraw,
          hinfo, hg, ?_⟩
        · have hrep := Http.replyOf_ret hf hso
          rw [hom, hresp] at hrep
          exact hrep
        · rcases deviceKeyDer_ok hder with hdk | ⟨hn, hst, hky⟩
          · obtain ⟨k, hk, hp⟩ := qe.device der hdk
            exact .inl ⟨k, hk, hp⟩
          · refine .inr ⟨?_, hst, hky⟩
            unfold admitted at hadm
            rcases Bool.or_eq_true _ _ ▸ hadm with h | h
            · exact h
            · exact absurd hn (q.performed h)
    · rw [hr]
      refine ⟨fun k hk b hb => ?_, fun resp data keys hans h'' m' hp'' hf => ⟨trivial, fun hso => ?_⟩⟩
      · simp only [handleRes] at hb
        rcases setHmac_cases (B := B) (c := c) (cfg := cfg) m a.sess.data ((At) h').st.world with
          hd | ⟨g', v, b', hadm, hsv, hser, hw, _⟩
        · have hb : Holds (setHmac R c B cfg m a.sess.data ((At) h').st.world).1 k b := hb
          rw [hd.1] at hb; exact old k hk b hb
        · have hb : Holds (setHmac R c B cfg m a.sess.data ((At) h').st.world).1 k b := hb
          rw [hw] at hb
          have hhd : a.sess.data.header ≠ none := by
            intro hn
            unfold sessionVoucher at hsv
            rw [hn] at hsv
            cases hsv
          rcases S.put _ _ _ _ _ (guidText_good g') hk hb with hb | ⟨rfl, rfl⟩
          · exact old _ hk _ hb
          · obtain ⟨info, der, g, hb', p, st⟩ := q.header hhd
            exact ⟨h', .work n, [], a.id, a.sess.keys, m, info, der, g, hb', a.sess.data, v, g', rfl,
              ⟨rq, plain, ht, ⟨n, rfl, hfl⟩, hpl, hm⟩, st.mono pre, p, hsv, hser, rfl⟩
      · have hh := answer_some hans
        have q' := later h'' m' hp''
        simp only [handleRes] at hh
        obtain ⟨hx, rfl⟩ := keep_ok hh
        obtain rfl : data = a.sess.data := by
          have hx : (setHmac R c B cfg m a.sess.data ((At) h').st.world).2 = .ok (resp, data) := hx
          rcases setHmac_cases (B := B) (c := c) (cfg := cfg) m a.sess.data ((At) h').st.world with
            hd | ⟨g, v, b, _, _, _, _, hd | hd⟩
          · exact absurd hx (hd.2 _)
          · rw [hd.2] at hx; cases hx; rfl
          · exact absurd hx (hd.2 _)
        refine ⟨fun hl => (nomatch hl), q'.conn, q'.keys, q'.device, ?_, q'.performed, q'.header, fun _ => .inr (by rw [hom])⟩
        intro _
        rw [hom]
        exact ⟨nofun, nofun⟩
    · rw [hr]
      refine ⟨old, fun resp data keys hans h'' m' hp'' hf => ⟨trivial, fun hso => ?_⟩⟩
      have hh := answer_some hans
      have q' := later h'' m' hp''
      simp only [handleRes] at hh
      obtain ⟨hx, hkeys⟩ := keep_ok hh
      obtain ⟨d, key, random, k, token, hd, hkx, hk, hresp, rfl⟩ := connect_ok hx
      have hnew := q.fresh hlast
      have hkn : a.sess.keys = none := by rw [hnew]; rfl
      refine ⟨fun hl => (nomatch hl), fun k' hk' => ?_, by rw [hkeys]; exact q'.keys, by rw [hkeys]; exact q'.device, ?_,
        q'.performed, ?_, ?_⟩
      · cases hk'
        rw [hkn] at hkeys
        subst hkeys
        have hrep := Http.replies_clear (M := Move) hf hso (by rw [hom]; decide)
        rw [hom, hresp] at hrep
        exact ⟨h'', .finish m', [], rq, m, key, random, rq.oracle.nonInterop, token, a.cookie, rfl, ht, hrep, hm, hkx, rfl, hk⟩
      · intro hn
        rw [hnew] at hn
        exact (hn rfl).elim
      · intro hn
        rw [hnew] at hn
        exact (hn rfl).elim
      · intro hn
        rw [hnew] at hn
        exact (hn rfl).elim
    · rw [hr]
      refine ⟨old, fun resp data keys hans h'' m' hp'' hf => ⟨trivial, fun hso => ?_⟩⟩
      have hh := answer_some hans
      have q' := later h'' m' hp''
      simp only [handleRes] at hh
      obtain ⟨k, hk, rfl, rfl⟩ := requestKey_ok hh
      have hnd : a.sess.data.deviceKey = none := by
        apply Classical.byContradiction
        intro hn
        exact (q.early hn).1 hlast
      have hnh : a.sess.data.header = none := by
        apply Classical.byContradiction
        intro hn
        rcases q.late hn with h | h <;> rw [hlast] at h <;> cases h
      refine ⟨fun hl => (nomatch hl), fun _ hn => (nomatch hn), fun k' hk' => ?_, fun d hd => ?_, ?_, q'.performed, ?_, ?_⟩
      · cases hk'
        exact ⟨h'', .finish m', [], rq, _, rfl, ht, ⟨m', rfl, ⟨a, _, hf, rfl⟩, Http.replyOf_ret hf hso⟩,
          (q.conn k hk).mono (till h'' hp'')⟩
      · have hd : a.sess.data.deviceKey = some d := hd
        rw [hnd] at hd; cases hd
      · exact fun hn => (hn hnd).elim
      · exact fun hn => (hn hnh).elim
      · exact fun hn => (hn hnh).elim
    · rw [hr]
      refine ⟨old, fun resp data keys hans h'' m' hp'' hf => ⟨trivial, fun hso => ?_⟩⟩
      have hh := answer_some hans
      have q' := later h'' m' hp''
      simp only [handleRes] at hh
      obtain ⟨hx, rfl⟩ := keep_ok hh
      obtain rfl := provideKey_ok hx
      have hnh : a.sess.data.header = none := by
        apply Classical.byContradiction
        intro hn
        rcases q.late hn with h | h <;> rw [hlast] at h <;> cases h
      refine ⟨fun hl => (nomatch hl), q'.conn, q'.keys, fun d hd' => ?_, ?_, fun _ => nofun, ?_, ?_⟩
      · cases hd'
        exact ⟨k, hk, h'', .finish m', [], rq, _, plain, st, rfl, ht,
          ⟨m', rfl, ⟨a, _, hf, rfl⟩, Http.replyOf_ret hf hso⟩, (q.keys k hk).mono (till h'' hp''), hpl, hd⟩
      · intro _
        rw [hom]
        exact ⟨nofun, nofun⟩
      · exact fun hn => (hn hnh).elim
      · exact fun hn => (hn hnh).elim

/-- **C88** (vouchers): as C43 and C42, when requests are served at the same time. A voucher held by the store reads back
as a voucher stored under its own GUID, with the header sent in answer to an AppStart, the HMAC from a SetHMAC of
the same session, a certificate for the device's string and key, and the configured owner; the key comes from
DIUN in the same session, or from the key store if plain DI is enabled. -/
theorem C88_vouchers {Holds : B.W → Name → Bytes → Prop} (S : SoundStore B Holds) (L : Laws R cfg)
    (st : Settings R) (hst : startup R st = some cfg) (h : Histories)
    (hsm : CSmallHeaders R c B cfg idOf aead encode h) (k : Name) (hk : Good k) (b : Bytes) (hsz : b.length < 2 ^ 63)
    (hb : Holds (Reached h).st.world k b) :
    ∃ v h1 e h2 i ks hmac info der g hb, deserialize c b = .ok (v, []) ∧ h = h1 ++ e :: h2 ∧
      CAnswered R c B cfg idOf aead encode h1 e i ks hmac ∧
      CStarted R c B cfg idOf aead encode h1 i ks info der g hb ∧
      k = guidText g ∧ v.header.guid = g ∧ g.length = 16 ∧
      getLeaf R.E.decBytes v.contents 1 = .ok hb ∧ Header.serialize R.E v.header = .ok hb ∧
      v.header.deviceInfo = R.trim info ∧ v.header.rv = cfg.rv ∧ v.hmac = hmac ∧
      Certifies R cfg v info der ∧ OwnedAsConfigured R c cfg v ∧
      ((∃ h0 k, h0 <+: h1 ∧ ks = some k ∧ CProvided R c B cfg idOf aead encode h0 i der k) ∨
       (st.plainDi = some true ∧ cfg.keyStore = true ∧ ∃ h0 e0 hr rq0 rep, h1 = h0 ++ e0 :: hr ∧ rq0.type = .diAppStart ∧
         Http.Replies (Reached h0) e0 rq0 i rep ∧ rq0.oracle.keys info.toList = .ok (some der))) := by
  obtain ⟨h1, e, h2, i, ks, hmac, info, der, g, hb', s, v, g', rfl, han, hstd, hp, hsv, hser, rfl⟩ :=
    cexplained S h k hk b hb
  obtain ⟨_, _, _, _, hpair, hdi, _⟩ := startup_some hst
  have hs := hsm h1 i ks info der g hb' ⟨_, rfl⟩ hstd
  obtain ⟨rfl, hgl, hrd, p1, p2, p3, p4, p5, p6, p7, p8, _⟩ := issued (c := c) L hpair hp hs hsv hser hsz
  refine ⟨v, h1, e, h2, i, ks, hmac, info, der, g', hb', hrd, rfl, han, hstd, rfl, p1, hgl, p3, p2, p4, p5, p6, p7, p8, ?_⟩
  obtain ⟨h0, e0, hr, rq0, plain, raw, tok, e1, e2, e3, _, _, _, _, _, e9⟩ := hstd
  rcases e9 with ⟨k', hk', hp⟩ | ⟨hen, hks, hky⟩
  · exact .inl ⟨h0, k', ⟨_, e1.symm⟩, hk', hp⟩
  · refine .inr ⟨?_, hks, h0, e0, hr, rq0, _, e1, e2, e3, hky⟩
    rw [hen] at hdi
    cases hpd : st.plainDi with
    | none => rw [hpd] at hdi; cases hdi
    | some x => rw [hpd] at hdi; simp only [Option.getD_some] at hdi; rw [hdi]

end
end Verif.MfgServer

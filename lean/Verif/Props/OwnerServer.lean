import Verif.Lemmas.OwnerServer
/-!
Properties C37, C38 and C39: the owner onboarding server.
-/
namespace Verif.OwnerServer
open Verif Verif.Voucher Verif.Store Verif.Types Verif.ServiceInfo

section
variable {R : OwnerEnv} {c : Bool} {B : VStore (Voucher R.E)} {cfg : Config R}
  {Id : Type} [DecidableEq Id] {idOf : List Char → Option Id} {aead : Http.Aead} {encode : Resp → Bytes}

local notation "Srv" => server R c B cfg Id idOf aead encode
local notation "Reached" => reached R c B cfg idOf aead encode
local notation "Histories" => Hist R c B cfg idOf aead encode

/-! ### What requests mean -/

/-- The six kinds of requests which reach a handler. -/
theorem accepted_cases {σ : Http.St Srv} {rq : Http.Request Srv} {a : Http.Accepted Srv}
    (ha : Http.accept σ rq = some a) :
    (rq.type = .to2HelloDevice ∧ a.om = .to2ProveOVHdr ∧ a.sess.last = none ∧ a.sess.keys = none ∧
      ∃ m, a.req = .hello m rq.body ∧ R.decHello rq.body = some m) ∨
    (rq.type = .to2GetOVNextEntry ∧ a.om = .to2OVNextEntry ∧ a.sess.keys = none ∧
      ∃ n, a.req = .getEntry n ∧ R.decGetEntry rq.body = some n) ∨
    (rq.type = .to2ProveDevice ∧ a.om = .to2SetupDevice ∧ a.sess.keys = none ∧ a.req = .prove rq.body) ∨
    (rq.type = .to2DeviceServiceInfoReady ∧ a.om = .to2OwnerServiceInfoReady ∧ a.req = .ready) ∨
    (rq.type = .to2DeviceServiceInfo ∧ a.om = .to2OwnerServiceInfo ∧ ∃ k plain si, a.sess.keys = some k ∧
      aead.decrypt k.sevk rq.body = some plain ∧ R.decDeviceSi plain = some si ∧ a.req = .deviceSi si) ∨
    (rq.type = .to2Done ∧ a.om = .to2Done2 ∧ ∃ k plain n, a.sess.keys = some k ∧
      aead.decrypt k.sevk rq.body = some plain ∧ R.decDone plain = some n ∧ a.req = .done n) := by
  have hr := Http.routeOf_mem (Http.accept_eq_some ha).1
  have hreq := Http.C23_requests σ rq a ha
  have hprev := (Http.accept_eq_some ha).2.2.1
  have hr' : (rq.type, a.om) ∈ ownerRoutes := hr
  simp only [ownerRoutes, List.mem_cons, Prod.mk.injEq, List.not_mem_nil, or_false] at hr'
  rcases hr' with ⟨h1, h2⟩ | ⟨h1, h2⟩ | ⟨h1, h2⟩ | ⟨h1, h2⟩ | ⟨h1, h2⟩ | ⟨h1, h2⟩
  · obtain ⟨hk, h⟩ := hreq.2.1 (by rw [h1]; decide)
    have h : decode R c rq.type rq.body = some a.req := h
    rw [h1] at h hprev
    simp only [decode, Option.map_eq_some_iff] at h
    obtain ⟨m, hm, h⟩ := h
    refine .inl ⟨h1, h2, ?_, hk, m, h.symm, hm⟩
    simpa [MsgType.validPrev] using hprev
  · obtain ⟨hk, h⟩ := hreq.2.1 (by rw [h1]; decide)
    have h : decode R c rq.type rq.body = some a.req := h
    rw [h1] at h
    simp only [decode, Option.map_eq_some_iff] at h
    obtain ⟨m, hm, h⟩ := h
    exact .inr (.inl ⟨h1, h2, hk, m, h.symm, hm⟩)
  · obtain ⟨hk, h⟩ := hreq.2.1 (by rw [h1]; decide)
    have h : decode R c rq.type rq.body = some a.req := h
    rw [h1] at h
    simp only [decode] at h
    split at h
    · exact .inr (.inr (.inl ⟨h1, h2, hk, (Option.some.inj h).symm⟩))
    · cases h
  · obtain ⟨k, plain, hk, hp, h⟩ := hreq.1 (by rw [h1]; decide)
    have h : decode R c rq.type plain = some a.req := h
    rw [h1] at h
    simp only [decode] at h
    split at h
    · exact .inr (.inr (.inr (.inl ⟨h1, h2, (Option.some.inj h).symm⟩)))
    · cases h
  · obtain ⟨k, plain, hk, hp, h⟩ := hreq.1 (by rw [h1]; decide)
    have h : decode R c rq.type plain = some a.req := h
    rw [h1] at h
    simp only [decode, Option.map_eq_some_iff] at h
    obtain ⟨si, hsi, h⟩ := h
    exact .inr (.inr (.inr (.inr (.inl ⟨h1, h2, k, plain, si, hk, hp, hsi, h.symm⟩))))
  · obtain ⟨k, plain, hk, hp, h⟩ := hreq.1 (by rw [h1]; decide)
    have h : decode R c rq.type plain = some a.req := h
    rw [h1] at h
    simp only [decode, Option.map_eq_some_iff] at h
    obtain ⟨n, hn, h⟩ := h
    exact .inr (.inr (.inr (.inr (.inr ⟨h1, h2, k, plain, n, hk, hp, hn, h.symm⟩))))

theorem server_handle {o : Oracle R} {t : MsgType} {r : Req} {s : Data R} {k : Option Http.Keys} {w : B.W} :
    (Srv).handle o t r s k w = handle R c B cfg o r s k w := rfl

/-! ### Where session data comes from -/

theorem HelloDone.mono {h : Histories} {i : Id} {g n : Bytes} {kx : KeyExchange R.K} {cs : CipherSuite}
    (hn : HelloDone R c B cfg idOf aead encode h i g n kx cs)
    (e : Http.Event Srv (Move R)) (he : ∀ j, e = .expire j → j ≠ i) :
    HelloDone R c B cfg idOf aead encode (h ++ [e]) i g n kx cs := by
  obtain ⟨h1, rq, h2, tok, b, m, key, random, rfl, p1, p2, p3, p4, p5, p6, p7, p8, p9, p10, f⟩ := hn
  refine ⟨h1, rq, h2 ++ [e], tok, b, m, key, random, by simp, p1, p2, p3, p4, p5, p6, p7, p8, p9, p10, ?_⟩
  simp only [List.mem_append, List.mem_singleton, not_or]
  exact ⟨f, fun hh => he i hh.symm rfl⟩

theorem Proven.mono {h : Histories} {i : Id} {g n n7 : Bytes} {ks : Http.Keys}
    (hn : Proven R c B cfg idOf aead encode h i g n n7 ks)
    (e : Http.Event Srv (Move R)) (he : ∀ j, e = .expire j → j ≠ i) :
    Proven R c B cfg idOf aead encode (h ++ [e]) i g n n7 ks := by
  obtain ⟨h1, rq, h2, v, k, b, kx, cs, flag, now, rfl, p1, p2, p3, p4, p5, p6, p7, p8, p9, f⟩ := hn
  refine ⟨h1, rq, h2 ++ [e], v, k, b, kx, cs, flag, now, by simp, p1, p2, p3, p4, p5, p6, p7, p8, p9, ?_⟩
  simp only [List.mem_append, List.mem_singleton, not_or]
  exact ⟨f, fun hh => he i hh.symm rfl⟩

/-- The history explains the data in session `i`. -/
structure Explained (i : Id) (h : Histories) (s : Http.Sess Srv) : Prop where
  fresh : s.last = none → s = Http.Sess.new Srv
  hello : ∀ n, s.data.nonce6 = some n → ∃ g kx cs, HelloDone R c B cfg idOf aead encode h i g n kx cs ∧
    g.length = 16 ∧ s.data.guid = some (guidText g) ∧ (∀ kx', s.data.kex = some kx' → kx' = kx) ∧
    (∀ cs', s.data.cipher = some cs' → cs' = cs)
  proven : s.data.proven = true → ∃ g n n7 ks, Proven R c B cfg idOf aead encode h i g n n7 ks ∧
    g.length = 16 ∧ s.data.guid = some (guidText g) ∧ s.data.nonce6 = some n ∧ s.keys = some ks ∧
    (∀ x, s.data.nonce7 = some x → x = n7)
  paired : s.data.guid ≠ none → s.data.nonce6 ≠ none

/-- Session data survives everything else. -/
theorem Explained.mono {i : Id} {h : Histories} {s : Http.Sess Srv} (q : Explained i h s)
    (e : Http.Event Srv (Move R)) (he : ∀ j, e = .expire j → j ≠ i) : Explained i (h ++ [e]) s where
  fresh := q.fresh
  hello n hn := by
    obtain ⟨g, kx, cs, p, rest⟩ := q.hello n hn
    exact ⟨g, kx, cs, p.mono e he, rest⟩
  proven hp := by
    obtain ⟨g, n, n7, ks, p, rest⟩ := q.proven hp
    exact ⟨g, n, n7, ks, p.mono e he, rest⟩
  paired := q.paired

theorem explained (h : Histories) :
    ∀ rq a, Http.accept (Reached h) rq = some a → Explained (R := R) (B := B) (cfg := cfg) a.id h a.sess := by
  refine (Http.session_invariant (move B cfg) (Sv := Srv) B.empty
    (fun i h s => Explained (R := R) (B := B) (cfg := cfg) i h s) ?_ ?_ ?_ h).2
  · intro i h
    exact ⟨fun _ => rfl, fun n hn => (nomatch hn), fun hp => (nomatch hp), fun hg => (hg rfl).elim⟩
  · intro i h e s q he
    exact q.mono e he
  · intro h rq a w resp data keys ha hh hso q
    have q' := q.mono (.request rq) (fun j hj => nomatch hj)
    have hh0 := hh
    rw [server_handle] at hh
    rcases accepted_cases ha with ⟨ht, hom, hlast, hkeys, m, hr, hm⟩ | ⟨ht, hom, hkeys, n, hr, hn⟩ |
      ⟨ht, hom, hkeys, hr⟩ | ⟨ht, hom, hr⟩ | ⟨ht, hom, k, plain, si, hk, hp, hsi, hr⟩ |
      ⟨ht, hom, k, plain, n, hk, hp, hn, hr⟩
    · rw [hr] at hh
      simp only [handle, Prod.mk.injEq] at hh
      obtain ⟨hw, hh⟩ := hh
      obtain ⟨hx, rfl⟩ := keep_some hh
      obtain ⟨hg, n, key, random, token, v, hn, hkx, _, _, _, htk, hresp, hs⟩ := helloDevice_some
        (w' := (helloDevice R B cfg rq.oracle m rq.body a.sess.data _).1) (Prod.ext rfl hx)
      have hstep := Http.step_clear ha (by rw [ht]; decide) (by rw [hom]; decide) hh0 hso
      have hnew := q.fresh hlast
      refine ⟨fun hl => (nomatch hl), fun n' hn' => ?_, fun hp => ?_, ?_⟩
      · rw [hs] at hn'
        cases hn'
        refine ⟨m.guid, newKex m.kex key random, m.cipher,
          ⟨h, rq, [], a.cookie, encode resp, m, key, random, rfl, ht, ⟨a, ha, rfl⟩, hm, rfl, rfl, hg, hn, hkx, rfl, ?_, by simp⟩,
          hg, by rw [hs], fun kx' hk' => ?_, fun cs' hc' => ?_⟩
        · rw [hom] at hstep
          exact hstep
        · rw [hs] at hk'
          exact (Option.some.inj hk').symm
        · rw [hs] at hc'
          exact (Option.some.inj hc').symm
      · rw [hs, hnew] at hp
        cases hp
      · rw [hs]
        exact fun _ => nofun
    · rw [hr] at hh
      simp only [handle, Prod.mk.injEq] at hh
      obtain ⟨hw, hh⟩ := hh
      obtain ⟨hx, rfl⟩ := keep_some hh
      obtain ⟨rfl, _⟩ := getEntry_some
        (w' := (getEntry R c B rq.oracle n a.sess.data _).1) (Prod.ext rfl hx)
      exact ⟨fun hl => (nomatch hl), q'.hello, q'.proven, q'.paired⟩
    · rw [hr] at hh
      simp only [handle] at hh
      obtain ⟨t, g, n6, kx, cs, v, k, n7, b, key, g2, tk, htx, hg, hn, hkx, hcs, hl, hvk, hct, hkey, hg2, htk, hresp,
        hks, hs⟩ := proveDevice_some hh
      obtain ⟨g', kx', cs', p, hl', hgt, hkx', hcs'⟩ := q.hello n6 hn
      obtain rfl := hkx' kx hkx
      obtain rfl := hcs' cs hcs
      have hgg : g = g' := by
        have : t = guidText g' := by rw [hgt] at htx; exact (Option.some.inj htx).symm
        rw [this] at hg
        exact RvServer.parseGuid_text hl' hg
      subst hgg
      obtain ⟨hsp, hat⟩ := checkToken_some hct
      refine ⟨fun hl => (nomatch hl), fun n' hn' => ?_, fun hp => ?_, ?_⟩
      · rw [hs] at hn'
        obtain ⟨g', kx', cs', p', hl1, hgt', _, _⟩ := q'.hello n' hn'
        refine ⟨g', kx', cs', p', hl1, by rw [hs]; exact hgt', fun kx hk => ?_, fun cs hc => ?_⟩
        · rw [hs] at hk; cases hk
        · rw [hs] at hc; cases hc
      · refine ⟨g, n6, n7, ⟨cs, key⟩, ⟨h, rq, [], v, k, b, kx, cs, rq.oracle.nonInterop, rq.oracle.now, rfl, ht,
          ⟨a, ha, rfl⟩, p, hl, voucherKey_some hvk, hsp, hat, rfl, hkey, by simp⟩, hl', by rw [hs]; exact hgt,
          by rw [hs]; exact hn, hks, fun x hx => ?_⟩
        rw [hs] at hx
        exact (Option.some.inj hx).symm
      · rw [hs]
        exact q'.paired
    · rw [hr] at hh
      simp only [handle, Prod.mk.injEq] at hh
      obtain ⟨hw, hh⟩ := hh
      split at hh
      · simp only [Option.some.injEq, Prod.mk.injEq] at hh
        obtain ⟨_, rfl, rfl⟩ := hh
        exact ⟨fun hl => (nomatch hl), q'.hello, q'.proven, q'.paired⟩
      · cases hh
    · rw [hr] at hh
      simp only [handle, Prod.mk.injEq] at hh
      obtain ⟨hw, hh⟩ := hh
      obtain ⟨hx, rfl⟩ := keep_some hh
      obtain ⟨_, _, _, _, _, _, _, _, _, rfl⟩ := deviceSi_some hx
      exact ⟨fun hl => (nomatch hl), q'.hello, q'.proven, q'.paired⟩
    · rw [hr] at hh
      simp only [handle, Prod.mk.injEq] at hh
      obtain ⟨hw, hh⟩ := hh
      obtain ⟨hx, rfl⟩ := keep_some hh
      rcases doneTo2_cases (B := B) rq.oracle n a.sess.data (Http.replay (move B cfg) (Http.start B.empty) h).world with
        hd | ⟨t, g, n7, hpv, hn6, htx, hg, hn7, _, hd | hd⟩
      · rw [hd] at hx; cases hx
      · rw [hd.2] at hx
        simp only [Option.some.injEq, Prod.mk.injEq] at hx
        obtain ⟨_, rfl⟩ := hx
        refine ⟨fun hl => (nomatch hl), q'.hello, fun hp => ?_, q'.paired⟩
        obtain ⟨g, n, n7, ks, p, p1, p2, p3, p4, p5⟩ := q'.proven hp
        exact ⟨g, n, n7, ks, p, p1, p2, p3, p4, fun x hx => nomatch hx⟩
      · rw [hd.2] at hx; cases hx

/-! ### C37 -/

/-- **C37**: whenever the server sends service info, the device of the voucher held for `g` has proven itself
in that session, over the nonce of that session. The message is encrypted under the keys of that proof, and
either says that the exchange is finished or consists of the instructions the service info API gives for the
GUID `g` and the modules announced by the device. -/
theorem C37_service_info (h : Histories) (rq : Http.Request Srv) (b : Bytes) (tok : Option (List Char))
    (hr : (Http.step (Reached h) rq).2 = .ok .to2OwnerServiceInfo b tok) :
    ∃ i g n n7 ks msg, Http.InSession (Reached h) rq i ∧ Proven R c B cfg idOf aead encode h i g n n7 ks ∧
      aead.encrypt ks.sevk rq.iv (encode (.ownerSi msg)) = some b ∧
      (msg = ⟨false, true, []⟩ ∨
        ∃ plain si ms reply items, aead.decrypt ks.sevk rq.body = some plain ∧ R.decDeviceSi plain = some si ∧
          moduleList R.decVal si = some ms ∧ rq.oracle.api (apiQuery (guidText g) ms) = some reply ∧
          replyItems reply = some items ∧ msg = ⟨false, false, toSi R.encVal items⟩) := by
  obtain ⟨a, w, resp, data, keys, ha, hh, hso, hom, henc, hck⟩ := Http.step_ok hr
  have q := explained h rq a ha
  rw [server_handle] at hh
  rcases accepted_cases ha with ⟨ht, hom', _⟩ | ⟨ht, hom', _⟩ | ⟨ht, hom', _⟩ | ⟨ht, hom', _⟩ |
    ⟨ht, hom', k, plain, si, hk, hp, hsi, hreq⟩ | ⟨ht, hom', _⟩
  · rw [hom'] at hom; cases hom
  · rw [hom'] at hom; cases hom
  · rw [hom'] at hom; cases hom
  · rw [hom'] at hom; cases hom
  · rw [hreq] at hh
    simp only [handle, Prod.mk.injEq] at hh
    obtain ⟨hw, hh⟩ := hh
    obtain ⟨hx, rfl⟩ := keep_some hh
    obtain ⟨hpv, hlp, t, g, m, htx, hg, hpf, rfl, rfl⟩ := deviceSi_some hx
    obtain ⟨g', n, n7, ks, p, hgl, hgt, hn6, hks, _⟩ := q.proven hpv
    have hgg : g = g' := by
      have : t = guidText g' := by rw [hgt] at htx; exact (Option.some.inj htx).symm
      rw [this] at hg
      exact RvServer.parseGuid_text hgl hg
    subst hgg
    rw [hks] at henc
    refine ⟨a.id, g, n, n7, ks, m, ⟨a, ha, rfl⟩, p, henc, ?_⟩
    unfold perform at hpf
    split at hpf
    · cases hpf; exact .inl rfl
    split at hpf
    · cases hpf
    rename_i ms hms
    split at hpf
    · cases hpf
    rename_i reply hapi
    rw [Option.map_eq_some_iff] at hpf
    obtain ⟨items, hit, rfl⟩ := hpf
    rw [hks] at hk
    cases hk
    exact .inr ⟨plain, si, ms, reply, items, hp, hsi, hms, hapi, hit, rfl⟩
  · rw [hom'] at hom; cases hom

/-! ### C38 -/

theorem reportLoop_marks {Marks : B.W → Name → Prop} (S : SoundMarks B Marks) (rv : Outcome R)
    (l : List (Voucher R.E)) (w : B.W) (k : Name) (hk : Good k) (h : Marks (reportLoop B rv w l) k) : Marks w k := by
  induction l generalizing w with
  | nil => exact h
  | cons v r ih =>
    simp only [reportLoop] at h
    split at h
    · exact ih _ h
    rename_i now wait _
    split at h
    · exact h
    rename_i k' hk'
    obtain ⟨_, rfl⟩ := RvServer.guidKey_some hk'
    have key : Marks (B.setWait now w (guidText v.header.guid) wait).1 k → Marks w k :=
      S.setWait now w _ wait k (guidText_good _) hk
    split at h
    · rename_i w' hw
      exact key (by rw [hw]; exact ih _ h)
    · rename_i w' x _ hw
      exact key (by rw [hw]; exact h)

theorem move_marks {Marks : B.W → Name → Prop} (S : SoundMarks B Marks) (m : Move R) (w : B.W) (k : Name)
    (hk : Good k) (h : Marks (move B cfg m w) k) : Marks w k := by
  cases m with
  | «import» v =>
    simp only [move, importV] at h
    split at h
    · exact h
    rename_i k' hk'
    obtain ⟨_, rfl⟩ := RvServer.guidKey_some hk'
    exact S.put w _ k v (guidText_good _) hk h
  | report now ls rv => exact reportLoop_marks S rv _ _ k hk h
  | round now ls rv now' rv' =>
    exact S.maintain _ _ _ _ (reportLoop_marks S rv _ _ k hk (reportLoop_marks S rv' _ _ k hk h))

/-- **C38** for any store with sound marks: a mark on the voucher for `g` comes from a Done request, in a
session in which the device of the voucher held for `g` had proven itself, with the nonce of that session. -/
theorem C38_sound_store {Marks : B.W → Name → Prop} (S : SoundMarks B Marks) (h : Histories) (g : Bytes)
    (hg : g.length = 16) (hm : Marks (Reached h).world (guidText g)) :
    ∃ h1 rq h2 i n n7 ks, h = h1 ++ .request rq :: h2 ∧ DoneWith R c B cfg idOf aead encode h1 rq i n ks ∧
      Proven R c B cfg idOf aead encode h1 i g n n7 ks := by
  have main := Http.world_invariant (move B cfg) (Sv := Srv) B.empty
    (fun h w => ∀ g, g.length = 16 → Marks w (guidText g) →
      ∃ h1 rq h2 i n n7 ks, h = h1 ++ .request rq :: h2 ∧ DoneWith R c B cfg idOf aead encode h1 rq i n ks ∧
        Proven R c B cfg idOf aead encode h1 i g n n7 ks)
    ?_ ?_ ?_ ?_ h
  · exact main g hg hm
  · intro g _ h
    exact absurd h (S.empty _)
  · intro h e _ ih g hg hw
    obtain ⟨h1, rq, h2, i, n, n7, ks, he, p⟩ := ih g hg hw
    exact ⟨h1, rq, h2 ++ [e], i, n, n7, ks, Http.split_snoc he, p⟩
  · intro h m ih g hg hw
    obtain ⟨h1, rq, h2, i, n, n7, ks, he, p⟩ := ih g hg (move_marks S m _ _ (guidText_good g) hw)
    exact ⟨h1, rq, h2 ++ [_], i, n, n7, ks, Http.split_snoc he, p⟩
  · intro h rq a ha ih g hg hw
    rw [server_handle] at hw
    change Marks (handle R c B cfg rq.oracle a.req a.sess.data a.sess.keys (Reached h).world).1 (guidText g) at hw
    have old : Marks (Reached h).world (guidText g) →
        ∃ h1 rq' h2 i n n7 ks, h ++ [.request rq] = h1 ++ .request rq' :: h2 ∧
          DoneWith R c B cfg idOf aead encode h1 rq' i n ks ∧ Proven R c B cfg idOf aead encode h1 i g n n7 ks := by
      intro hw
      obtain ⟨h1, rq', h2, i, n, n7, ks, he, p⟩ := ih g hg hw
      exact ⟨h1, rq', h2 ++ [_], i, n, n7, ks, Http.split_snoc he, p⟩
    have q := explained h rq a ha
    rcases accepted_cases ha with ⟨ht, hom, hlast, hkeys, m, hr, hm⟩ | ⟨ht, hom, hkeys, n, hr, hn⟩ |
      ⟨ht, hom, hkeys, hr⟩ | ⟨ht, hom, hr⟩ | ⟨ht, hom, k, plain, si, hk, hp, hsi, hr⟩ |
      ⟨ht, hom, k, plain, n, hk, hp, hn, hr⟩
    · rw [hr] at hw
      refine old ?_
      simp only [handle, helloDevice] at hw
      split at hw
      · exact hw
      rename_i k hk
      refine S.load rq.oracle.now _ k _ ?_
      split at hw <;> rename_i hl <;> rw [hl] <;> exact hw
    · rw [hr] at hw
      refine old ?_
      simp only [handle, getEntry] at hw
      split at hw
      · exact hw
      rename_i g' hg'
      refine S.load rq.oracle.now _ (guidText g') _ ?_
      split at hw
      · rename_i w' v hl
        rw [hl]
        split at hw <;> exact hw
      · rename_i hl
        rw [hl]; exact hw
    · rw [hr] at hw
      refine old ?_
      simp only [handle, proveDevice] at hw
      split at hw
      · rename_i g' _ _ _ hg' _ _ _
        refine S.load rq.oracle.now _ (guidText g') _ ?_
        split at hw <;> rename_i hl <;> rw [hl] <;> exact hw
      · exact hw
    · rw [hr] at hw
      exact old hw
    · rw [hr] at hw
      exact old hw
    · rw [hr] at hw
      simp only [handle] at hw
      rcases doneTo2_cases (B := B) rq.oracle n a.sess.data (Reached h).world with
        hd | ⟨t, g', n7, hpv, hn6, htx, hg', hn7, hd, _⟩
      · have hd' := congrArg Prod.fst hd
        simp only at hd'
        rw [show (doneTo2 R B rq.oracle n a.sess.data (Reached h).world).1 = (Reached h).world from hd'] at hw
        exact old hw
      · rw [show (doneTo2 R B rq.oracle n a.sess.data (Reached h).world).1 = _ from hd] at hw
        rcases S.setTo2 _ _ _ _ (guidText_good _) (guidText_good _) hw with hw | hw
        · exact old hw
        · obtain ⟨g2, n', n7', ks, p, hgl, hgt, hn6', hks, _⟩ := q.proven hpv
          have hgg : g' = g2 := by
            have : t = guidText g2 := by rw [hgt] at htx; exact (Option.some.inj htx).symm
            rw [this] at hg'
            exact RvServer.parseGuid_text hgl hg'
          subst hgg
          have := guidText_injective g g' hg hgl hw
          subst this
          rw [hn6] at hn6'
          cases hn6'
          have hkk : ks = k := by rw [hks] at hk; exact Option.some.inj hk
          subst hkk
          exact ⟨h, rq, [], a.id, n, n7', ks, rfl, ⟨ht, ⟨a, ha, rfl⟩, plain, hp, hn⟩, p⟩

/-- **C38** (reply): when the server confirms Done, the request carried the nonce of a session in which the
device of the voucher held for `g` had proven itself, the reply (encrypted under the keys of that proof) is the
nonce which came with that proof, and the mark was set for `g`. -/
theorem C38_reply (h : Histories) (rq : Http.Request Srv) (b : Bytes) (tok : Option (List Char))
    (hr : (Http.step (Reached h) rq).2 = .ok .to2Done2 b tok) :
    ∃ i g n n7 ks, DoneWith R c B cfg idOf aead encode h rq i n ks ∧
      Proven R c B cfg idOf aead encode h i g n n7 ks ∧
      aead.encrypt ks.sevk rq.iv (encode (.done2 n7)) = some b ∧
      B.setTo2 rq.oracle.now (Reached h).world (guidText g) = ((Http.step (Reached h) rq).1.world, .ok ()) := by
  obtain ⟨a, w, resp, data, keys, ha, hh, hso, hom, henc, hck⟩ := Http.step_ok hr
  have q := explained h rq a ha
  have hworld := Http.step_world ha
  rw [server_handle] at hh hworld
  rcases accepted_cases ha with ⟨ht, hom', _⟩ | ⟨ht, hom', _⟩ | ⟨ht, hom', _⟩ | ⟨ht, hom', _⟩ | ⟨ht, hom', _⟩ |
    ⟨ht, hom', k, plain, n, hk, hp, hn, hreq⟩
  · rw [hom'] at hom; cases hom
  · rw [hom'] at hom; cases hom
  · rw [hom'] at hom; cases hom
  · rw [hom'] at hom; cases hom
  · rw [hom'] at hom; cases hom
  · rw [hreq] at hh hworld
    simp only [handle, Prod.mk.injEq] at hh hworld
    obtain ⟨hw, hh⟩ := hh
    obtain ⟨hx, rfl⟩ := keep_some hh
    rcases doneTo2_cases (B := B) rq.oracle n a.sess.data (Reached h).world with
      hd | ⟨t, g, n7, hpv, hn6, htx, hg, hn7, hd1, hd | hd⟩
    · rw [hd] at hx; cases hx
    · obtain ⟨hset, hd⟩ := hd
      rw [hd] at hx
      simp only [Option.some.injEq, Prod.mk.injEq] at hx
      obtain ⟨rfl, rfl⟩ := hx
      obtain ⟨g2, n', n7', ks, p, hgl, hgt, hn6', hks, h7⟩ := q.proven hpv
      have hgg : g = g2 := by
        have : t = guidText g2 := by rw [hgt] at htx; exact (Option.some.inj htx).symm
        rw [this] at hg
        exact RvServer.parseGuid_text hgl hg
      subst hgg
      rw [hn6] at hn6'
      cases hn6'
      obtain rfl := h7 n7 hn7
      have hkk : ks = k := by rw [hks] at hk; exact Option.some.inj hk
      subst hkk
      rw [hks] at henc
      refine ⟨a.id, g, n, n7, ks, ⟨ht, ⟨a, ha, rfl⟩, plain, hp, hn⟩, p, henc, ?_⟩
      rw [hworld]
      exact Prod.ext hd1.symm hset
    · rw [hd.2] at hx; cases hx

/-! ### Properties of the store which every step keeps -/

theorem handle_world (J : B.W → Prop) (hload : ∀ now w k, J w → J (B.load now w k).1)
    (hto2 : ∀ now w g, J w → J (B.setTo2 now w (guidText g)).1) (o : Oracle R) (r : Req) (s : Data R)
    (k : Option Http.Keys) (w : B.W) (hw : J w) : J (handle R c B cfg o r s k w).1 := by
  cases r with
  | hello m body =>
    simp only [handle, helloDevice]
    split
    · exact hw
    rename_i k _
    have := hload o.now w k hw
    split <;> rename_i hl <;> rw [hl] at this <;> exact this
  | getEntry n =>
    simp only [handle, getEntry]
    split
    · exact hw
    rename_i g _
    have := hload o.now w (guidText g) hw
    split
    · rename_i hl
      rw [hl] at this
      split <;> exact this
    · rename_i hl
      rw [hl] at this
      exact this
  | prove token =>
    simp only [handle, proveDevice]
    split
    · rename_i g _ _ _ _ _ _ _
      have := hload o.now w (guidText g) hw
      split <;> rename_i hl <;> rw [hl] at this <;> exact this
    · exact hw
  | ready => exact hw
  | deviceSi si => exact hw
  | done n =>
    simp only [handle]
    rcases doneTo2_cases (B := B) o n s w with hd | ⟨t, g, n7, _, _, _, _, _, hd, _⟩
    · rw [hd]; exact hw
    · rw [hd]; exact hto2 _ _ _ hw

theorem reportLoop_world (J : B.W → Prop) (hwait : ∀ now w g s, J w → J (B.setWait now w (guidText g) s).1)
    (rv : Outcome R) (l : List (Voucher R.E)) (w : B.W) (hw : J w) : J (reportLoop B rv w l) := by
  induction l generalizing w with
  | nil => exact hw
  | cons v r ih =>
    simp only [reportLoop]
    split
    · exact ih _ hw
    rename_i now wait _
    split
    · exact hw
    rename_i k' hk'
    obtain ⟨_, rfl⟩ := RvServer.guidKey_some hk'
    have := hwait now w v.header.guid wait hw
    split
    · rename_i w' hl
      rw [hl] at this
      exact ih _ this
    · rename_i w' x _ hl
      rw [hl] at this
      exact this

/-- What loading, storing, marking and maintenance keep holds in every later state. -/
theorem replay_world (J : B.W → Prop) (hload : ∀ now w k, J w → J (B.load now w k).1)
    (hto2 : ∀ now w g, J w → J (B.setTo2 now w (guidText g)).1)
    (hwait : ∀ now w g s, J w → J (B.setWait now w (guidText g) s).1)
    (hmaint : ∀ now ls w, J w → J (B.maintain now ls w)) (h : Histories)
    (hput : ∀ w v, .internal (.import v) ∈ h → v.header.guid.length = 16 → J w →
      J (B.put w (guidText v.header.guid) v).1)
    (σ : Http.St Srv) (hσ : J σ.world) : J (Http.replay (move B cfg) σ h).world := by
  induction h generalizing σ with
  | nil => exact hσ
  | cons e r ih =>
    refine ih (fun w v hv => hput w v (List.mem_cons_of_mem _ hv)) _ ?_
    cases e with
    | expire i => exact hσ
    | internal m =>
      cases m with
      | «import» v =>
        simp only [Http.after, move, importV]
        split
        · exact hσ
        rename_i k' hk'
        obtain ⟨hg, rfl⟩ := RvServer.guidKey_some hk'
        exact hput _ v (List.mem_cons_self ..) hg hσ
      | report now ls rv => exact reportLoop_world J hwait rv _ _ hσ
      | round now ls rv now' rv' =>
        exact reportLoop_world J hwait rv' _ _ (reportLoop_world J hwait rv _ _ (hmaint _ _ _ hσ))
    | request rq =>
      simp only [Http.after]
      cases ha : Http.accept σ rq with
      | none => simp only [Http.step, ha]; exact hσ
      | some a =>
        rw [Http.step_world ha, server_handle]
        exact handle_world J hload hto2 _ _ _ _ _ hσ

end

end Verif.OwnerServer

import Verif.Lemmas.Concurrent
import Verif.Props.OwnerServer
/-!
Property C88 for the owner onboarding server: service info and marks when requests are served at the same time.
-/
namespace Verif.OwnerServer
open Verif Verif.Voucher Verif.Store Verif.Types Verif.ServiceInfo

section
variable {R : OwnerEnv} {c : Bool} {B : VStore (Voucher R.E)} {cfg : Config R}
  {Id : Type} [DecidableEq Id] {idOf : List Char → Option Id} {aead : Http.Aead} {encode : Resp → Bytes}

local notation "Srv" => server R c B cfg Id idOf aead encode
local notation "Reached" => creached R c B cfg idOf aead encode
local notation "Histories" => CHist R c B cfg idOf aead encode
local notation "At" => fun h' => Http.creplay (Http.oneStep Srv) (cmove B) (Http.cstart B.empty) h'

theorem CHelloDone.mono {h : Histories} {i : Id} {g n : Bytes} {kx : KeyExchange R.K} {cs : CipherSuite}
    (hn : CHelloDone R c B cfg idOf aead encode h i g n kx cs) {h' : Histories} (hp : h <+: h') :
    CHelloDone R c B cfg idOf aead encode h' i g n kx cs := by
  obtain ⟨l, rfl⟩ := hp
  obtain ⟨h1, e, h2, rq, tok, b, m, key, random, rfl, p⟩ := hn
  exact ⟨h1, e, h2 ++ l, rq, tok, b, m, key, random, by simp, p⟩

theorem CProven.mono {h : Histories} {i : Id} {g n n7 : Bytes} {ks : Http.Keys}
    (hn : CProven R c B cfg idOf aead encode h i g n n7 ks) {h' : Histories} (hp : h <+: h') :
    CProven R c B cfg idOf aead encode h' i g n n7 ks := by
  obtain ⟨l, rfl⟩ := hp
  obtain ⟨h1, e, h2, rq, v, k, b, kx, cs, flag, now, rfl, p⟩ := hn
  exact ⟨h1, e, h2 ++ l, rq, v, k, b, kx, cs, flag, now, by simp, p⟩

theorem CDone.mono {h : Histories} {i : Id} {g n n7 : Bytes} {ks : Http.Keys}
    (hn : CDone R c B cfg idOf aead encode h i g n n7 ks) {h' : Histories} (hp : h <+: h') :
    CDone R c B cfg idOf aead encode h' i g n n7 ks := by
  obtain ⟨l, rfl⟩ := hp
  obtain ⟨h1, e, h2, rq, plain, rfl, p⟩ := hn
  exact ⟨h1, e, h2 ++ l, rq, plain, by simp, p⟩

theorem CMarked.mono {h : Histories} {rq : Http.Request Srv} {i : Id} {g n n7 : Bytes} {ks : Http.Keys}
    (hn : CMarked R c B cfg idOf aead encode h rq i g n n7 ks) {h' : Histories} (hp : h <+: h') :
    CMarked R c B cfg idOf aead encode h' rq i g n n7 ks := by
  obtain ⟨l, rfl⟩ := hp
  obtain ⟨h1, e, h2, plain, rfl, p⟩ := hn
  exact ⟨h1, e, h2 ++ l, plain, by simp, p⟩

/-- The history explains the data in session `i`. -/
structure CExplained (i : Id) (h : Histories) (s : Http.Sess Srv) : Prop where
  fresh : s.last = none → s = Http.Sess.new Srv
  hello : ∀ n, s.data.nonce6 = some n → ∃ g kx cs, CHelloDone R c B cfg idOf aead encode h i g n kx cs ∧
    g.length = 16 ∧ s.data.guid = some (guidText g) ∧ (∀ kx', s.data.kex = some kx' → kx' = kx) ∧
    (∀ cs', s.data.cipher = some cs' → cs' = cs)
  proven : s.data.proven = true → ∃ g n n7 ks, CProven R c B cfg idOf aead encode h i g n n7 ks ∧
    g.length = 16 ∧ s.data.guid = some (guidText g) ∧ s.data.nonce6 = some n ∧ s.keys = some ks ∧
    (∀ x, s.data.nonce7 = some x → x = n7)

theorem CExplained.mono {i : Id} {h : Histories} {s : Http.Sess Srv} (q : CExplained i h s) {h' : Histories}
    (hp : h <+: h') : CExplained i h' s where
  fresh := q.fresh
  hello n hn := by
    obtain ⟨g, kx, cs, p, rest⟩ := q.hello n hn
    exact ⟨g, kx, cs, p.mono hp, rest⟩
  proven hv := by
    obtain ⟨g, n, n7, ks, p, rest⟩ := q.proven hv
    exact ⟨g, n, n7, ks, p.mono hp, rest⟩

/-- What a service info message rests on. -/
def Informed (h : Histories) (rq : Http.Request Srv) (i : Id) (resp : Resp) (keys : Option Http.Keys) : Prop :=
  ∃ g n n7 ks msg, CProven R c B cfg idOf aead encode h i g n n7 ks ∧ keys = some ks ∧ resp = .ownerSi msg ∧
    (msg = ⟨false, true, []⟩ ∨
      ∃ plain si ms reply items, aead.decrypt ks.sevk rq.body = some plain ∧ R.decDeviceSi plain = some si ∧
        moduleList R.decVal si = some ms ∧ rq.oracle.api (apiQuery (guidText g) ms) = some reply ∧
        replyItems reply = some items ∧ msg = ⟨false, false, toSi R.encVal items⟩)

/-- What a confirmation of Done rests on. -/
def Confirmed (h : Histories) (rq : Http.Request Srv) (i : Id) (resp : Resp) (keys : Option Http.Keys) : Prop :=
  ∃ g n n7 ks, CMarked R c B cfg idOf aead encode h rq i g n n7 ks ∧ keys = some ks ∧ resp = .done2 n7

theorem cmove_marks {Marks : B.W → Name → Prop} (S : SoundMarks B Marks) (m : CMove R) (w : B.W) (k : Name)
    (hk : Store.Good k) (h : Marks (cmove B m w) k) : Marks w k := by
  cases m with
  | «import» v =>
    simp only [cmove, importV] at h
    split at h
    · exact h
    rename_i k' hk'
    obtain ⟨_, rfl⟩ := RvServer.guidKey_some hk'
    exact S.put w _ k v (guidText_good _) hk h
  | wait now g s => exact S.setWait now w _ s k (guidText_good _) hk h
  | maintain now ls => exact S.maintain _ _ _ _ h

/-- Everything in an owner server is explained by its history. -/
theorem cexplained {Marks : B.W → Name → Prop} (S : SoundMarks B Marks) (h : Histories) :
    (∀ g, g.length = 16 → Marks (Reached h).st.world (guidText g) →
      ∃ i n n7 ks, CDone R c B cfg idOf aead encode h i g n n7 ks) ∧
    ∀ n rq a resp data keys, (Reached h).flights n = some ⟨rq, a, .ret (some (resp, data, keys))⟩ →
      (a.om = .to2OwnerServiceInfo → Informed h rq a.id resp keys) ∧
      (a.om = .to2Done2 → Confirmed h rq a.id resp keys) := by
  have main := Http.concurrent_invariant (wk := Http.oneStep Srv) (move := cmove B) (Sv := Srv) B.empty
    (fun i h s => CExplained (R := R) (B := B) (cfg := cfg) i h s)
    (fun h w => ∀ g, g.length = 16 → Marks w (guidText g) →
      ∃ i n n7 ks, CDone R c B cfg idOf aead encode h i g n n7 ks)
    (fun h rq a r => (a.om = .to2OwnerServiceInfo → Informed h rq a.id r.1 r.2.2) ∧
      (a.om = .to2Done2 → Confirmed h rq a.id r.1 r.2.2)) ?_ ?_ ?_ ?_ ?_ ?_ h
  · refine ⟨main.2.1, fun n rq a resp data keys hf => ?_⟩
    exact (main.2.2 n _ hf h n (List.prefix_refl h) hf).1
  · exact fun i h => ⟨fun _ => rfl, fun n hn => (nomatch hn), fun hp => (nomatch hp)⟩
  · exact fun i h e s q => q.mono (Http.prefix_snoc h e)
  · exact fun g _ hh => absurd hh (S.empty _)
  · intro h e w ih g hg hw
    obtain ⟨i, n, n7, ks, ht⟩ := ih g hg hw
    exact ⟨i, n, n7, ks, ht.mono (Http.prefix_snoc h e)⟩
  · exact fun h m w ih g hg hw => ih g hg (cmove_marks S m w _ (guidText_good g) hw)
  · intro h rq a ha q
    refine Http.Good.once fun h' n hp' hfl hj => ?_
    have pre : h <+: h' := (Http.prefix_snoc h (.arrive rq)).trans hp'
    -- marks which were there before
    have old : (∀ g, g.length = 16 →
        Marks (handle R c B cfg rq.oracle a.req a.sess.data a.sess.keys ((At) h').st.world).1 (guidText g) →
        Marks ((At) h').st.world (guidText g)) →
        ∀ g, g.length = 16 →
        Marks (handle R c B cfg rq.oracle a.req a.sess.data a.sess.keys ((At) h').st.world).1 (guidText g) →
        ∃ i m n7 ks, CDone R c B cfg idOf aead encode (h' ++ [.work n]) i g m n7 ks := by
      intro hold g hg hw
      obtain ⟨i, m, n7, ks, ht⟩ := hj g hg (hold g hg hw)
      exact ⟨i, m, n7, ks, ht.mono (Http.prefix_snoc _ _)⟩
    have later : ∀ (h'' : Histories) m, h' ++ [.work n] <+: h'' → CExplained a.id (h'' ++ [.finish m]) a.sess :=
      fun h'' m hp'' => q.mono (pre.trans (Http.prefix_snoc _ _) |>.trans hp'' |>.trans (Http.prefix_snoc h'' (.finish m)))
    show (∀ g, g.length = 16 →
        Marks (handle R c B cfg rq.oracle a.req a.sess.data a.sess.keys ((At) h').st.world).1 (guidText g) →
        ∃ i m n7 ks, CDone R c B cfg idOf aead encode (h' ++ [.work n]) i g m n7 ks) ∧
      ∀ resp data keys, (handle R c B cfg rq.oracle a.req a.sess.data a.sess.keys ((At) h').st.world).2 =
          some (resp, data, keys) → _
    rcases accepted_cases ha with ⟨ht, hom, hlast, hkeys, m, hr, hm⟩ | ⟨ht, hom, hkeys, k, hr, hn⟩ |
      ⟨ht, hom, hkeys, hr⟩ | ⟨ht, hom, hr⟩ | ⟨ht, hom, k, plain, si, hk, hp, hsi, hr⟩ |
      ⟨ht, hom, k, plain, n6, hk, hp, hn, hr⟩
    · rw [hr] at old ⊢
      refine ⟨old fun g hg hw => ?_, ?_⟩
      · simp only [handle, helloDevice] at hw
        split at hw
        · exact hw
        rename_i k hk
        refine S.load rq.oracle.now _ k _ ?_
        split at hw <;> rename_i hl <;> rw [hl] <;> exact hw
      · intro resp data keys hans h'' m' hp'' hf
        simp only [handle] at hans
        obtain ⟨hx, rfl⟩ := keep_some hans
        obtain ⟨hg, n', key, random, token, v, hn, hkx, _, _, _, htk, hresp, hs⟩ := helloDevice_some
          (w' := (helloDevice R B cfg rq.oracle m rq.body a.sess.data _).1) (Prod.ext rfl hx)
        have hnew := q.fresh hlast
        rw [hkeys] at hf ⊢
        refine ⟨⟨fun ho => ?_, fun ho => ?_⟩, fun hso => ⟨fun hl => (nomatch hl), fun n2 hn2 => ?_, fun hpv => ?_⟩⟩
        · rw [hom] at ho; cases ho
        · rw [hom] at ho; cases ho
        · rw [hs] at hn2
          cases hn2
          have hrep := Http.replies_clear (M := CMove R) hf hso (by rw [hom]; decide)
          rw [hom] at hrep
          refine ⟨m.guid, newKex m.kex key random, m.cipher,
            ⟨h'', .finish m', [], rq, a.cookie, _, m, key, random, rfl, ht, hrep, hm, rfl, rfl, hg, hn, hkx, rfl⟩,
            hg, by rw [hs], fun kx' hk' => ?_, fun cs' hc' => ?_⟩
          · rw [hs] at hk'
            exact (Option.some.inj hk').symm
          · rw [hs] at hc'
            exact (Option.some.inj hc').symm
        · rw [hs, hnew] at hpv
          cases hpv
    · rw [hr] at old ⊢
      refine ⟨old fun g hg hw => ?_, ?_⟩
      · simp only [handle, getEntry] at hw
        split at hw
        · exact hw
        rename_i g' hg'
        refine S.load rq.oracle.now _ (guidText g') _ ?_
        split at hw
        · rename_i w' v hl
          rw [hl]
          split at hw <;> exact hw
        · rename_i hl
          rw [hl]; exact hw
      · intro resp data keys hans h'' m' hp'' hf
        simp only [handle] at hans
        obtain ⟨hx, rfl⟩ := keep_some hans
        obtain ⟨rfl, _⟩ := getEntry_some
          (w' := (getEntry R c B rq.oracle k a.sess.data _).1) (Prod.ext rfl hx)
        have q' := later h'' m' hp''
        refine ⟨⟨fun ho => ?_, fun ho => ?_⟩, fun hso => ⟨fun hl => (nomatch hl), q'.hello, q'.proven⟩⟩
        · rw [hom] at ho; cases ho
        · rw [hom] at ho; cases ho
    · rw [hr] at old ⊢
      refine ⟨old fun g hg hw => ?_, ?_⟩
      · simp only [handle, proveDevice] at hw
        split at hw
        · rename_i g' _ _ _ hg' _ _ _
          refine S.load rq.oracle.now _ (guidText g') _ ?_
          split at hw <;> rename_i hl <;> rw [hl] <;> exact hw
        · exact hw
      · intro resp data keys hans h'' m' hp'' hf
        simp only [handle] at hans
        obtain ⟨t, g, n6, kx, cs, v, k, n7, b, key, g2, tk, htx, hg, hn, hkx, hcs, hl, hvk, hct, hkey, hg2, htk, hresp,
          hks, hs⟩ := proveDevice_some
            (w' := (proveDevice R c B cfg rq.oracle rq.body a.sess.data _).1) (Prod.ext rfl hans)
        obtain ⟨g', kx', cs', p, hl', hgt, hkx', hcs'⟩ := q.hello n6 hn
        obtain rfl := hkx' kx hkx
        obtain rfl := hcs' cs hcs
        have hgg : g = g' := by
          have : t = guidText g' := by rw [hgt] at htx; exact (Option.some.inj htx).symm
          rw [this] at hg
          exact RvServer.parseGuid_text hl' hg
        subst hgg
        obtain ⟨hsp, hat⟩ := checkToken_some hct
        have q' := later h'' m' hp''
        refine ⟨⟨fun ho => ?_, fun ho => ?_⟩, fun hso => ⟨fun hl => (nomatch hl), fun n2 hn2 => ?_, fun hpv => ?_⟩⟩
        · rw [hom] at ho; cases ho
        · rw [hom] at ho; cases ho
        · rw [hs] at hn2
          obtain ⟨g', kx', cs', p', hl1, hgt', _, _⟩ := q'.hello n2 hn2
          refine ⟨g', kx', cs', p', hl1, by rw [hs]; exact hgt', fun kx hk => ?_, fun cs hc => ?_⟩
          · rw [hs] at hk; cases hk
          · rw [hs] at hc; cases hc
        · have hpr : CProven R c B cfg idOf aead encode (h' ++ [.work n]) a.id g n6 n7 ⟨cs, key⟩ :=
            ⟨h', .work n, [], rq, v, k, b, kx, cs, rq.oracle.nonInterop, rq.oracle.now, rfl, ht, ⟨n, rfl, hfl⟩,
              p.mono pre, hl, voucherKey_some hvk, hsp, hat, rfl, hkey⟩
          refine ⟨g, n6, n7, ⟨cs, key⟩, hpr.mono (hp''.trans (Http.prefix_snoc _ _)), hl', by rw [hs]; exact hgt,
            by rw [hs]; exact hn, hks, fun x hx => ?_⟩
          rw [hs] at hx
          exact (Option.some.inj hx).symm
    · rw [hr] at old ⊢
      refine ⟨old fun g hg hw => hw, ?_⟩
      intro resp data keys hans h'' m' hp'' hf
      simp only [handle] at hans
      have q' := later h'' m' hp''
      split at hans
      · simp only [Option.some.injEq, Prod.mk.injEq] at hans
        obtain ⟨_, rfl, rfl⟩ := hans
        refine ⟨⟨fun ho => ?_, fun ho => ?_⟩, fun hso => ⟨fun hl => (nomatch hl), q'.hello, q'.proven⟩⟩
        · rw [hom] at ho; cases ho
        · rw [hom] at ho; cases ho
      · cases hans
    · rw [hr] at old ⊢
      refine ⟨old fun g hg hw => hw, ?_⟩
      intro resp data keys hans h'' m' hp'' hf
      simp only [handle] at hans
      obtain ⟨hx, hkk⟩ := keep_some hans
      obtain ⟨hpv, hlp, t, g, msg, htx, hg, hpf, rfl, rfl⟩ := deviceSi_some hx
      have q' := later h'' m' hp''
      refine ⟨⟨fun _ => ?_, fun ho => ?_⟩, fun hso => ⟨fun hl => (nomatch hl), q'.hello, ?_⟩⟩
      · obtain ⟨g', n', n7, ks, p, hgl, hgt, hn6, hks, _⟩ := q.proven hpv
        have hgg : g = g' := by
          have : t = guidText g' := by rw [hgt] at htx; exact (Option.some.inj htx).symm
          rw [this] at hg
          exact RvServer.parseGuid_text hgl hg
        subst hgg
        refine ⟨g, n', n7, ks, msg, p.mono (pre.trans (Http.prefix_snoc _ _) |>.trans hp''), ?_, rfl, ?_⟩
        · show keys = some ks
          rw [hkk, hks]
        unfold perform at hpf
        split at hpf
        · cases hpf; exact .inl rfl
        split at hpf
        · cases hpf
        rename_i ms hms
        split at hpf
        · cases hpf
        rename_i reply hapi
        rw [Option.map_eq_some_iff] at hpf
        obtain ⟨items, hit, rfl⟩ := hpf
        rw [hks] at hk
        cases hk
        exact .inr ⟨plain, si, ms, reply, items, hp, hsi, hms, hapi, hit, rfl⟩
      · rw [hom] at ho; cases ho
      · rw [hkk]; exact q'.proven
    · rw [hr] at old ⊢
      rcases doneTo2_cases (B := B) rq.oracle n6 a.sess.data ((At) h').st.world with
        hd | ⟨t, g', n7, hpv, hn6, htx, hg', hn7, hd, hres⟩
      · refine ⟨old fun g hg hw => ?_, ?_⟩
        · simp only [handle] at hw
          rw [show doneTo2 R B rq.oracle n6 a.sess.data _ = _ from hd] at hw
          exact hw
        · intro resp data keys hans
          simp only [handle] at hans
          rw [show doneTo2 R B rq.oracle n6 a.sess.data _ = _ from hd] at hans
          cases hans
      · obtain ⟨g2, n', n7', ks, p, hgl, hgt, hn6', hks, h7⟩ := q.proven hpv
        have hgg : g' = g2 := by
          have : t = guidText g2 := by rw [hgt] at htx; exact (Option.some.inj htx).symm
          rw [this] at hg'
          exact RvServer.parseGuid_text hgl hg'
        subst hgg
        rw [hn6] at hn6'
        cases hn6'
        obtain rfl := h7 n7 hn7
        have hkk : ks = k := by rw [hks] at hk; exact Option.some.inj hk
        subst hkk
        refine ⟨fun g hg hw => ?_, ?_⟩
        · simp only [handle] at hw
          rw [show (doneTo2 R B rq.oracle n6 a.sess.data _).1 = _ from hd] at hw
          rcases S.setTo2 _ _ _ _ (guidText_good _) (guidText_good _) hw with hw | hw
          · obtain ⟨i, m, n7, ks, ht⟩ := hj g hg hw
            exact ⟨i, m, n7, ks, ht.mono (Http.prefix_snoc _ _)⟩
          · have := guidText_injective g g' hg hgl hw
            subst this
            exact ⟨a.id, n6, n7, ks, h', .work n, [], rq, plain, rfl, ht, ⟨n, rfl, hfl⟩, hp, hn, p.mono pre⟩
        · intro resp data keys hans h'' m' hp'' hf
          simp only [handle] at hans
          obtain ⟨hx, hkeys⟩ := keep_some hans
          have q' := later h'' m' hp''
          rcases hres with ⟨hset, hres⟩ | ⟨_, hres⟩
          · rw [show (doneTo2 R B rq.oracle n6 a.sess.data _).2 = _ from hres] at hx
            simp only [Option.some.injEq, Prod.mk.injEq] at hx
            obtain ⟨rfl, rfl⟩ := hx
            refine ⟨⟨fun ho => ?_, fun _ => ?_⟩, fun hso => ⟨fun hl => (nomatch hl), q'.hello, fun hp2 => ?_⟩⟩
            · rw [hom] at ho; cases ho
            · refine ⟨g', n6, n7, ks, CMarked.mono (h := h' ++ [.work n]) ⟨h', .work n, [], plain, rfl, ht, ⟨n, rfl, hfl⟩,
                hp, hn, p.mono pre, hset⟩ hp'', ?_, rfl⟩
              show keys = some ks
              rw [hkeys, hks]
            · obtain ⟨g, n, n7, ks, p, p1, p2, p3, p4, p5⟩ := q'.proven hp2
              refine ⟨g, n, n7, ks, p, p1, p2, p3, ?_, fun x hx => nomatch hx⟩
              rw [hkeys]; exact p4
          · rw [show (doneTo2 R B rq.oracle n6 a.sess.data _).2 = _ from hres] at hx
            cases hx

/-- **C88** (service info): whenever the server sends service info, the device of the voucher held for `g` when it
sent its proof has proven itself in that session, over a nonce of that session. The message is encrypted under the
keys of that proof, and either says that the exchange is finished or consists of the instructions the service info
API gives for `g` and the modules announced by the device. -/
theorem C88_service_info {Marks : B.W → Name → Prop} (S : SoundMarks B Marks) (h : Histories)
    (e : Http.CEvent Srv (CMove R)) (rq : Http.Request Srv) (i : Id) (b : Bytes) (tok : Option (List Char))
    (hr : Http.Replies (Reached h) e rq i (.ok .to2OwnerServiceInfo b tok)) :
    ∃ g n n7 ks msg, CProven R c B cfg idOf aead encode h i g n n7 ks ∧
      aead.encrypt ks.sevk rq.iv (encode (.ownerSi msg)) = some b ∧
      (msg = ⟨false, true, []⟩ ∨
        ∃ plain si ms reply items, aead.decrypt ks.sevk rq.body = some plain ∧ R.decDeviceSi plain = some si ∧
          moduleList R.decVal si = some ms ∧ rq.oracle.api (apiQuery (guidText g) ms) = some reply ∧
          replyItems reply = some items ∧ msg = ⟨false, false, toSi R.encVal items⟩) := by
  obtain ⟨n, a, resp, data, keys, rfl, hf, rfl, hso, hom, _, henc, _⟩ := Http.replies_ok hr
  obtain ⟨g, n', n7, ks, msg, hp, rfl, rfl, hm⟩ := ((cexplained S h).2 n rq a resp data keys hf).1 hom.symm
  exact ⟨g, n', n7, ks, msg, hp, henc, hm⟩

/-- **C88** (marks): a mark on the voucher for `g` comes from a Done request, in a session in which the device of the
voucher held for `g` had proven itself, with the nonce of that proof. -/
theorem C88_marks {Marks : B.W → Name → Prop} (S : SoundMarks B Marks) (h : Histories) (g : Bytes)
    (hg : g.length = 16) (hm : Marks (Reached h).st.world (guidText g)) :
    ∃ i n n7 ks, CDone R c B cfg idOf aead encode h i g n n7 ks :=
  (cexplained S h).1 g hg hm

/-- **C88** (confirmations): when the server confirms Done, the mark was set while the server worked on the request,
which carried the nonce of a proof of the device in that session; the reply (encrypted under the keys of that
proof) is the nonce which came with it. -/
theorem C88_confirmations {Marks : B.W → Name → Prop} (S : SoundMarks B Marks) (h : Histories)
    (e : Http.CEvent Srv (CMove R)) (rq : Http.Request Srv) (i : Id) (b : Bytes) (tok : Option (List Char))
    (hr : Http.Replies (Reached h) e rq i (.ok .to2Done2 b tok)) :
    ∃ g n n7 ks, CMarked R c B cfg idOf aead encode h rq i g n n7 ks ∧
      aead.encrypt ks.sevk rq.iv (encode (.done2 n7)) = some b := by
  obtain ⟨n, a, resp, data, keys, rfl, hf, rfl, hso, hom, _, henc, _⟩ := Http.replies_ok hr
  obtain ⟨g, n', n7, ks, hp, rfl, rfl⟩ := ((cexplained S h).2 n rq a resp data keys hf).2 hom.symm
  exact ⟨g, n', n7, ks, hp, henc⟩

end
end Verif.OwnerServer

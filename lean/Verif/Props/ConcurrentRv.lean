import Verif.Props.Concurrent
import Verif.Props.RvServer
/-!
Property C88 for the rendezvous server: registrations and redirects when requests are served at the same time.
-/
namespace Verif.RvServer
open Verif Verif.Voucher Verif.Store

section
variable {R : RvEnv} {c : Bool} {B : Backend (Item R)} {cfg : Config R}
  {Id : Type} [DecidableEq Id] {idOf : List Char → Option Id} {aead : Http.Aead} {encode : Resp → Bytes}

local notation "Srv" => server R c B cfg Id idOf aead encode
local notation "Wk" => workOf R c B cfg Id idOf aead encode
local notation "Reached" => creached R c B cfg idOf aead encode
local notation "Histories" => CHist R c B cfg idOf aead encode

/-- Without interruption, the handlers do what they do in `Model/RvServer`. -/
theorem workOf_run (o : Oracle) (t : MsgType) (r : Req) (s : Data) (k : Option Http.Keys) (w : B.W) :
    (Wk o t r s k).run w = (Srv).handle o t r s k w := by
  cases r with
  | ownerSign to0d to1d =>
    show (match s.nonce3.bind parseNonce with
      | none => Http.Task.ret none
      | some n =>
        match checkOwnerSign R c cfg n to0d to1d with
        | .ok r => registerTask R B o r fun wait => some (Resp.acceptOwner wait, s, k)
        | _ => .ret none).run w = (match ownersign R c B cfg o to0d to1d s w with
          | (w, none) => (w, none)
          | (w, some (resp, s)) => (w, some (resp, s, k)))
    unfold ownersign
    cases s.nonce3.bind parseNonce with
    | none => rfl
    | some n =>
      simp only
      cases checkOwnerSign R c cfg n to0d to1d with
      | err e => rfl
      | panic => rfl
      | ok r =>
        simp only [registerTask, register]
        cases guidKey r.guid with
        | none => rfl
        | some key =>
          simp only [Http.Task.run]
          cases hp : B.put w key r.item with
          | mk w1 x1 =>
            cases x1 with
            | err e => rfl
            | panic => rfl
            | ok u =>
              simp only
              cases o.stopped with
              | true => rfl
              | false =>
                simp only [Bool.false_eq_true, if_false, Http.Task.run]
                cases hq : B.setTtl o.now w1 key ((r.wait : Int) * (second : Int)) with
                | mk w2 x2 => cases x2 <;> rfl
  | hello => rfl
  | helloRv g a b => rfl
  | prove token => rfl

theorem server_answer {o : Oracle} {t : MsgType} {r : Req} {s : Data} {k : Option Http.Keys} {w : B.W}
    {resp : Resp} {data : Data} {keys : Option Http.Keys}
    (h : ((Srv).handle o t r s k w).2 = some (resp, data, keys)) :
    ∃ w', handle R c B cfg o r s w = (w', some (resp, data)) ∧ keys = k := by
  obtain ⟨h1, h2⟩ := server_handle (w' := ((Srv).handle o t r s k w).1) (Prod.ext rfl h)
  exact ⟨_, h1, h2⟩

theorem CNonce3.mono {h : Histories} {i : Id} {n : Bytes} (hn : CNonce3 R c B cfg idOf aead encode h i n)
    {h' : Histories} (hp : h <+: h') : CNonce3 R c B cfg idOf aead encode h' i n := by
  obtain ⟨l, rfl⟩ := hp
  obtain ⟨h1, e, h2, rq, tok, rfl, p⟩ := hn
  exact ⟨h1, e, h2 ++ l, rq, tok, by simp, p⟩

theorem CNonce4.mono {h : Histories} {i : Id} {g n : Bytes} (hn : CNonce4 R c B cfg idOf aead encode h i g n)
    {h' : Histories} (hp : h <+: h') : CNonce4 R c B cfg idOf aead encode h' i g n := by
  obtain ⟨l, rfl⟩ := hp
  obtain ⟨h1, e, h2, rq, tok, rfl, p⟩ := hn
  exact ⟨h1, e, h2 ++ l, rq, tok, by simp, p⟩

theorem CRegistered.mono {h : Histories} {g : Bytes} {t : To0d R} {item : Item R}
    (hn : CRegistered R c B cfg idOf aead encode h g t item)
    {h' : Histories} (hp : h <+: h') : CRegistered R c B cfg idOf aead encode h' g t item := by
  obtain ⟨l, rfl⟩ := hp
  obtain ⟨h1, e, h2, rq, i, n, a, b, rfl, p⟩ := hn
  exact ⟨h1, e, h2 ++ l, rq, i, n, a, b, by simp, p⟩

/-- The history explains the nonces and the GUID in session `i`. -/
def CExplained (i : Id) (h : Histories) (s : Http.Sess Srv) : Prop :=
  (∀ t, s.data.nonce3 = some t → ∃ n, t = Types.hexEncode n ∧ CNonce3 R c B cfg idOf aead encode h i n) ∧
  (∀ t, s.data.nonce4 = some t → ∃ n g, t = Types.hexEncode n ∧ g.length = 16 ∧
    s.data.guid = some (guidText g) ∧ CNonce4 R c B cfg idOf aead encode h i g n)

theorem CExplained.mono {i : Id} {h : Histories} {s : Http.Sess Srv} (q : CExplained i h s) {h' : Histories}
    (hp : h <+: h') : CExplained i h' s := by
  refine ⟨fun t ht => ?_, fun t ht => ?_⟩
  · obtain ⟨n, hn, hh⟩ := q.1 t ht
    exact ⟨n, hn, hh.mono hp⟩
  · obtain ⟨n, g, hn, hg, hd, hh⟩ := q.2 t ht
    exact ⟨n, g, hn, hg, hd, hh.mono hp⟩

/-- What a redirect rests on. -/
def Redirected (h : Histories) (rq : Http.Request Srv) (i : Id) (resp : Resp) : Prop :=
  rq.type = .to1ProveToRV ∧ ∃ h1 e h2 g n item, h = h1 ++ e :: h2 ∧ Http.Works (Reached h1) e rq i ∧ g.length = 16 ∧
    CNonce4 R c B cfg idOf aead encode h1 i g n ∧
    (B.load rq.oracle.now (Reached h1).st.world (guidText g)).2 = .ok (some item) ∧
    SignedToken R c rq.body item.key n ∧ resp = .redirect item.to1d

theorem Redirected.mono {h : Histories} {rq : Http.Request Srv} {i : Id} {resp : Resp}
    (hr : Redirected h rq i resp) {h' : Histories} (hp : h <+: h') : Redirected h' rq i resp := by
  obtain ⟨l, rfl⟩ := hp
  obtain ⟨ht, h1, e, h2, g, n, item, rfl, p⟩ := hr
  exact ⟨ht, h1, e, h2 ++ l, g, n, item, by simp, p⟩

/-- Everything in a rendezvous server is explained by its history. -/
theorem cexplained {Holds : B.W → Name → Item R → Prop} (S : Sound B Holds) (h : Histories) :
    (∀ g item, g.length = 16 → Holds (Reached h).st.world (guidText g) item →
      ∃ t, CRegistered R c B cfg idOf aead encode h g t item) ∧
    ∀ n rq a resp data keys, (Reached h).flights n = some ⟨rq, a, .ret (some (resp, data, keys))⟩ →
      keys = none ∧ (a.om = .to1RVRedirect → Redirected h rq a.id resp) := by
  have main := Http.concurrent_invariant (wk := Wk) (move := move R B) (Sv := Srv) B.empty
    (fun i h s => CExplained (R := R) (B := B) (cfg := cfg) i h s)
    (fun h w => ∀ g item, g.length = 16 → Holds w (guidText g) item → ∃ t, CRegistered R c B cfg idOf aead encode h g t item)
    (fun h rq a r => r.2.2 = none ∧ (a.om = .to1RVRedirect → Redirected h rq a.id r.1)) ?_ ?_ ?_ ?_ ?_ ?_ h
  · refine ⟨main.2.1, fun n rq a resp data keys hf => ?_⟩
    exact (main.2.2 n _ hf h n (List.prefix_refl h) hf).1
  · exact fun i h => ⟨fun t ht => (nomatch ht), fun t ht => (nomatch ht)⟩
  · exact fun i h e s q => q.mono (Http.prefix_snoc h e)
  · exact fun g item _ hh => absurd hh (S.empty _ _)
  · intro h e w ih g item hg hw
    obtain ⟨t, ht⟩ := ih g item hg hw
    exact ⟨t, ht.mono (Http.prefix_snoc h e)⟩
  · exact fun h m w ih g item hg hw => ih g item hg (S.maintain _ _ _ _ _ hw)
  · intro h rq a ha q
    obtain ⟨⟨hc1, hc2⟩, hcases⟩ := accepted_cases ha
    have hkeys := ((Http.C23_requests _ rq a ha).2.1 hc1).1
    rcases hcases with ⟨ht, hom, hr⟩ | ⟨ht, hom, to0d, to1d, hr, hp⟩ | ⟨ht, hom, g, sg, inf, hr, hp⟩ | ⟨ht, hom, hr⟩
    · rw [hr]
      refine Http.Good.once fun h' n hp hfl hj => ⟨?_, ?_⟩
      · intro g item hg hw
        rw [server_world] at hw
        obtain ⟨t, ht⟩ := hj g item hg hw
        exact ⟨t, ht.mono (Http.prefix_snoc _ _)⟩
      · intro resp data keys hans h'' m hp' hf
        obtain ⟨w', hh, hk⟩ := server_answer hans
        simp only [handle, hello, Prod.mk.injEq] at hh
        obtain ⟨_, hh⟩ := hh
        split at hh
        · cases hh
        rename_i n' hn
        simp only [Option.some.injEq, Prod.mk.injEq] at hh
        obtain ⟨rfl, rfl⟩ := hh
        rw [hkeys] at hk
        subst hk
        refine ⟨⟨rfl, fun ho => ?_⟩, fun hso => ⟨fun t ht' => ?_, ?_⟩⟩
        · rw [hom] at ho; cases ho
        · cases ht'
          have := Http.replies_clear (M := Nat × List Name) hf hso hc2
          rw [hom] at this
          exact ⟨n', rfl, h'', .finish m, [], rq, a.cookie, rfl, ht, this⟩
        · have q' := q.mono (Http.prefix_snoc h (.arrive rq) |>.trans hp |>.trans (Http.prefix_snoc _ _)
            |>.trans hp' |>.trans (Http.prefix_snoc h'' (.finish m)))
          exact q'.2
    · rw [hr]
      show Http.Good _ _ _ _ _ _ rq a _ (match a.sess.data.nonce3.bind parseNonce with
        | none => Http.Task.ret none
        | some n =>
          match checkOwnerSign R c cfg n to0d to1d with
          | .ok r => registerTask R B rq.oracle r fun wait => some (Resp.acceptOwner wait, a.sess.data, a.sess.keys)
          | _ => .ret none)
      cases hn : a.sess.data.nonce3.bind parseNonce with
      | none => trivial
      | some n =>
        simp only
        cases hck : checkOwnerSign R c cfg n to0d to1d with
        | err e => trivial
        | panic => trivial
        | ok r =>
          simp only [registerTask]
          cases hgk : guidKey r.guid with
          | none => trivial
          | some key =>
            simp only
            obtain ⟨hl, rfl⟩ := guidKey_some hgk
            intro h' m hp' hf hj
            refine ⟨?_, ?_⟩
            · intro g item hg hw
              rcases S.put _ _ _ _ _ (guidText_good _) (guidText_good _) hw with hw | ⟨h1, h2⟩
              · obtain ⟨t, ht⟩ := hj g item hg hw
                exact ⟨t, ht.mono (Http.prefix_snoc _ _)⟩
              · have hgg := guidText_injective g r.guid hg hl h1
                subst hgg
                subst h2
                rw [Option.bind_eq_some_iff] at hn
                obtain ⟨t3, h3, hn⟩ := hn
                obtain ⟨n', rfl, hn3⟩ := q.1 t3 h3
                obtain rfl := parseNonce_hex hn
                obtain ⟨t, hauth, _⟩ := checkOwnerSign_ok hck
                exact ⟨t, h', .work m, [], rq, a.id, n, to0d, to1d, rfl, ht, ⟨m, rfl, a, _, hf, rfl⟩,
                  hn3.mono ((Http.prefix_snoc h (.arrive rq)).trans hp'), hp, hauth⟩
            · beta_reduce
              generalize B.put _ _ _ = x
              obtain ⟨w1, x⟩ := x
              cases x with
              | err e => trivial
              | panic => trivial
              | ok u =>
                simp only
                cases rq.oracle.stopped with
                | true => trivial
                | false =>
                  simp only [Bool.false_eq_true, if_false]
                  intro h'' m' hp'' hf' hj'
                  refine ⟨?_, ?_⟩
                  · intro g item hg hw
                    obtain ⟨t, ht⟩ := hj' g item hg (S.setTtl _ _ _ _ _ _ (guidText_good _) (guidText_good _) hw)
                    exact ⟨t, ht.mono (Http.prefix_snoc _ _)⟩
                  · beta_reduce
                    generalize B.setTtl _ _ _ _ = y
                    obtain ⟨w2, y⟩ := y
                    cases y with
                    | err e => trivial
                    | panic => trivial
                    | ok u =>
                      simp only
                      intro h3 m3 hp3 hf3
                      refine ⟨⟨hkeys, fun ho => ?_⟩, fun _ => ?_⟩
                      · rw [hom] at ho; cases ho
                      · exact q.mono (Http.prefix_snoc h (.arrive rq) |>.trans hp' |>.trans (Http.prefix_snoc _ _)
                          |>.trans hp'' |>.trans (Http.prefix_snoc _ _) |>.trans hp3 |>.trans
                          (Http.prefix_snoc h3 (.finish m3)))
    · rw [hr]
      refine Http.Good.once fun h' n hp' hfl hj => ⟨?_, ?_⟩
      · intro g item hg hw
        rw [server_world] at hw
        have old : Holds (Http.creplay Wk (move R B) (Http.cstart B.empty) h').st.world (guidText g) item := by
          simp only [handle, helloRv] at hw
          split at hw
          · exact hw
          split at hw
          · exact hw
          rename_i k hk
          split at hw
          · rename_i w' _ hl
            refine S.load rq.oracle.now _ k _ _ ?_
            rw [show B.load rq.oracle.now _ k = _ from hl]
            split at hw <;> exact hw
          · rename_i w' x _ hl
            refine S.load rq.oracle.now _ k _ _ ?_
            rw [show B.load rq.oracle.now _ k = _ from hl]
            exact hw
        obtain ⟨t, ht⟩ := hj g item hg old
        exact ⟨t, ht.mono (Http.prefix_snoc _ _)⟩
      · intro resp data keys hans h'' m hp'' hf
        obtain ⟨w', hh, hk⟩ := server_answer hans
        rw [hkeys] at hk
        subst hk
        have q' := q.mono (Http.prefix_snoc h (.arrive rq) |>.trans hp' |>.trans (Http.prefix_snoc _ _)
            |>.trans hp'' |>.trans (Http.prefix_snoc h'' (.finish m)))
        simp only [handle, helloRv] at hh
        split at hh
        · cases hh
        rename_i hsig
        split at hh
        · cases hh
        rename_i k hk
        obtain ⟨hg, rfl⟩ := guidKey_some hk
        split at hh
        · split at hh
          · cases hh
          rename_i n' hn
          simp only [Prod.mk.injEq, Option.some.injEq] at hh
          obtain ⟨_, rfl, rfl⟩ := hh
          refine ⟨⟨rfl, fun ho => ?_⟩, fun hso => ⟨q'.1, fun t ht' => ?_⟩⟩
          · rw [hom] at ho; cases ho
          · cases ht'
            have := Http.replies_clear (M := Nat × List Name) hf hso hc2
            rw [hom] at this
            refine ⟨n', g, rfl, hg, rfl, h'', .finish m, [], rq, a.cookie, rfl, ht, ?_, this⟩
            simp only [Bool.or_eq_true, Bool.not_eq_true', not_or, Bool.not_eq_false] at hsig
            rw [hp, hsig.1]
            have : inf = [] := by simpa using hsig.2
            rw [this]
        · cases hh
    · rw [hr]
      refine Http.Good.once fun h' n hp' hfl hj => ⟨?_, ?_⟩
      · intro g item hg hw
        rw [server_world] at hw
        have old : Holds (Http.creplay Wk (move R B) (Http.cstart B.empty) h').st.world (guidText g) item := by
          simp only [handle, proveToRv] at hw
          split at hw
          · exact hw
          split at hw
          · exact hw
          rename_i g' hg'
          split at hw
          · rename_i w' _ hl
            refine S.load rq.oracle.now _ (guidText g') _ _ ?_
            rw [show B.load rq.oracle.now _ (guidText g') = _ from hl]
            split at hw
            · split at hw <;> exact hw
            · exact hw
          · rename_i w' x _ hl
            refine S.load rq.oracle.now _ (guidText g') _ _ ?_
            rw [show B.load rq.oracle.now _ (guidText g') = _ from hl]
            exact hw
        obtain ⟨t, ht⟩ := hj g item hg old
        exact ⟨t, ht.mono (Http.prefix_snoc _ _)⟩
      · intro resp data keys hans h'' m hp'' hf
        obtain ⟨w', hh, hk⟩ := server_answer hans
        rw [hkeys] at hk
        subst hk
        have pre : h <+: h' := (Http.prefix_snoc h (.arrive rq)).trans hp'
        have q' := q.mono (pre.trans (Http.prefix_snoc _ _)
            |>.trans hp'' |>.trans (Http.prefix_snoc h'' (.finish m)))
        simp only [handle, proveToRv] at hh
        split at hh
        · cases hh
        rename_i n' hn
        split at hh
        · cases hh
        rename_i g hg
        split at hh
        · rename_i w' item hl
          split at hh
          · rename_i eat he
            split at hh
            · cases hh
            rename_i hne
            simp only [Prod.mk.injEq, Option.some.injEq] at hh
            obtain ⟨_, rfl, rfl⟩ := hh
            refine ⟨⟨rfl, fun _ => ?_⟩, fun hso => q'⟩
            rw [Option.bind_eq_some_iff] at hn hg
            obtain ⟨t4, ht4, hn⟩ := hn
            obtain ⟨tg, htg, hg⟩ := hg
            obtain ⟨n2, g2, rfl, hg16, hgd, hN⟩ := q.2 t4 ht4
            obtain rfl := parseNonce_hex hn
            rw [htg] at hgd
            cases hgd
            obtain rfl := parseGuid_text hg16 hg
            refine Redirected.mono ⟨ht, h', .work n, [], g, n', item, rfl, ⟨n, rfl, hfl⟩, hg16, hN.mono pre, ?_, ?_, rfl⟩ hp''
            · exact congrArg Prod.snd hl
            · rw [Classical.not_not.1 hne]
              exact getEat_ok he
          · cases hh
        · cases hh

/-- **C88** (one at a time), for the rendezvous server: after any history, a request that is served without interruption
has the effect and the reply it has in `Model/RvServer`. -/
theorem C88_rendezvous_alone (h : Histories) (rq : Http.Request Srv) (hacc : Http.accept (Reached h).st rq ≠ none) :
    ∃ k, creached R c B cfg idOf aead encode
          (h ++ (.arrive rq :: List.replicate k (.work (Reached h).next) ++ [.finish (Reached h).next])) =
        ⟨(Http.step (Reached h).st rq).1, (Reached h).flights, (Reached h).next + 1⟩ ∧
      Http.replyOf (creached R c B cfg idOf aead encode (h ++ (.arrive rq :: List.replicate k (.work (Reached h).next))))
        (Reached h).next = some (Http.step (Reached h).st rq).2 := by
  have hfree : (Reached h).flights (Reached h).next = none :=
    Http.next_free (Sv := Srv) (wk := Wk) (move := move R B) B.empty h (Reached h).next (Nat.le_refl _)
  obtain ⟨k, h1, h2⟩ := Http.C88_alone (wk := Wk) (move := move R B) workOf_run (Reached h) hfree rq hacc
  refine ⟨k, ?_, ?_⟩
  · rw [← h1]; exact Http.creplay_append _ _ _ _ _
  · rw [← h2]; exact congrArg (Http.replyOf · _) (Http.creplay_append _ _ _ _ _)

/-- **C88** (registrations): what the rendezvous server holds for a device was put there by a registration
authentic for a nonce of its session, whatever requests are served at the same time. -/
theorem C88_registrations {Holds : B.W → Name → Item R → Prop} (S : Sound B Holds) (h : Histories) (g : Bytes)
    (hg : g.length = 16) (item : Item R) (hh : Held B (Reached h).st.world (guidText g) item) :
    ∃ t, CRegistered R c B cfg idOf aead encode h g t item :=
  (cexplained S h).1 g item hg (S.held _ _ _ hh)

/-- **C88** (redirects): a redirect is only sent in answer to a ProveToRV request signed by the device key
which, when the server worked on the request, was registered for the GUID named in a HelloRV of that session, with
the nonce issued then; the redirect is the blob registered then, by an authentic registration. -/
theorem C88_redirects {Holds : B.W → Name → Item R → Prop} (S : Sound B Holds) (h : Histories)
    (e : Http.CEvent Srv (Nat × List Name)) (rq : Http.Request Srv) (i : Id) (b : Bytes) (tok : Option (List Char))
    (hr : Http.Replies (Reached h) e rq i (.ok .to1RVRedirect b tok)) :
    rq.type = .to1ProveToRV ∧ ∃ h1 e1 h2 g n item t, h = h1 ++ e1 :: h2 ∧ Http.Works (Reached h1) e1 rq i ∧
      CNonce4 R c B cfg idOf aead encode h1 i g n ∧
      (B.load rq.oracle.now (Reached h1).st.world (guidText g)).2 = .ok (some item) ∧
      CRegistered R c B cfg idOf aead encode h1 g t item ∧
      SignedToken R c rq.body item.key n ∧ b = encode (.redirect item.to1d) := by
  obtain ⟨n, a, resp, data, keys, rfl, hf, rfl, hso, hom, _, henc, _⟩ := Http.replies_ok hr
  obtain ⟨rfl, hred⟩ := (cexplained S h).2 n rq a resp data keys hf
  obtain ⟨ht, h1, e1, h2, g, n', item, rfl, hw, hg, hN, hl, htok, rfl⟩ := hred hom.symm
  obtain ⟨t, hreg⟩ := C88_registrations S h1 g hg item ⟨_, hl⟩
  exact ⟨ht, h1, e1, h2, g, n', item, t, rfl, hw, hN, hl, hreg, htok, (Option.some.inj henc).symm⟩

end
end Verif.RvServer

import Verif.Lemmas.RvServer
import Verif.Spec.Toy
/-!
Properties C33 to C36: the rendezvous server.
-/
namespace Verif.RvServer
open Verif Verif.Voucher Verif.Store

section
variable {R : RvEnv} {c : Bool} {B : Backend (Item R)} {cfg : Config R}
  {Id : Type} [DecidableEq Id] {idOf : List Char → Option Id} {aead : Http.Aead} {encode : Resp → Bytes}

local notation "Srv" => server R c B cfg Id idOf aead encode
local notation "Reached" => reached R c B cfg idOf aead encode
local notation "Histories" => Hist R c B cfg idOf aead encode

/-! ### What requests mean -/

/-- The four kinds of requests which reach a handler. -/
theorem accepted_cases {σ : Http.St Srv} {rq : Http.Request Srv} {a : Http.Accepted Srv}
    (ha : Http.accept σ rq = some a) :
    (rq.type ∈ Spec.clear ∧ a.om ∈ Spec.clear) ∧
    ((rq.type = .to0Hello ∧ a.om = .to0HelloAck ∧ a.req = .hello) ∨
     (rq.type = .to0OwnerSign ∧ a.om = .to0AcceptOwner ∧ ∃ to0d to1d, a.req = .ownerSign to0d to1d ∧
        parseOwnerSign R c rq.body = .ok (.ownerSign to0d to1d)) ∨
     (rq.type = .to1HelloRV ∧ a.om = .to1HelloRVAck ∧ ∃ g s i, a.req = .helloRv g s i ∧
        R.decHelloRv rq.body = some (g, s, i)) ∨
     (rq.type = .to1ProveToRV ∧ a.om = .to1RVRedirect ∧ a.req = .prove rq.body)) := by
  have hr := Http.routeOf_mem (Http.accept_eq_some ha).1
  have hreq := (Http.C23_requests σ rq a ha).2.1
  have hr' : (rq.type, a.om) ∈ rvRoutes := hr
  simp only [rvRoutes, List.mem_cons, Prod.mk.injEq, List.not_mem_nil, or_false] at hr'
  rcases hr' with ⟨h1, h2⟩ | ⟨h1, h2⟩ | ⟨h1, h2⟩ | ⟨h1, h2⟩
  · refine ⟨by rw [h1, h2]; decide, .inl ⟨h1, h2, ?_⟩⟩
    have h : decode R c rq.type rq.body = some a.req := (hreq (by rw [h1]; decide)).2
    rw [h1] at h
    simp only [decode] at h
    split at h
    · exact (Option.some.inj h).symm
    · cases h
  · refine ⟨by rw [h1, h2]; decide, .inr (.inl ⟨h1, h2, ?_⟩)⟩
    have h : decode R c rq.type rq.body = some a.req := (hreq (by rw [h1]; decide)).2
    rw [h1] at h
    simp only [decode] at h
    split at h
    · rename_i r hp
      have hp' := hp
      unfold parseOwnerSign at hp'
      simp only [Res.bind_eq_ok] at hp'
      obtain ⟨_, _, to0d, _, raw, _, _, _, hp'⟩ := hp'
      cases hp'
      exact ⟨to0d, raw, (Option.some.inj h).symm, hp⟩
    · cases h
  · refine ⟨by rw [h1, h2]; decide, .inr (.inr (.inl ⟨h1, h2, ?_⟩))⟩
    have h : decode R c rq.type rq.body = some a.req := (hreq (by rw [h1]; decide)).2
    rw [h1] at h
    simp only [decode] at h
    split at h
    · rename_i g s i hp
      exact ⟨g, s, i, (Option.some.inj h).symm, hp⟩
    · cases h
  · refine ⟨by rw [h1, h2]; decide, .inr (.inr (.inr ⟨h1, h2, ?_⟩))⟩
    have h : decode R c rq.type rq.body = some a.req := (hreq (by rw [h1]; decide)).2
    rw [h1] at h
    simp only [decode] at h
    split at h
    · exact (Option.some.inj h).symm
    · cases h

/-- The server's handler in terms of the handlers of the messages. -/
theorem server_handle {o : Oracle} {t : MsgType} {r : Req} {s : Data} {k : Option Http.Keys} {w w' : B.W}
    {resp : Resp} {data : Data} {keys : Option Http.Keys}
    (h : (Srv).handle o t r s k w = (w', some (resp, data, keys))) :
    handle R c B cfg o r s w = (w', some (resp, data)) ∧ keys = k := by
  have h : (match handle R c B cfg o r s w with
    | (w, none) => (w, none)
    | (w, some (resp, s)) => (w, some (resp, s, k))) = (w', some (resp, data, keys)) := h
  cases hh : handle R c B cfg o r s w with
  | mk w1 o1 =>
    rw [hh] at h
    cases o1 with
    | none => simp at h
    | some x =>
      obtain ⟨x1, x2⟩ := x
      simp only [Prod.mk.injEq, Option.some.injEq] at h
      obtain ⟨rfl, rfl, rfl, rfl⟩ := h
      exact ⟨rfl, rfl⟩

theorem server_world {o : Oracle} {t : MsgType} {r : Req} {s : Data} {k : Option Http.Keys} {w : B.W} :
    ((Srv).handle o t r s k w).1 = (handle R c B cfg o r s w).1 := by
  show (match handle R c B cfg o r s w with
    | (w, none) => (w, none)
    | (w, some (resp, s)) => (w, some (resp, s, k))).1 = _
  cases hh : handle R c B cfg o r s w with
  | mk w1 o1 => cases o1 <;> rfl

theorem server_refuses {o : Oracle} {t : MsgType} {r : Req} {s : Data} {k : Option Http.Keys} {w w' : B.W}
    (hh : handle R c B cfg o r s w = (w', none)) : (Srv).handle o t r s k w = (w', none) := by
  show (match handle R c B cfg o r s w with
    | (w, none) => (w, none)
    | (w, some (resp, s)) => (w, some (resp, s, k))) = _
  rw [hh]

/-! ### Where session data comes from -/

/-- The history explains the nonces and the GUID in session `i`. -/
def Explained (i : Id) (h : Histories) (s : Http.Sess Srv) : Prop :=
  (∀ t, s.data.nonce3 = some t → ∃ n, t = Types.hexEncode n ∧ Nonce3 R c B cfg idOf aead encode h i n) ∧
  (∀ t, s.data.nonce4 = some t → ∃ n g, t = Types.hexEncode n ∧ g.length = 16 ∧
    s.data.guid = some (guidText g) ∧ Nonce4 R c B cfg idOf aead encode h i g n)

theorem Nonce3.mono {h : Histories} {i : Id} {n : Bytes} (hn : Nonce3 R c B cfg idOf aead encode h i n)
    (e : Http.Event Srv (Nat × List Name)) (he : ∀ j, e = .expire j → j ≠ i) :
    Nonce3 R c B cfg idOf aead encode (h ++ [e]) i n := by
  obtain ⟨h1, rq, h2, tok, rfl, a, b, d, f⟩ := hn
  refine ⟨h1, rq, h2 ++ [e], tok, by simp, a, b, d, ?_⟩
  simp only [List.mem_append, List.mem_singleton, not_or]
  exact ⟨f, fun hh => he i hh.symm rfl⟩

theorem Nonce4.mono {h : Histories} {i : Id} {g n : Bytes} (hn : Nonce4 R c B cfg idOf aead encode h i g n)
    (e : Http.Event Srv (Nat × List Name)) (he : ∀ j, e = .expire j → j ≠ i) :
    Nonce4 R c B cfg idOf aead encode (h ++ [e]) i g n := by
  obtain ⟨h1, rq, h2, tok, rfl, a, b, d, f, g⟩ := hn
  refine ⟨h1, rq, h2 ++ [e], tok, by simp, a, b, d, f, ?_⟩
  simp only [List.mem_append, List.mem_singleton, not_or]
  exact ⟨g, fun hh => he i hh.symm rfl⟩

theorem explained (h : Histories) :
    ∀ rq a, Http.accept (Reached h) rq = some a → Explained (R := R) (B := B) (cfg := cfg) a.id h a.sess := by
  refine (Http.session_invariant (move R B) (Sv := Srv) B.empty
    (fun i h s => Explained (R := R) (B := B) (cfg := cfg) i h s) ?_ ?_ ?_ h).2
  · intro i h
    exact ⟨fun t ht => (nomatch ht), fun t ht => (nomatch ht)⟩
  · rintro i h e s ⟨q1, q2⟩ he
    refine ⟨fun t ht => ?_, fun t ht => ?_⟩
    · obtain ⟨n, hn, hh⟩ := q1 t ht
      exact ⟨n, hn, hh.mono e he⟩
    · obtain ⟨n, g, hn, hg, hd, hh⟩ := q2 t ht
      exact ⟨n, g, hn, hg, hd, hh.mono e he⟩
  · rintro h rq a w resp data keys ha hh hso ⟨q1, q2⟩
    have hh' := hh
    obtain ⟨hh, hkeys⟩ := server_handle hh
    obtain ⟨⟨hc1, hc2⟩, hcases⟩ := accepted_cases ha
    have hreply := Http.step_clear ha hc1 hc2 (by rw [hh', hkeys]) hso
    have p1 : ∀ t, a.sess.data.nonce3 = some t → ∃ n, t = Types.hexEncode n ∧
        Nonce3 R c B cfg idOf aead encode (h ++ [.request rq]) a.id n := by
      intro t ht
      obtain ⟨n, hn, hh⟩ := q1 t ht
      exact ⟨n, hn, hh.mono _ (fun j hj => by cases hj)⟩
    have p2 : ∀ t, a.sess.data.nonce4 = some t → ∃ n g, t = Types.hexEncode n ∧ g.length = 16 ∧
        a.sess.data.guid = some (guidText g) ∧ Nonce4 R c B cfg idOf aead encode (h ++ [.request rq]) a.id g n := by
      intro t ht
      obtain ⟨n, g, hn, hg, hd, hh⟩ := q2 t ht
      exact ⟨n, g, hn, hg, hd, hh.mono _ (fun j hj => by cases hj)⟩
    rcases hcases with ⟨ht, hom, hr⟩ | ⟨ht, hom, to0d, to1d, hr, hp⟩ | ⟨ht, hom, g, sg, inf, hr, hp⟩ | ⟨ht, hom, hr⟩
    · rw [hr] at hh
      simp only [handle, hello, Prod.mk.injEq] at hh
      obtain ⟨_, hh⟩ := hh
      split at hh
      · cases hh
      rename_i n hn
      simp only [Option.some.injEq, Prod.mk.injEq] at hh
      obtain ⟨hresp, rfl⟩ := hh
      refine ⟨fun t ht' => ?_, p2⟩
      cases ht'
      refine ⟨n, rfl, h, rq, [], a.cookie, rfl, ht, ⟨a, ha, rfl⟩, ?_, by simp⟩
      rw [hom, ← hresp] at hreply
      exact hreply
    · rw [hr] at hh
      simp only [handle, ownersign] at hh
      split at hh
      · cases hh
      split at hh
      · split at hh
        · cases hh; exact ⟨p1, p2⟩
        · cases hh
      · cases hh
    · rw [hr] at hh
      simp only [handle, helloRv] at hh
      split at hh
      · cases hh
      rename_i hsig
      split at hh
      · cases hh
      rename_i k hk
      obtain ⟨hg, rfl⟩ := guidKey_some hk
      split at hh
      · split at hh
        · cases hh
        rename_i n hn
        simp only [Prod.mk.injEq, Option.some.injEq] at hh
        obtain ⟨_, hresp, rfl⟩ := hh
        refine ⟨p1, fun t ht' => ?_⟩
        cases ht'
        refine ⟨n, g, rfl, hg, rfl, h, rq, [], a.cookie, rfl, ht, ⟨a, ha, rfl⟩, ?_, ?_, by simp⟩
        · simp only [Bool.or_eq_true, Bool.not_eq_true', not_or, Bool.not_eq_false] at hsig
          rw [hp, hsig.1]
          have : inf = [] := by simpa using hsig.2
          rw [this]
        · rw [hom, ← hresp] at hreply
          exact hreply
      · cases hh
    · rw [hr] at hh
      simp only [handle, proveToRv] at hh
      split at hh
      · cases hh
      split at hh
      · cases hh
      split at hh
      · split at hh
        · split at hh
          · cases hh
          · cases hh; exact ⟨p1, p2⟩
        · cases hh
      · cases hh

/-! ### C33 -/

/-- What `ownersign` does to the store. -/
theorem ownersign_world {o : Oracle} {to0d to1d : Bytes} {s : Data} {w : B.W} :
    (ownersign R c B cfg o to0d to1d s w).1 = w ∨
    ∃ t n r, s.nonce3 = some t ∧ parseNonce t = some n ∧ checkOwnerSign R c cfg n to0d to1d = .ok r ∧
      r.guid.length = 16 ∧ (ownersign R c B cfg o to0d to1d s w).1 = (register R B o r w).1 := by
  unfold ownersign
  cases hn : s.nonce3.bind parseNonce with
  | none => exact .inl rfl
  | some n =>
    simp only
    rw [Option.bind_eq_some_iff] at hn
    obtain ⟨t, ht, hn⟩ := hn
    cases hc : checkOwnerSign R c cfg n to0d to1d with
    | err e => exact .inl rfl
    | panic => exact .inl rfl
    | ok r =>
      simp only
      cases hk : guidKey r.guid with
      | none =>
        left
        simp [register, hk]
      | some k =>
        refine .inr ⟨t, n, r, ht, hn, hc, (guidKey_some hk).1, ?_⟩
        cases hg : register R B o r w with
        | mk w' x => cases x <;> rfl

theorem register_holds {Holds : B.W → Name → Item R → Prop} (S : Sound B Holds) {o : Oracle} {r : Registration R}
    {w : B.W} {g : Bytes} {item : Item R} (hg : g.length = 16)
    (h : Holds (register R B o r w).1 (guidText g) item) :
    Holds w (guidText g) item ∨ (r.guid = g ∧ r.item = item) := by
  unfold register at h
  split at h
  · exact .inl h
  rename_i k hk
  obtain ⟨hl, rfl⟩ := guidKey_some hk
  have key : ∀ w', B.put w (guidText r.guid) r.item = (w', .ok ()) → Holds w' (guidText g) item →
      Holds w (guidText g) item ∨ (r.guid = g ∧ r.item = item) := by
    intro w' hw h
    have := S.put w (guidText r.guid) (guidText g) r.item item (guidText_good _) (guidText_good _)
      (by rw [hw]; exact h)
    rcases this with h | ⟨h1, h2⟩
    · exact .inl h
    · exact .inr ⟨(guidText_injective g r.guid hg hl h1).symm, h2.symm⟩
  split at h
  · rename_i w' hw
    split at h
    · exact key w' hw h
    · split at h
      · rename_i w'' hw'
        refine key w' hw (S.setTtl o.now w' (guidText r.guid) ((r.wait : Int) * (second : Int)) _ _ (guidText_good _) (guidText_good _) ?_)
        rw [hw']; exact h
      · rename_i w'' x _ hw'
        refine key w' hw (S.setTtl o.now w' (guidText r.guid) ((r.wait : Int) * (second : Int)) _ _ (guidText_good _) (guidText_good _) ?_)
        rw [hw']; exact h
  · rename_i w' x _ hw
    have := S.put w (guidText r.guid) (guidText g) r.item item (guidText_good _) (guidText_good _)
      (by rw [hw]; exact h)
    rcases this with h | ⟨h1, h2⟩
    · exact .inl h
    · exact .inr ⟨(guidText_injective g r.guid hg hl h1).symm, h2.symm⟩

/-- **C33** for any sound store. -/
theorem C33_sound_store {Holds : B.W → Name → Item R → Prop} (S : Sound B Holds) (h : Histories) (g : Bytes)
    (hg : g.length = 16) (item : Item R) (hh : Held B (Reached h).world (guidText g) item) :
    ∃ h1 rq h2 t, h = h1 ++ .request rq :: h2 ∧ Registered R c B cfg idOf aead encode h1 rq g t item := by
  have main := Http.world_invariant (move R B) (Sv := Srv) B.empty
    (fun h w => ∀ g item, g.length = 16 → Holds w (guidText g) item →
      ∃ h1 rq h2 t, h = h1 ++ .request rq :: h2 ∧ Registered R c B cfg idOf aead encode h1 rq g t item)
    ?_ ?_ ?_ ?_ h
  · exact main g item hg (S.held _ _ _ hh)
  · intro g item _ h
    exact absurd h (S.empty _ _)
  · intro h e _ ih g item hg hw
    obtain ⟨h1, rq, h2, t, he, hr⟩ := ih g item hg hw
    exact ⟨h1, rq, h2 ++ [e], t, Http.split_snoc he, hr⟩
  · intro h m ih g item hg hw
    obtain ⟨h1, rq, h2, t, he, hr⟩ := ih g item hg (S.maintain _ _ _ _ _ hw)
    exact ⟨h1, rq, h2 ++ [_], t, Http.split_snoc he, hr⟩
  · intro h rq a ha ih g item hg hw
    rw [server_world] at hw
    change Holds (handle R c B cfg rq.oracle a.req a.sess.data (Reached h).world).1 (guidText g) item at hw
    have old : Holds (Reached h).world (guidText g) item →
        ∃ h1 rq' h2 t, h ++ [.request rq] = h1 ++ .request rq' :: h2 ∧
          Registered R c B cfg idOf aead encode h1 rq' g t item := by
      intro hw
      obtain ⟨h1, rq', h2, t, he, hr⟩ := ih g item hg hw
      exact ⟨h1, rq', h2 ++ [_], t, Http.split_snoc he, hr⟩
    have ex := explained h rq a ha
    rcases (accepted_cases ha).2 with ⟨ht, hom, hr⟩ | ⟨ht, hom, to0d, to1d, hr, hp⟩ | ⟨ht, hom, g', sg, inf, hr, hp⟩ | ⟨ht, hom, hr⟩
    · rw [hr] at hw
      exact old hw
    · rw [hr] at hw
      simp only [handle] at hw
      rcases ownersign_world (R := R) (c := c) (B := B) (cfg := cfg) (o := rq.oracle) (to0d := to0d) (to1d := to1d)
        (s := a.sess.data) (w := (Reached h).world) with hq | ⟨t3, n, r, h3, hn, hck, hl, hq⟩
      · rw [show (ownersign R c B cfg rq.oracle to0d to1d a.sess.data _).1 = _ from hq] at hw
        exact old hw
      · rw [show (ownersign R c B cfg rq.oracle to0d to1d a.sess.data _).1 = _ from hq] at hw
        rcases register_holds S hg hw with hw | ⟨rfl, rfl⟩
        · exact old hw
        · obtain ⟨n', rfl, hn3⟩ := ex.1 t3 h3
          obtain rfl := parseNonce_hex hn
          obtain ⟨t, hauth, _⟩ := checkOwnerSign_ok hck
          exact ⟨h, rq, [], t, rfl, ht, a.id, n, to0d, to1d, ⟨a, ha, rfl⟩, hn3, hp, hauth⟩
    · rw [hr] at hw
      refine old ?_
      simp only [handle, helloRv] at hw
      split at hw
      · exact hw
      split at hw
      · exact hw
      rename_i k hk
      split at hw
      · rename_i w' _ hl
        refine S.load rq.oracle.now _ k _ _ ?_
        rw [show B.load rq.oracle.now _ k = _ from hl]
        split at hw <;> exact hw
      · rename_i w' x _ hl
        refine S.load rq.oracle.now _ k _ _ ?_
        rw [show B.load rq.oracle.now _ k = _ from hl]
        exact hw
    · rw [hr] at hw
      refine old ?_
      simp only [handle, proveToRv] at hw
      split at hw
      · exact hw
      split at hw
      · exact hw
      rename_i g' hg'
      split at hw
      · rename_i w' _ hl
        refine S.load rq.oracle.now _ (guidText g') _ _ ?_
        rw [show B.load rq.oracle.now _ (guidText g') = _ from hl]
        split at hw
        · split at hw <;> exact hw
        · exact hw
      · rename_i w' x _ hl
        refine S.load rq.oracle.now _ (guidText g') _ _ ?_
        rw [show B.load rq.oracle.now _ (guidText g') = _ from hl]
        exact hw

/-! ### C34 -/

/-- **C34**: the rendezvous server answers with a redirect only to a ProveToRV request which is signed by
the device key registered for the GUID named in the HelloRV of that session and contains the nonce issued
then; the redirect is the registered blob. For every history and every store. -/
theorem C34_only_to_device (h : Histories) (rq : Http.Request Srv) (b : Bytes) (tok : Option (List Char))
    (hr : (Http.step (Reached h) rq).2 = .ok .to1RVRedirect b tok) :
    rq.type = .to1ProveToRV ∧ ∃ i g n item, Http.InSession (Reached h) rq i ∧ g.length = 16 ∧
      Nonce4 R c B cfg idOf aead encode h i g n ∧
      (B.load rq.oracle.now (Reached h).world (guidText g)).2 = .ok (some item) ∧
      SignedToken R c rq.body item.key n ∧ b = encode (.redirect item.to1d) := by
  obtain ⟨a, w, resp, data, keys, ha, hh, hso, hom, henc, _⟩ := Http.step_ok hr
  obtain ⟨hh, hkeys⟩ := server_handle hh
  have ex := explained h rq a ha
  have hcl := accepted_cases ha
  have hk := ((Http.C23_requests _ rq a ha).2.1 hcl.1.1).1
  rcases hcl.2 with ⟨ht, hom', hq⟩ | ⟨ht, hom', to0d, to1d, hq, hp⟩ | ⟨ht, hom', g', sg, inf, hq, hp⟩ | ⟨ht, hom', hq⟩
  · rw [hom'] at hom; cases hom
  · rw [hom'] at hom; cases hom
  · rw [hom'] at hom; cases hom
  · refine ⟨ht, ?_⟩
    rw [hq] at hh
    simp only [handle, proveToRv] at hh
    split at hh
    · cases hh
    rename_i n hn
    split at hh
    · cases hh
    rename_i g hg
    split at hh
    · rename_i w' item hl
      split at hh
      · rename_i eat he
        split at hh
        · cases hh
        rename_i hne
        simp only [Prod.mk.injEq, Option.some.injEq] at hh
        obtain ⟨_, hresp, _⟩ := hh
        rw [Option.bind_eq_some_iff] at hn hg
        obtain ⟨t4, ht4, hn⟩ := hn
        obtain ⟨tg, htg, hg⟩ := hg
        obtain ⟨n', g', rfl, hg16, hgd, hN⟩ := ex.2 t4 ht4
        obtain rfl := parseNonce_hex hn
        rw [htg] at hgd
        cases hgd
        obtain rfl := parseGuid_text hg16 hg
        refine ⟨a.id, g, n, item, ⟨a, ha, rfl⟩, hg16, hN, ?_, ?_, ?_⟩
        · rw [show B.load rq.oracle.now (Reached h).world (guidText g) = _ from hl]
        · rw [Classical.not_not.1 hne]
          exact getEat_ok he
        · rw [hkeys, hk, ← hresp] at henc
          exact (Option.some.inj henc).symm
      · cases hh
    · cases hh

/-- **C34** (nothing else gives a blob away): answers of other types carry a nonce or a lifetime. -/
theorem C34_other_answers (h : Histories) (rq : Http.Request Srv) (om : MsgType) (b : Bytes) (tok : Option (List Char))
    (hr : (Http.step (Reached h) rq).2 = .ok om b tok) (hom : om ≠ .to1RVRedirect) :
    (∃ n, rq.oracle.nonce = some n ∧ (b = encode (.helloAck n) ∨ b = encode (.helloRvAck n))) ∨
    (∃ wait, b = encode (.acceptOwner wait)) := by
  obtain ⟨a, w, resp, data, keys, ha, hh, hso, rfl, henc, _⟩ := Http.step_ok hr
  obtain ⟨hh, hkeys⟩ := server_handle hh
  have hcl := accepted_cases ha
  have hk := ((Http.C23_requests _ rq a ha).2.1 hcl.1.1).1
  rw [hkeys, hk] at henc
  have hb : encode resp = b := Option.some.inj henc
  rcases hcl.2 with ⟨ht, hom', hq⟩ | ⟨ht, hom', to0d, to1d, hq, hp⟩ | ⟨ht, hom', g', sg, inf, hq, hp⟩ | ⟨ht, hom', hq⟩
  · rw [hq] at hh
    simp only [handle, hello, Prod.mk.injEq] at hh
    obtain ⟨_, hh⟩ := hh
    split at hh
    · cases hh
    rename_i n hn
    cases hh
    exact .inl ⟨n, hn, .inl hb.symm⟩
  · rw [hq] at hh
    simp only [handle, ownersign] at hh
    split at hh
    · cases hh
    split at hh
    · split at hh
      · cases hh; exact .inr ⟨_, hb.symm⟩
      · cases hh
    · cases hh
  · rw [hq] at hh
    simp only [handle, helloRv] at hh
    split at hh
    · cases hh
    split at hh
    · cases hh
    split at hh
    · split at hh
      · cases hh
      rename_i n hn
      cases hh
      exact .inl ⟨n, hn, .inr hb.symm⟩
    · cases hh
  · exact absurd hom' hom

/-! ### C35 -/

/-- What an accepted registration looked like. -/
theorem accepted_registration {h : Histories} {rq : Http.Request Srv} {b : Bytes} {tok : Option (List Char)}
    (hr : (Http.step (Reached h) rq).2 = .ok .to0AcceptOwner b tok) :
    rq.type = .to0OwnerSign ∧ ∃ i n to0d to1d r t w, Http.InSession (Reached h) rq i ∧
      Nonce3 R c B cfg idOf aead encode h i n ∧
      parseOwnerSign R c rq.body = .ok (.ownerSign to0d to1d) ∧
      Authentic R c cfg n to0d to1d r.guid t r.item ∧ r.wait = min t.wait cfg.maxWait ∧
      register R B rq.oracle r (Reached h).world = (w, some r.wait) ∧
      (Http.step (Reached h) rq).1.world = w ∧ b = encode (.acceptOwner r.wait) := by
  obtain ⟨a, w, resp, data, keys, ha, hh, hso, hom, henc, _⟩ := Http.step_ok hr
  have hw : (Http.step (Reached h) rq).1.world = w := by
    rw [Http.step_world ha]
    exact congrArg Prod.fst hh
  obtain ⟨hh, hkeys⟩ := server_handle hh
  have ex := explained h rq a ha
  have hcl := accepted_cases ha
  have hk := ((Http.C23_requests _ rq a ha).2.1 hcl.1.1).1
  rcases hcl.2 with ⟨ht, hom', hq⟩ | ⟨ht, hom', to0d, to1d, hq, hp⟩ | ⟨ht, hom', g', sg, inf, hq, hp⟩ | ⟨ht, hom', hq⟩
  · rw [hom'] at hom; cases hom
  · refine ⟨ht, ?_⟩
    rw [hq] at hh
    simp only [handle, ownersign] at hh
    split at hh
    · cases hh
    rename_i n hn
    split at hh
    · rename_i r hck
      split at hh
      · rename_i w' wait hreg
        simp only [Prod.mk.injEq, Option.some.injEq] at hh
        obtain ⟨rfl, rfl, _⟩ := hh
        rw [Option.bind_eq_some_iff] at hn
        obtain ⟨t3, ht3, hn⟩ := hn
        obtain ⟨n', rfl, hn3⟩ := ex.1 t3 ht3
        obtain rfl := parseNonce_hex hn
        obtain ⟨t, hauth, hwait⟩ := checkOwnerSign_ok hck
        have hww : wait = r.wait := by
          unfold register at hreg
          split at hreg
          · cases hreg
          split at hreg
          · split at hreg
            · cases hreg
            · split at hreg
              · cases hreg; rfl
              · cases hreg
          · cases hreg
        subst hww
        rw [hkeys, hk] at henc
        exact ⟨a.id, n, to0d, to1d, r, t, w', ⟨a, ha, rfl⟩, hn3, hp, hauth, hwait, hreg, hw, (Option.some.inj henc).symm⟩
      · cases hh
    · cases hh
  · rw [hom'] at hom; cases hom
  · rw [hom'] at hom; cases hom

/-- **C35** (what the owner is told): an accepted registration is answered with the smaller of the
requested lifetime and the configured maximum. -/
theorem C35_told (h : Histories) (rq : Http.Request Srv) (b : Bytes) (tok : Option (List Char))
    (hr : (Http.step (Reached h) rq).2 = .ok .to0AcceptOwner b tok) :
    ∃ g t item, Registered R c B cfg idOf aead encode h rq g t item ∧ b = encode (.acceptOwner (min t.wait cfg.maxWait)) := by
  obtain ⟨ht, i, n, to0d, to1d, r, t, w, h1, h2, h3, h4, h5, h6, h7, h8⟩ := accepted_registration hr
  exact ⟨r.guid, t, r.item, ⟨ht, i, n, to0d, to1d, h1, h2, h3, h4⟩, by rw [h8, h5]⟩

end

/-! ### The directory store -/

theorem second_pos : 0 < second := by decide

section
attribute [local irreducible] second
variable {R : RvEnv} {c : Bool} {ser : Item R → Bytes} {de : Bytes → Option (Item R)} {cfg : Config R}
  {Id : Type} [DecidableEq Id] {idOf : List Char → Option Id} {aead : Http.Aead} {encode : Resp → Bytes}

local notation "Srv" => server R c (dirBackend ser de) cfg Id idOf aead encode
local notation "Reached" => reached R c (dirBackend ser de) cfg idOf aead encode
local notation "Histories" => Hist R c (dirBackend ser de) cfg idOf aead encode
local notation "SrvDb" => server R c (dbBackend ser de) cfg Id idOf aead encode
local notation "ReachedDb" => reached R c (dbBackend ser de) cfg idOf aead encode
local notation "HistoriesDb" => Hist R c (dbBackend ser de) cfg idOf aead encode

/-- **C33** with the directory store: in every history, every registration the server holds (for a
GUID of 16 bytes, which all GUIDs have) came from an authentic registration request in a session in which
the server had handed out the nonce. -/
theorem C33_directory (hc : ∀ v, de (ser v) = some v) (h : Histories) (g : Bytes) (hg : g.length = 16) (item : Item R)
    (hh : Held (dirBackend ser de) (Reached h).world (guidText g) item) :
    ∃ h1 rq h2 t, h = h1 ++ .request rq :: h2 ∧
      Registered R c (dirBackend ser de) cfg idOf aead encode h1 rq g t item :=
  C33_sound_store (dir_sound hc) h g hg item hh

/-- **C33** with the database stores. -/
theorem C33_database (hc : ∀ v, de (ser v) = some v) (h : HistoriesDb) (g : Bytes) (hg : g.length = 16) (item : Item R)
    (hh : Held (dbBackend ser de) (ReachedDb h).world (guidText g) item) :
    ∃ h1 rq h2 t, h = h1 ++ .request rq :: h2 ∧
      Registered R c (dbBackend ser de) cfg idOf aead encode h1 rq g t item :=
  C33_sound_store (db_sound hc) h g hg item hh

/-- **C34** with **C33**: a device only ever gets a blob that was registered authentically for the GUID it
named, and the key the server checked its token with is the leaf key of the registered chain. -/
theorem C34_authentic_blob (hc : ∀ v, de (ser v) = some v) (h : Histories) (rq : Http.Request Srv) (b : Bytes)
    (tok : Option (List Char)) (hr : (Http.step (Reached h) rq).2 = .ok .to1RVRedirect b tok) :
    ∃ i g n item h1 rq1 h2 t, Nonce4 R c (dirBackend ser de) cfg idOf aead encode h i g n ∧
      h = h1 ++ .request rq1 :: h2 ∧ Registered R c (dirBackend ser de) cfg idOf aead encode h1 rq1 g t item ∧
      SignedToken R c rq.body item.key n ∧ b = encode (.redirect item.to1d) := by
  obtain ⟨_, i, g, n, item, h1, h2, h3, h4, h5, h6⟩ := C34_only_to_device h rq b tok hr
  obtain ⟨ha, rq1, hb, t, he, hreg⟩ := C33_directory hc h g h2 item ⟨_, h4⟩
  exact ⟨i, g, n, item, ha, rq1, hb, t, h3, he, hreg, h5, h6⟩

/-- Time stamps of lifetimes. -/
theorem timestamp_wait (now wait : Nat) :
    MValue.timestamp now ((wait : Int) * (second : Int)) =
      if now / second + wait ≤ 253402300799 then .ok ((now / second + wait : Nat) : Int) else .panic := by
  have e : ((now : Int) + (wait : Int) * (second : Int)) / (second : Int) = ((now / second + wait : Nat) : Int) := by
    rw [← Int.natCast_mul, ← Int.natCast_add, ← Int.natCast_ediv, Nat.add_mul_div_right _ _ second_pos]
  simp only [MValue.timestamp, e]
  generalize now / second + wait = q
  by_cases hq : q ≤ 253402300799
  · rw [if_pos hq, if_neg (by omega)]
  · rw [if_neg hq, if_pos (by omega)]

theorem setMeta_time {d : Dir} {k : Name} {f : File} (hf : d (escape k) = some f) {now q : Nat} {dur : Int}
    (hq : q ≤ 253402300799) (ht : MValue.timestamp now dur = .ok (q : Int)) :
    Store.setMeta now d k ttlKey (.after dur) =
      (d.put (escape k) (f.setAttr (xattrName ttlKey) (some (leBytes 8 q))), .ok ()) := by
  have e : ((q : Int) % 2 ^ 64).toNat = q := by omega
  unfold Store.setMeta
  rw [hf]
  simp only [MValue.toStored, ht, e]

theorem setMeta_time_panic {d : Dir} {k : Name} {f : File} (hf : d (escape k) = some f) {now : Nat} {dur : Int}
    (ht : MValue.timestamp now dur = .panic) :
    Store.setMeta now d k ttlKey (.after dur) = (d, .panic) := by
  unfold Store.setMeta
  rw [hf]
  simp only [MValue.toStored, ht]

section
variable {B : Backend (Item R)} {o : Oracle} {r : Registration R} {w w1 w2 : B.W} {k : Name}

theorem register_stopped (hk : guidKey r.guid = some k) (hp : B.put w k r.item = (w1, .ok ())) (hs : o.stopped = true) :
    register R B o r w = (w1, none) := by
  unfold register
  rw [hk]
  simp only [hp, hs, if_true]

theorem register_done (hk : guidKey r.guid = some k) (hp : B.put w k r.item = (w1, .ok ())) (hs : o.stopped = false)
    (ht : B.setTtl o.now w1 k ((r.wait : Int) * (second : Int)) = (w2, .ok ())) :
    register R B o r w = (w2, some r.wait) := by
  unfold register
  rw [hk]
  simp only [hp, hs, Bool.false_eq_true, if_false, ht]

theorem register_failed (hk : guidKey r.guid = some k) (hp : B.put w k r.item = (w1, .ok ())) (hs : o.stopped = false)
    (ht : B.setTtl o.now w1 k ((r.wait : Int) * (second : Int)) = (w2, .panic)) :
    register R B o r w = (w2, none) := by
  unfold register
  rw [hk]
  simp only [hp, hs, Bool.false_eq_true, if_false, ht]

end

/-- What a registration leaves in the directory. -/
theorem dir_register {d : Dir} {o : Oracle} {r : Registration R} (hl : r.guid.length = 16) :
    (register R (dirBackend ser de) o r d).1 (escape (guidText r.guid)) ≠ none ∧
    (∀ m, m ≠ escape (guidText r.guid) → m ≠ tmpName (escape (guidText r.guid)) →
      (register R (dirBackend ser de) o r d).1 m = d m) ∧
    (o.stopped = false → o.now / second + r.wait ≤ 253402300799 →
      (register R (dirBackend ser de) o r d).2 = some r.wait) ∧
    (∀ w, (register R (dirBackend ser de) o r d).2 = some w → o.stopped = false ∧
      o.now / second + r.wait ≤ 253402300799 ∧
      ∃ f, (register R (dirBackend ser de) o r d).1 (escape (guidText r.guid)) = some f ∧
        f.content = ser r.item ∧ f.xattrs (xattrName ttlKey) = some (leBytes 8 (o.now / second + r.wait))) ∧
    (o.stopped = true → (register R (dirBackend ser de) o r d).1 (escape (guidText r.guid)) =
      some ⟨ser r.item, attrsOf d (tmpName (escape (guidText r.guid)))⟩) := by
  obtain ⟨s1, s2, s3, s4⟩ := store_good (d := d) (guidText_good r.guid) (ser r.item)
  have hkey : guidKey r.guid = some (guidText r.guid) := by simp [guidKey, hl]
  have hput : (dirBackend ser de).put d (guidText r.guid) r.item = ((Store.store d (guidText r.guid) [ser r.item]).1, .ok ()) := by
    show Store.store d (guidText r.guid) [ser r.item] = _
    rw [← s1]
  cases ho : o.stopped with
  | true =>
    rw [register_stopped hkey hput ho]
    exact ⟨by rw [s2]; simp, s4, by simp, by simp, fun _ => s2⟩
  | false =>
    by_cases hle : o.now / second + r.wait ≤ 253402300799
    · have htt : (dirBackend ser de).setTtl o.now (Store.store d (guidText r.guid) [ser r.item]).1 (guidText r.guid)
          ((r.wait : Int) * (second : Int)) = _ :=
        setMeta_time s2 hle (by rw [timestamp_wait, if_pos hle])
      rw [register_done hkey hput ho htt]
      refine ⟨by simp [Dir.put], ?_, by simp, ?_, by simp⟩
      · intro m h1 h2
        simp only [Dir.put, if_neg h1]
        exact s4 m h1 h2
      · intro w _
        refine ⟨rfl, hle, File.setAttr ⟨ser r.item, attrsOf d (tmpName (escape (guidText r.guid)))⟩ (xattrName ttlKey)
            (some (leBytes 8 (o.now / second + r.wait))), by simp [Dir.put], rfl, ?_⟩
        simp [File.setAttr]
    · have htt : (dirBackend ser de).setTtl o.now (Store.store d (guidText r.guid) [ser r.item]).1 (guidText r.guid)
          ((r.wait : Int) * (second : Int)) = _ :=
        setMeta_time_panic s2 (by rw [timestamp_wait, if_neg hle])
      rw [register_failed hkey hput ho htt]
      exact ⟨by rw [s2]; simp, s4, fun _ h => absurd h hle, by simp, by simp⟩

theorem Calm.left {B : Backend (Item R)} {h : Hist R c B cfg idOf aead encode}
    {e : Http.Event (server R c B cfg Id idOf aead encode) (Nat × List Name)}
    (hc : Calm R c B cfg idOf aead encode (h ++ [e])) : Calm R c B cfg idOf aead encode h :=
  fun rq hrq => hc rq (by simp [hrq])

/-- Files only leave the directory, except for the file of a registered device. -/
theorem dir_handle {o : Oracle} {q : Req} {s : Data} {d : Dir} {n : Name} {f : File}
    (hf : (handle R c (dirBackend ser de) cfg o q s d).1 n = some f) (hq : ∀ a b, q ≠ .ownerSign a b) : d n = some f := by
  cases q with
  | hello => exact hf
  | ownerSign a b => exact absurd rfl (hq a b)
  | helloRv g sg inf =>
    simp only [handle, helloRv] at hf
    split at hf
    · exact hf
    split at hf
    · exact hf
    rename_i k hk
    refine load_sub (de := de) (now := o.now) (k := k) ?_
    split at hf
    · rename_i w' _ hl
      rw [show Store.load de o.now d k = _ from hl]
      split at hf <;> exact hf
    · rename_i w' x _ hl
      rw [show Store.load de o.now d k = _ from hl]
      exact hf
  | prove token =>
    simp only [handle, proveToRv] at hf
    split at hf
    · exact hf
    split at hf
    · exact hf
    rename_i g hg
    refine load_sub (de := de) (now := o.now) (k := guidText g) ?_
    split at hf
    · rename_i w' _ hl
      rw [show Store.load de o.now d (guidText g) = _ from hl]
      split at hf
      · split at hf <;> exact hf
      · exact hf
    · rename_i w' x _ hl
      rw [show Store.load de o.now d (guidText g) = _ from hl]
      exact hf

/-- The files of registrations are explained by the history, with their lifetime. -/
theorem dir_explained (h : Histories) (hcalm : Calm R c (dirBackend ser de) cfg idOf aead encode h) (g : Bytes)
    (hg : g.length = 16) (f : File) (hf : (Reached h).world (escape (guidText g)) = some f) :
    ∃ h1 rq h2 t item, h = h1 ++ .request rq :: h2 ∧
      Registered R c (dirBackend ser de) cfg idOf aead encode h1 rq g t item ∧ f.content = ser item ∧
      f.xattrs (xattrName ttlKey) = some (leBytes 8 (rq.oracle.now / second + min t.wait cfg.maxWait)) ∧
      rq.oracle.now / second + min t.wait cfg.maxWait ≤ 253402300799 := by
  have main := Http.world_invariant (move R (dirBackend ser de)) (Sv := Srv) (dirBackend ser de).empty
    (fun h (w : Dir) => Calm R c (dirBackend ser de) cfg idOf aead encode h → ∀ g f, g.length = 16 →
      w (escape (guidText g)) = some f → ∃ h1 rq h2 t item, h = h1 ++ .request rq :: h2 ∧
      Registered R c (dirBackend ser de) cfg idOf aead encode h1 rq g t item ∧ f.content = ser item ∧
      f.xattrs (xattrName ttlKey) = some (leBytes 8 (rq.oracle.now / second + min t.wait cfg.maxWait)) ∧
      rq.oracle.now / second + min t.wait cfg.maxWait ≤ 253402300799)
    ?_ ?_ ?_ ?_ h
  · exact main hcalm g f hg hf
  · intro _ g f _ hf
    cases hf
  · intro h e _ ih hcalm g f hg hf
    obtain ⟨h1, rq, h2, t, item, he, hr⟩ := ih hcalm.left g f hg hf
    exact ⟨h1, rq, h2 ++ [e], t, item, Http.split_snoc he, hr⟩
  · intro h m ih hcalm g f hg hf
    obtain ⟨h1, rq, h2, t, item, he, hr⟩ := ih hcalm.left g f hg (maintain_sub _ _ _ _ _ hf)
    exact ⟨h1, rq, h2 ++ [_], t, item, Http.split_snoc he, hr⟩
  · intro h rq a ha ih hcalm g f hg hf
    rw [server_world] at hf
    change (handle R c (dirBackend ser de) cfg rq.oracle a.req a.sess.data (Reached h).world).1 (escape (guidText g)) = some f at hf
    have old : (Reached h).world (escape (guidText g)) = some f →
        ∃ h1 rq' h2 t item, h ++ [.request rq] = h1 ++ .request rq' :: h2 ∧
          Registered R c (dirBackend ser de) cfg idOf aead encode h1 rq' g t item ∧ f.content = ser item ∧
          f.xattrs (xattrName ttlKey) = some (leBytes 8 (rq'.oracle.now / second + min t.wait cfg.maxWait)) ∧
          rq'.oracle.now / second + min t.wait cfg.maxWait ≤ 253402300799 := by
      intro hw
      obtain ⟨h1, rq', h2, t, item, he, hr⟩ := ih hcalm.left g f hg hw
      exact ⟨h1, rq', h2 ++ [_], t, item, Http.split_snoc he, hr⟩
    obtain ⟨hst, hmax⟩ := hcalm rq (by simp)
    have ex := explained h rq a ha
    rcases (accepted_cases ha).2 with ⟨ht, hom, hr⟩ | ⟨ht, hom, to0d, to1d, hr, hp⟩ | ⟨ht, hom, g', sg, inf, hr, hp⟩ | ⟨ht, hom, hr⟩
    · exact old (dir_handle hf (by rw [hr]; simp))
    · rw [hr] at hf
      simp only [handle] at hf
      rcases ownersign_world (R := R) (c := c) (B := dirBackend ser de) (cfg := cfg) (o := rq.oracle) (to0d := to0d) (to1d := to1d)
        (s := a.sess.data) (w := (Reached h).world) with hq | ⟨t3, n, r, h3, hn, hck, hl, hq⟩
      · rw [show (ownersign R c (dirBackend ser de) cfg rq.oracle to0d to1d a.sess.data _).1 = _ from hq] at hf
        exact old hf
      · rw [show (ownersign R c (dirBackend ser de) cfg rq.oracle to0d to1d a.sess.data _).1 = _ from hq] at hf
        obtain ⟨_, d2, d3, d4, _⟩ := dir_register (ser := ser) (de := de) (d := (Reached h).world) (o := rq.oracle) hl
        by_cases hgg : r.guid = g
        · subst hgg
          obtain ⟨t, hauth, hwait⟩ := checkOwnerSign_ok hck
          obtain ⟨n', rfl, hn3⟩ := ex.1 t3 h3
          obtain rfl := parseNonce_hex hn
          have hb : rq.oracle.now / second + r.wait ≤ 253402300799 := by
            rw [hwait]
            generalize rq.oracle.now / second = q at hmax ⊢
            omega
          obtain ⟨_, _, f', hf', hcont, hattr⟩ := d4 _ (d3 hst hb)
          rw [hf'] at hf
          cases hf
          rw [hwait] at hattr hb
          exact ⟨h, rq, [], t, r.item, rfl, ⟨ht, a.id, n, to0d, to1d, ⟨a, ha, rfl⟩, hn3, hp, hauth⟩, hcont, hattr, hb⟩
        · refine old ?_
          rw [← d2 _ (fun hh => hgg (guidText_injective _ _ hl hg
            (good_escape_injective (guidText_good _) (guidText_good _) hh.symm))) (good_ne_tmp (guidText_good _) _)]
          exact hf
    · exact old (dir_handle hf (by rw [hr]; simp))
    · exact old (dir_handle hf (by rw [hr]; simp))

/-- **C35** (directory store, server not stopped between the two store operations of a registration): what
the server would serve at time `now` was registered for at least that long: `now` is at most the
time of the registration plus the smaller of requested and maximal lifetime. The full statement asks for
this however the server is stopped and with every store; see the violations. -/
theorem C35_not_served_later_partial (hc : ∀ v, de (ser v) = some v) (h : Histories)
    (hcalm : Calm R c (dirBackend ser de) cfg idOf aead encode h) (g : Bytes) (hg : g.length = 16) (item : Item R)
    (now : Nat) (hl : (Store.load de now (Reached h).world (guidText g)).2 = .ok (some item)) :
    ∃ h1 rq h2 t, h = h1 ++ .request rq :: h2 ∧
      Registered R c (dirBackend ser de) cfg idOf aead encode h1 rq g t item ∧
      now ≤ rq.oracle.now + min t.wait cfg.maxWait * second := by
  obtain ⟨f, hf, hexp, hde, _⟩ := load_some hl
  obtain ⟨h1, rq, h2, t, item', he, hreg, hcont, hattr, hmax⟩ := dir_explained h hcalm g hg f hf
  rw [hcont, hc] at hde
  cases hde
  refine ⟨h1, rq, h2, t, he, hreg, ?_⟩
  unfold fileExpired at hexp
  rw [hattr] at hexp
  simp only at hexp
  rw [ttl_roundtrip _ (by omega)] at hexp
  simp only [Res.ok.injEq, decide_eq_false_iff_not, Nat.not_lt] at hexp
  refine Nat.le_trans hexp ?_
  rw [Nat.add_mul]
  exact Nat.add_le_add_right (Nat.div_mul_le_self _ _) _

/-- **C35** is violated when the server is stopped between storing a registration and setting its
lifetime (or setting it fails): the blob is then served for ever, at every later time. -/
theorem C35_stopped_violated (hc : ∀ v, de (ser v) = some v) (d : Dir) (o : Oracle) (r : Registration R)
    (hl : r.guid.length = 16) (hs : o.stopped = true) (hno : d (tmpName (escape (guidText r.guid))) = none) (now : Nat) :
    (Store.load de now (register R (dirBackend ser de) o r d).1 (guidText r.guid)).2 = .ok (some r.item) := by
  have := (dir_register (ser := ser) (de := de) (d := d) (o := o) hl).2.2.2.2 hs
  unfold Store.load
  rw [this]
  simp only [attrsOf, hno, fileExpired, decodeFile, hc]

theorem dbSetMeta_ok {now : Nat} {t t' : Table} {k mk : Name} {dur : Int}
    (h : dbSetMeta .rendezvous now t k mk (.after dur) = (t', .ok ())) :
    ∃ s, MValue.timestamp now dur = .ok s ∧ t' = t.update k (fun r => { r with ttl := some s }) := by
  unfold dbSetMeta at h
  simp only at h
  split at h
  · rename_i s hts
    simp only [Prod.mk.injEq, and_true] at h
    exact ⟨s, hts, h.symm⟩
  · cases h
  · cases h

theorem db_register {t t' : Table} {o : Oracle} {r : Registration R} {w : Nat}
    (hr : register R (dbBackend ser de) o r t = (t', some w)) :
    r.guid.length = 16 ∧ o.stopped = false ∧ t.any (fun r' => decide (r'.guid = guidText r.guid)) = false ∧
    o.now / second + r.wait ≤ 253402300799 ∧
    t' = t ++ [⟨guidText r.guid, ser r.item, none, none, some ((o.now / second + r.wait : Nat) : Int)⟩] := by
  unfold register at hr
  split at hr
  · cases hr
  rename_i k hk
  obtain ⟨hlen, rfl⟩ := guidKey_some hk
  split at hr
  · rename_i t1 hp
    have hp : dbStore t (guidText r.guid) (ser r.item) = (t1, .ok ()) := hp
    split at hr
    · cases hr
    rename_i hst
    split at hr
    · rename_i t2 hs
      cases hr
      obtain ⟨s, hts, hupd⟩ := dbSetMeta_ok (mk := ttlKey) hs
      unfold dbStore at hp
      split at hp
      · cases hp
      rename_i hnone
      simp only [Prod.mk.injEq, and_true] at hp
      subst hp
      have hnone : t.any (fun r' => decide (r'.guid = guidText r.guid)) = false := by simpa using hnone
      rw [timestamp_wait] at hts
      split at hts
      · rename_i hle
        refine ⟨hlen, by simpa using hst, hnone, hle, ?_⟩
        rw [hupd]
        unfold Table.update
        rw [List.map_append]
        congr 1
        · conv => rhs; rw [← List.map_id t]
          apply List.map_congr_left
          intro x hx
          rw [List.any_eq_false] at hnone
          have := hnone x hx
          simp only [decide_eq_true_eq] at this
          rw [if_neg this]
          rfl
        · simp only [List.map_cons, List.map_nil, if_true]
          cases hts
          rfl
      · cases hts
    · cases hr
  · cases hr

/-- **C35** is violated with the database stores: whatever the time, an expired registration is served as
long as maintenance has not removed it. -/
theorem C35_database_violated (hc : ∀ v, de (ser v) = some v) (t t' : Table) (o : Oracle) (r : Registration R) (w : Nat)
    (hr : register R (dbBackend ser de) o r t = (t', some w)) (now : Nat) :
    ((dbBackend ser de).load now t' (guidText r.guid)).2 = .ok (some r.item) := by
  obtain ⟨_, _, hno, _, rfl⟩ := db_register hr
  show dbLoad de _ _ = _
  unfold dbLoad
  have hf : t.find? (fun r' => decide (r'.guid = guidText r.guid)) = none := by
    rw [List.find?_eq_none]
    rw [List.any_eq_false] at hno
    exact hno
  rw [List.find?_append, hf]
  simp [hc]

end

end Verif.RvServer

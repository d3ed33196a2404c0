import Verif.Props.ErrorsOwner
import Verif.Props.OwnerServer
import Verif.Props.RvServer
/-!
**C95**, messages out of order: whatever happened before, the handlers of the rendezvous and of the owner server find in the session what
they need, since the request filter has refused messages out of order. Who is told of a sequence failure by a handler is told so for
another reason. (The manufacturing server: `C95_in_order`.)
-/
namespace Verif.Errors
open Verif Verif.Http
open Verif.Voucher Verif.Store Verif.Types

/-- What the filter has looked at. -/
theorem accepted_prev {Sv : Server} {σ : St Sv} {rq : Request Sv} {a : Accepted Sv} (ha : accept σ rq = some a) :
    rq.type.validPrev a.sess.last = true := (accept_eq_some ha).2.2.1

/-! ### Rendezvous server -/

section
open Verif.RvServer hiding handle server move reached decode
variable {R : RvEnv} {c : Bool} {B : Backend (Item R)} {cfg : Config R}
  {Id : Type} [DecidableEq Id] {idOf : List Char → Option Id} {aead : Aead} {encode : Resp → Bytes}

local notation "Srv" => RvServer.server R c B cfg Id idOf aead encode

/-- What the last answer says about the session. -/
structure RvOrder (s : Sess Srv) : Prop where
  to0 : s.last = some .to0HelloAck → s.data.nonce3 ≠ none
  to1 : s.last = some .to1HelloRVAck → s.data.nonce4 ≠ none ∧ s.data.guid ≠ none

theorem rv_order (h : Hist R c B cfg idOf aead encode) :
    ∀ rq a, accept (RvServer.reached R c B cfg idOf aead encode h) rq = some a → RvOrder (R := R) (B := B) (cfg := cfg) a.sess := by
  refine (Http.session_invariant (RvServer.move R B) (Sv := Srv) B.empty
    (fun _ _ s => RvOrder (R := R) (B := B) (cfg := cfg) s) ?_ ?_ ?_ h).2
  · intro i h
    exact ⟨fun hn => (nomatch hn), fun hn => (nomatch hn)⟩
  · intro i h e s q _
    exact q
  · intro h rq a w resp data keys ha hh _ q
    obtain ⟨hh, _⟩ := server_handle hh
    obtain ⟨_, hcases⟩ := accepted_cases ha
    rcases hcases with ⟨_, hom, hr⟩ | ⟨_, hom, to0d, to1d, hr, _⟩ | ⟨_, hom, g, sg, inf, hr, _⟩ | ⟨_, hom, hr⟩
    · rw [hr] at hh
      simp only [RvServer.handle, hello, Prod.mk.injEq] at hh
      obtain ⟨_, hh⟩ := hh
      split at hh
      · cases hh
      · simp only [Option.some.injEq, Prod.mk.injEq] at hh
        obtain ⟨_, rfl⟩ := hh
        exact ⟨fun _ => nofun, fun hl => by rw [hom] at hl; cases hl⟩
    · refine ⟨fun hl => ?_, fun hl => ?_⟩ <;> rw [hom] at hl <;> cases hl
    · rw [hr] at hh
      simp only [RvServer.handle, helloRv] at hh
      split at hh
      · cases hh
      split at hh
      · cases hh
      split at hh
      · split at hh
        · cases hh
        · cases hh
          exact ⟨fun hl => (by rw [hom] at hl; cases hl), fun _ => ⟨nofun, nofun⟩⟩
      · cases hh
    · refine ⟨fun hl => ?_, fun hl => ?_⟩ <;> rw [hom] at hl <;> cases hl

/-- **C95**, whatever happened before: a rendezvous server's handlers tell of a sequence failure just if it is none. It is the store that
failed. -/
theorem C95_rendezvous_order (h : Hist R c B cfg idOf aead encode) {rq : Request Srv} {a : Accepted Srv} {t : MsgType}
    (ha : accept (RvServer.reached R c B cfg idOf aead encode h) rq = some a)
    (hw : rvWhy R c B cfg rq.oracle a.req a.sess.data (RvServer.reached R c B cfg idOf aead encode h).world =
      some (some (.own 101 t "Request sequence failure"))) :
    rq.type = .to1ProveToRV ∧ ∃ g e, a.sess.data.guid.bind parseGuid = some g ∧
      (B.load rq.oracle.now (RvServer.reached R c B cfg idOf aead encode h).world (guidText g)).2 = .err e := by
  have q := rv_order h rq a ha
  have hp := accepted_prev ha
  obtain ⟨_, hcases⟩ := accepted_cases ha
  rcases hcases with ⟨_, _, hr⟩ | ⟨ht, _, to0d, to1d, hr, _⟩ | ⟨_, _, g, sg, inf, hr, _⟩ | ⟨ht, _, hr⟩
  · rw [hr] at hw
    replace hw : helloWhy rq.oracle = _ := hw
    unfold helloWhy at hw
    split at hw
    · simp [fromError] at hw
    · cases hw
  · rw [hr] at hw
    rw [ht] at hp
    have hl : a.sess.last = some .to0HelloAck := by simpa [MsgType.validPrev] using hp
    obtain ⟨code', text', e, hc⟩ := C95_registration (show ownersignWhy R c B cfg rq.oracle to0d to1d a.sess.data _ = _ from hw)
    cases e
    generalize hx : (101, "Request sequence failure") = x at hc
    cases hc with
    | sequence hn => exact absurd hn (q.to0 hl)
    | _ => exact absurd (congrArg Prod.snd hx) (by decide)
  · rw [hr] at hw
    replace hw : helloRvWhy R B rq.oracle g sg inf _ = _ := hw
    unfold helloRvWhy at hw
    repeat' split at hw
    all_goals simp [fromError] at hw
  · have hr' : ∃ token, a.req = .prove token := ⟨_, hr⟩
    obtain ⟨token, hr'⟩ := hr'
    rw [hr'] at hw
    rw [ht] at hp
    have hl : a.sess.last = some .to1HelloRVAck := by simpa [MsgType.validPrev] using hp
    refine ⟨ht, ?_⟩
    replace hw : proveToRvWhy R c B rq.oracle token a.sess.data _ = _ := hw
    unfold proveToRvWhy at hw
    split at hw
    · rename_i hn; exact absurd hn (q.to1 hl).1
    split at hw
    · cases hw
    split at hw
    · rename_i hn; exact absurd hn (q.to1 hl).2
    rename_i gt hg
    split at hw
    · cases hw
    rename_i g hpg
    split at hw
    · cases hw
    · rename_i e he
      exact ⟨g, e, by rw [hg]; exact hpg, he⟩
    · simp at hw
    · repeat' split at hw
      all_goals simp at hw

end

/-! ### Owner server -/

section
open Verif.OwnerServer hiding handle server move reached decode
variable {R : OwnerEnv} {c : Bool} {B : VStore (Voucher R.E)} {cfg : Config R}
  {Id : Type} [DecidableEq Id] {idOf : List Char → Option Id} {aead : Aead} {encode : Resp → Bytes}

local notation "Srv" => OwnerServer.server R c B cfg Id idOf aead encode

/-- What the last answer says about the session. -/
structure To2Order (s : Sess Srv) : Prop where
  begun : s.last = some .to2ProveOVHdr ∨ s.last = some .to2OVNextEntry →
    s.data.guid ≠ none ∧ s.data.nonce6 ≠ none ∧ s.data.kex ≠ none ∧ s.data.cipher ≠ none
  proved : s.last = some .to2SetupDevice ∨ s.last = some .to2OwnerServiceInfoReady ∨ s.last = some .to2OwnerServiceInfo →
    s.data.proven = true ∧ s.data.guid ≠ none ∧ s.data.nonce6 ≠ none ∧ s.data.nonce7 ≠ none

theorem to2_order (h : Hist R c B cfg idOf aead encode) :
    ∀ rq a, accept (OwnerServer.reached R c B cfg idOf aead encode h) rq = some a → To2Order (R := R) (B := B) (cfg := cfg) a.sess := by
  refine (Http.session_invariant (OwnerServer.move B cfg) (Sv := Srv) B.empty
    (fun _ _ s => To2Order (R := R) (B := B) (cfg := cfg) s) ?_ ?_ ?_ h).2
  · intro i h
    exact ⟨fun hn => (by rcases hn with h | h <;> cases h), fun hn => (by rcases hn with h | h | h <;> cases h)⟩
  · intro i h e s q _
    exact q
  · intro h rq a w resp data keys ha hh _ q
    have hpv := accepted_prev ha
    rw [server_handle] at hh
    rcases accepted_cases ha with ⟨ht, hom, hlast, hkeys, m, hr, hm⟩ | ⟨ht, hom, hkeys, n, hr, hn⟩ |
      ⟨ht, hom, hkeys, hr⟩ | ⟨ht, hom, hr⟩ | ⟨ht, hom, k, plain, si, hk, hp, hsi, hr⟩ |
      ⟨ht, hom, k, plain, n, hk, hp, hn, hr⟩
    · rw [hr] at hh
      simp only [OwnerServer.handle, Prod.mk.injEq] at hh
      obtain ⟨_, hh⟩ := hh
      obtain ⟨hx, rfl⟩ := keep_some hh
      obtain ⟨_, n, key, random, token, v, _, _, _, _, _, _, _, hs⟩ := helloDevice_some
        (w' := (helloDevice R B cfg rq.oracle m rq.body a.sess.data _).1) (Prod.ext rfl hx)
      refine ⟨fun _ => by rw [hs]; exact ⟨nofun, nofun, nofun, nofun⟩, fun hl => ?_⟩
      rw [hom] at hl
      rcases hl with h | h | h <;> cases h
    · rw [hr] at hh
      rw [ht] at hpv
      simp only [OwnerServer.handle, Prod.mk.injEq] at hh
      obtain ⟨_, hh⟩ := hh
      obtain ⟨hx, rfl⟩ := keep_some hh
      obtain ⟨rfl, _⟩ := getEntry_some
        (w' := (getEntry R c B rq.oracle n a.sess.data _).1) (Prod.ext rfl hx)
      refine ⟨fun _ => q.begun (by simpa [MsgType.validPrev] using hpv), fun hl => ?_⟩
      rw [hom] at hl
      rcases hl with h | h | h <;> cases h
    · rw [hr] at hh
      simp only [OwnerServer.handle] at hh
      obtain ⟨t, g, n6, kx, cs, v, k, n7, b, key, g2, tk, htx, _, hn, _, _, _, _, _, _, _, _, _,
        _, hs⟩ := proveDevice_some hh
      refine ⟨fun hl => ?_, fun _ => ?_⟩
      · rw [hom] at hl
        rcases hl with h | h <;> cases h
      · rw [hs]
        exact ⟨rfl, by rw [htx]; exact nofun, by rw [hn]; exact nofun, nofun⟩
    · rw [hr] at hh
      rw [ht] at hpv
      simp only [OwnerServer.handle, Prod.mk.injEq] at hh
      obtain ⟨_, hh⟩ := hh
      split at hh
      · simp only [Option.some.injEq, Prod.mk.injEq] at hh
        obtain ⟨_, rfl, _⟩ := hh
        refine ⟨fun hl => ?_, fun _ => q.proved (.inl (by simpa [MsgType.validPrev] using hpv))⟩
        rw [hom] at hl
        rcases hl with h | h <;> cases h
      · cases hh
    · rw [hr] at hh
      rw [ht] at hpv
      simp only [OwnerServer.handle, Prod.mk.injEq] at hh
      obtain ⟨_, hh⟩ := hh
      obtain ⟨hx, rfl⟩ := keep_some hh
      have q' := q.proved (.inr (by simpa [MsgType.validPrev] using hpv))
      unfold deviceSi at hx
      split at hx
      · cases hx
      split at hx
      · cases hx
      split at hx
      · cases hx
      split at hx
      · cases hx
      cases hx
      refine ⟨fun hl => ?_, fun _ => q'⟩
      rw [hom] at hl
      rcases hl with h | h <;> cases h
    · refine ⟨fun hl => ?_, fun hl => ?_⟩
      · rw [hom] at hl
        rcases hl with h | h <;> cases h
      · rw [hom] at hl
        rcases hl with h | h | h <;> cases h

/-- **C95**, whatever happened before: an owner server's handlers never tell a device of a sequence failure. -/
theorem C95_owner_order (h : Hist R c B cfg idOf aead encode) {rq : Request Srv} {a : Accepted Srv} {code : Nat} {t : MsgType}
    (ha : accept (OwnerServer.reached R c B cfg idOf aead encode h) rq = some a) :
    ownerWhy R c B cfg rq.oracle a.req a.sess.data (OwnerServer.reached R c B cfg idOf aead encode h).world ≠
      some (some (.own code t "Request sequence failure")) := by
  intro hw
  have q := to2_order h rq a ha
  have hpv := accepted_prev ha
  obtain ⟨code', t', text', e, hc⟩ := C95_owner_partial hw
  cases e
  generalize hx : (code, "Request sequence failure") = x at hc
  rcases accepted_cases ha with ⟨ht, _, _, _, m, hr, _⟩ | ⟨ht, _, _, n, hr, _⟩ |
    ⟨ht, _, _, hr⟩ | ⟨ht, _, hr⟩ | ⟨ht, _, k, plain, si, _, _, _, hr⟩ | ⟨ht, _, k, plain, n, _, _, _, hr⟩
  · rw [hr] at hc
    cases hc <;> exact absurd (congrArg Prod.snd hx) (by dsimp only; decide)
  · rw [hr] at hc
    rw [ht] at hpv
    have q' := q.begun (by simpa [MsgType.validPrev] using hpv)
    cases hc with
    | entrySequence _ h => exact q'.1 h
    | _ => exact absurd (congrArg Prod.snd hx) (by dsimp only; decide)
  · rw [hr] at hc
    rw [ht] at hpv
    have q' := q.begun (.inr (by simpa [MsgType.validPrev] using hpv))
    cases hc with
    | prove _ _ h =>
      cases h with
      | sequence h =>
        rcases h with h | h | h | h
        · exact q'.1 h
        · exact q'.2.1 h
        · exact q'.2.2.1 h
        · exact q'.2.2.2 h
      | _ => exact absurd (congrArg Prod.snd hx) (by dsimp only; decide)
  · rw [hr] at hc
    rw [ht] at hpv
    have q' := q.proved (.inl (by simpa [MsgType.validPrev] using hpv))
    cases hc with
    | ready h => rw [q'.1] at h; cases h
  · rw [hr] at hc
    rw [ht] at hpv
    have q' := q.proved (.inr (by simpa [MsgType.validPrev] using hpv))
    cases hc with
    | siSequence _ h =>
      rcases h with h | h
      · rw [q'.1] at h; cases h
      · exact q'.2.1 h
    | _ => exact absurd (congrArg Prod.snd hx) (by dsimp only; decide)
  · rw [hr] at hc
    rw [ht] at hpv
    have q' := q.proved (.inr (.inr (by simpa [MsgType.validPrev] using hpv)))
    cases hc with
    | doneSequence _ h =>
      rcases h with h | h | h | h
      · rw [q'.1] at h; cases h
      · exact q'.2.2.1 h
      · exact q'.2.1 h
      · exact q'.2.2.2 h
    | _ => exact absurd (congrArg Prod.snd hx) (by dsimp only; decide)

end
end Verif.Errors

import Verif.Spec.OwnerServer
import Verif.Lemmas.RvServer
/-!
Facts about the handlers of the owner onboarding server, used by `Props/OwnerServer`.
-/
namespace Verif.OwnerServer
open Verif Verif.Voucher Verif.Store Verif.Types Verif.ServiceInfo

section
variable {R : OwnerEnv} {c : Bool} {B : VStore (Voucher R.E)} {cfg : Config R}

theorem voucherKey_some {v : Voucher R.E} {k : R.E.Pub} (h : voucherKey R v = some k) : DeviceKeyOf R v k := by
  unfold voucherKey at h
  split at h
  · cases h
  rename_i ch hch
  split at h
  · cases h
  rename_i leaf hl
  cases hc : R.certs ch with
  | nil => rw [hc] at hl; cases hl
  | cons x r =>
    rw [hc] at hl
    cases hl
    exact ⟨ch, leaf, r, hch, hc, h⟩

theorem checkToken_some {token : Bytes} {k : R.E.Pub} {n6 n7 b : Bytes}
    (h : checkToken R c token k n6 = some (n7, b)) :
    SignedProof R c token k n6 b ∧ Attached R c token n7 := by
  unfold checkToken at h
  cases hp : parseSign1 R.E c token with
  | err e => rw [hp] at h; cases h
  | panic => rw [hp] at h; cases h
  | ok s =>
    rw [hp] at h
    simp only at h
    split at h
    · rename_i n7' hn7
      split at h
      · rename_i eat he
        split at h
        · rename_i b' hb
          split at h
          · cases h
          rename_i hne
          simp only [Option.some.injEq, Prod.mk.injEq] at h
          obtain ⟨rfl, rfl⟩ := h
          refine ⟨?_, s, hp, hn7⟩
          unfold RvServer.getEat at he
          rw [Res.bind_eq_ok] at he
          obtain ⟨s', hs', he⟩ := he
          have hss : s' = s := by rw [hp] at hs'; exact (Res.ok.inj hs').symm
          subst hss
          split at he
          · rename_i hv
            rw [Res.bind_eq_ok] at he
            obtain ⟨cl, hcl, he⟩ := he
            obtain ⟨cn, cu, cp⟩ := cl
            have hcl := ofOpt_eq_ok.1 hcl
            unfold RvServer.eatFromMap at he
            split at he
            · cases he
            rename_i n hn
            split at he
            · cases he
            split at he
            · rename_i g hg
              cases he
              simp only at hn hb hne
              subst hn
              rw [Option.bind_eq_some_iff] at hb
              obtain ⟨p, hp1, hp2⟩ := hb
              subst hp1
              have hne : n = n6 := by simpa using hne
              subst hne
              exact ⟨s', cu, p, hp, hv, hcl, hp2⟩
            · cases he
            · cases he
          · cases he
        · cases h
      · cases h
    · cases h
  
theorem helloDevice_some {o : Oracle R} {m : Hello} {body : Bytes} {s : Data R} {w w' : B.W} {r : Resp} {s' : Data R}
    (h : helloDevice R B cfg o m body s w = (w', some (r, s'))) :
    m.guid.length = 16 ∧ ∃ n key random token v, o.nonce6 = some n ∧ o.kex = some (key, random) ∧
      m.sigType ≠ .other ∧ m.sigInfo = [] ∧
      (B.load o.now w (guidText m.guid)).2 = .ok (some v) ∧
      proveHdrToken R cfg v m body n (newKex m.kex key random) = .ok token ∧ r = .proveOvHdr token ∧
      s' = { s with guid := some (guidText m.guid), nonce6 := some n, cipher := some m.cipher,
                    kex := some (newKex m.kex key random) } := by
  unfold helloDevice at h
  split at h
  · cases h
  rename_i k hk
  obtain ⟨hg, rfl⟩ := RvServer.guidKey_some hk
  refine ⟨hg, ?_⟩
  split at h
  · rename_i w1 v hl
    simp only [Prod.mk.injEq] at h
    obtain ⟨_, h⟩ := h
    unfold helloReply at h
    split at h
    · cases h
    rename_i hsig
    rw [not_or] at hsig
    split at h
    · rename_i key random n hkex hn
      split at h
      · rename_i token ht
        simp only [Option.some.injEq, Prod.mk.injEq] at h
        obtain ⟨rfl, rfl⟩ := h
        exact ⟨n, key, random, token, v, hn, hkex, hsig.1, by simpa using hsig.2, by rw [hl], ht, rfl, rfl⟩
      · cases h
    · cases h
  · cases h

theorem getEntry_some {o : Oracle R} {n : Nat} {s : Data R} {w w' : B.W} {r : Resp} {s' : Data R}
    (h : getEntry R c B o n s w = (w', some (r, s'))) :
    s' = s ∧ ∃ t g v e, s.guid = some t ∧ RvServer.parseGuid t = some g ∧
      (B.load o.now w (guidText g)).2 = .ok (some v) ∧ entry c v n = .ok e ∧ r = .ovEntry n e := by
  unfold getEntry at h
  split at h
  · cases h
  rename_i g hg
  rw [Option.bind_eq_some_iff] at hg
  obtain ⟨t, ht, hg⟩ := hg
  split at h
  · rename_i w1 v hl
    split at h
    · rename_i e he
      simp only [Prod.mk.injEq, Option.some.injEq] at h
      obtain ⟨_, rfl, rfl⟩ := h
      exact ⟨rfl, t, g, v, e, ht, hg, by rw [hl], he, rfl⟩
    · cases h
  · cases h

theorem proveDevice_some {o : Oracle R} {token : Bytes} {s : Data R} {w w' : B.W} {r : Resp} {s' : Data R}
    {ks : Option Http.Keys} (h : proveDevice R c B cfg o token s w = (w', some (r, s', ks))) :
    ∃ t g n6 kx cs v k n7 b key g2 tk, s.guid = some t ∧ RvServer.parseGuid t = some g ∧ s.nonce6 = some n6 ∧
      s.kex = some kx ∧ s.cipher = some cs ∧ (B.load o.now w (guidText g)).2 = .ok (some v) ∧
      voucherKey R v = some k ∧ checkToken R c token k n6 = some (n7, b) ∧
      kx.deriveKey .owner cs o.nonInterop b = .ok key ∧ o.newGuid = some g2 ∧ setupToken R cfg g2 n7 = .ok tk ∧
      r = .setupDevice tk ∧ ks = some ⟨cs, key⟩ ∧
      s' = { s with kex := none, cipher := none, nonce7 := some n7, proven := true } := by
  unfold proveDevice at h
  split at h
  · rename_i g n6 kx cs hg hn hk hc
    rw [Option.bind_eq_some_iff] at hg
    obtain ⟨t, ht, hg⟩ := hg
    split at h
    · rename_i w1 v hl
      simp only [Prod.mk.injEq] at h
      obtain ⟨_, h⟩ := h
      unfold proveWith at h
      split at h
      · cases h
      rename_i k hvk
      split at h
      · cases h
      rename_i n7 b hct
      split at h
      · rename_i key hkey
        split at h
        · cases h
        rename_i g2 hg2
        split at h
        · rename_i tk htk
          simp only [Option.some.injEq, Prod.mk.injEq] at h
          obtain ⟨rfl, rfl, rfl⟩ := h
          exact ⟨t, g, n6, kx, cs, v, k, n7, b, key, g2, tk, ht, hg, hn, hk, hc, by rw [hl], hvk, hct, hkey, hg2, htk,
            rfl, rfl, rfl⟩
        · cases h
      · cases h
    · cases h
  · cases h

theorem deviceSi_some {o : Oracle R} {si : ServiceInfo} {s : Data R} {r : Resp} {s' : Data R}
    (h : deviceSi R o si s = some (r, s')) :
    s.proven = true ∧ s.loops.getD 0 ≤ maxLoops ∧ ∃ t g m, s.guid = some t ∧ RvServer.parseGuid t = some g ∧
      perform R.encVal R.decVal o.api (guidText g) si (s.loops.getD 0) = some m ∧ r = .ownerSi m ∧
      s' = { s with loops := some (s.loops.getD 0 + 1) } := by
  unfold deviceSi at h
  split at h
  · cases h
  rename_i hp
  split at h
  · cases h
  rename_i g hg
  rw [Option.bind_eq_some_iff] at hg
  obtain ⟨t, ht, hg⟩ := hg
  split at h
  · cases h
  rename_i hl
  split at h
  · cases h
  rename_i m hm
  simp only [Option.some.injEq, Prod.mk.injEq] at h
  obtain ⟨rfl, rfl⟩ := h
  exact ⟨by simpa using hp, by omega, t, g, m, ht, hg, hm, rfl, rfl⟩

/-- What `done` does, whether it succeeds or not: it either leaves the store alone, or sets the mark of the
session's GUID after all checks. -/
theorem doneTo2_cases (o : Oracle R) (n : Bytes) (s : Data R) (w : B.W) :
    doneTo2 R B o n s w = (w, none) ∨
    ∃ t g n7, s.proven = true ∧ s.nonce6 = some n ∧ s.guid = some t ∧ RvServer.parseGuid t = some g ∧
      s.nonce7 = some n7 ∧ (doneTo2 R B o n s w).1 = (B.setTo2 o.now w (guidText g)).1 ∧
      (((B.setTo2 o.now w (guidText g)).2 = .ok () ∧
          (doneTo2 R B o n s w).2 = some (.done2 n7, { s with nonce7 := none })) ∨
        ((B.setTo2 o.now w (guidText g)).2 ≠ .ok () ∧ (doneTo2 R B o n s w).2 = none)) := by
  unfold doneTo2
  split
  · exact .inl rfl
  rename_i hp
  split
  · exact .inl rfl
  rename_i n6 hn
  split
  · exact .inl rfl
  rename_i hne
  have hne : n6 = n := by simpa using hne
  subst hne
  split
  · rename_i g n7 hg h7
    rw [Option.bind_eq_some_iff] at hg
    obtain ⟨t, ht, hg⟩ := hg
    refine .inr ⟨t, g, n7, by simpa using hp, hn, ht, hg, h7, ?_⟩
    cases hs : B.setTo2 o.now w (guidText g) with
    | mk w' r =>
      cases r with
      | ok u => cases u; exact ⟨rfl, .inl ⟨rfl, rfl⟩⟩
      | err e => exact ⟨rfl, .inr ⟨by simp, rfl⟩⟩
      | panic => exact ⟨rfl, .inr ⟨by simp, rfl⟩⟩
  · exact .inl rfl

theorem keep_some {k ks : Option Http.Keys} {x : Option (Resp × Data R)} {r : Resp} {s : Data R}
    (h : keep R k x = some (r, s, ks)) : x = some (r, s) ∧ ks = k := by
  unfold keep at h
  split at h
  · cases h
  · simp only [Option.some.injEq, Prod.mk.injEq] at h
    obtain ⟨rfl, rfl, rfl⟩ := h
    exact ⟨rfl, rfl⟩

end

end Verif.OwnerServer

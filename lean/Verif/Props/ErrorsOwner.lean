import Verif.Model.ErrorsOwner
import Verif.Props.ErrorsRv
/-!
**C95** for the owner onboarding server: the reason a device is given for a refusal is the true one.
-/
namespace Verif.Errors
open Verif Verif.Http
open Verif.Voucher Verif.Store Verif.Types
open Verif.OwnerServer hiding handle server move reached decode

/-! ### Specification -/

section
variable (R : OwnerEnv) (c : Bool) (B : VStore (Voucher R.E)) (cfg : Config R)

/-- The voucher of the session's device is in the store. -/
def Has (now : Nat) (s : Data R) (w : B.W) (v : Voucher R.E) : Prop :=
  ∃ g, s.guid.bind RvServer.parseGuid = some g ∧ (B.load now w (guidText g)).2 = .ok (some v)

/-- The key is that of the first certificate of the voucher's chain. -/
def DeviceKey (v : Voucher R.E) (k : R.E.Pub) : Prop :=
  ∃ ch leaf, v.chain = some ch ∧ (R.certs ch).head? = some leaf ∧ R.leafKey leaf = some k

/-- A token is signed by a key; these are its nonce and its payload. -/
def SignedClaims (token : Bytes) (k : R.E.Pub) (n : Bytes) (p : Option Bytes) : Prop :=
  ∃ s u, parseSign1 R.E c token = .ok s ∧ R.E.verify k s.prot s.payload s.sig = true ∧ R.decClaims s.payload = some (some n, u, p)

/-- What must be the case when TO2.ProveDevice is refused for a reason. -/
inductive ProveCause (o : Oracle R) (s : Data R) (w : B.W) (token : Bytes) : Nat × String → Prop
  | sequence : s.guid = none ∨ s.nonce6 = none ∨ s.kex = none ∨ s.cipher = none →
      ProveCause o s w token (101, "Request sequence failure")
  | gone (g : Bytes) : s.guid.bind RvServer.parseGuid = some g → (B.load o.now w (guidText g)).2 = .ok none →
      ProveCause o s w token (6, "Device not found")
  | noChain (v : Voucher R.E) : Has R B o.now s w v → v.chain = none →
      ProveCause o s w token (101, "Device certificate chain not supported")
  | noLeaf (v : Voucher R.E) (ch : R.E.Chain) : Has R B o.now s w v → v.chain = some ch → R.certs ch = [] →
      ProveCause o s w token (101, "Device certificate not supported")
  | noNonce7 (t : Sign1) : parseSign1 R.E c token = .ok t → R.euphNonce t.unprot = some none →
      ProveCause o s w token (101, "Missing nonce7")
  | noPayload (v : Voucher R.E) (k : R.E.Pub) (n : Bytes) : Has R B o.now s w v → DeviceKey R v k → SignedClaims R c token k n none →
      ProveCause o s w token (101, "Missing payload")
  | nonce (v : Voucher R.E) (k : R.E.Pub) (n : Bytes) (p : Bytes) : Has R B o.now s w v → DeviceKey R v k →
      SignedClaims R c token k n (some p) → s.nonce6 ≠ some n → ProveCause o s w token (101, "Nonce invalid")
  | unreadable : (∀ t, parseSign1 R.E c token ≠ .ok t) ∨ (∃ t, parseSign1 R.E c token = .ok t ∧ R.euphNonce t.unprot = none) →
      ProveCause o s w token (500, "Internal server error")
  | signature (v : Voucher R.E) (k : R.E.Pub) : Has R B o.now s w v → DeviceKey R v k →
      (∀ eat, RvServer.getEat R.toRvEnv c token k ≠ .ok eat) → ProveCause o s w token (500, "Internal server error")
  | payload (k : R.E.Pub) (n p : Bytes) : SignedClaims R c token k n (some p) → R.decProve p = none →
      ProveCause o s w token (500, "Internal server error")
  | kex (kx : KeyExchange R.K) (cs : CipherSuite) (k : R.E.Pub) (n p b : Bytes) : s.kex = some kx → s.cipher = some cs →
      SignedClaims R c token k n (some p) → R.decProve p = some b → (∀ x, kx.deriveKey .owner cs o.nonInterop b ≠ .ok x) →
      ProveCause o s w token (500, "Internal server error")
  | key (v : Voucher R.E) : Has R B o.now s w v → (∀ k, ¬ DeviceKey R v k) → ProveCause o s w token (500, "Internal server error")
  | store (g : Bytes) (e : SErr) : s.guid.bind RvServer.parseGuid = some g → (B.load o.now w (guidText g)).2 = .err e →
      ProveCause o s w token (500, "Internal server error")
  | signing (g2 n7 : Bytes) : o.newGuid = some g2 → (∀ t, setupToken R cfg g2 n7 ≠ .ok t) →
      ProveCause o s w token (500, "Internal server error")

/-- What must be the case when a request is refused by a handler of the owner server, for a reason: code and text. -/
inductive To2Cause (o : Oracle R) (s : Data R) (w : B.W) : Req → Nat × String → Prop
  | unknown (m : Hello) (body : Bytes) : (B.load o.now w (guidText m.guid)).2 = .ok none →
      To2Cause o s w (.hello m body) (6, "Device not found")
  | info (m : Hello) (body : Bytes) : m.sigType = .other ∨ m.sigInfo ≠ [] → To2Cause o s w (.hello m body) (100, "Invalid signature info")
  | hello (m : Hello) (body : Bytes) : (∃ e, (B.load o.now w (guidText m.guid)).2 = .err e) ∨ o.kex = none ∨ o.nonce6 = none ∨
        (∃ v n kx, (B.load o.now w (guidText m.guid)).2 = .ok (some v) ∧ ∀ t, proveHdrToken R cfg v m body n kx ≠ .ok t) →
      To2Cause o s w (.hello m body) (500, "Internal server error")
  | entrySequence (n : Nat) : s.guid = none → To2Cause o s w (.getEntry n) (101, "Request sequence failure")
  | entryGone (n : Nat) (g : Bytes) : s.guid.bind RvServer.parseGuid = some g → (B.load o.now w (guidText g)).2 = .ok none →
      To2Cause o s w (.getEntry n) (6, "Device not found")
  | entryStore (n : Nat) (g : Bytes) (e : SErr) : s.guid.bind RvServer.parseGuid = some g → (B.load o.now w (guidText g)).2 = .err e →
      To2Cause o s w (.getEntry n) (500, "Internal server error")
  | prove (token : Bytes) (x : Nat × String) : ProveCause R c B cfg o s w token x → To2Cause o s w (.prove token) x
  | ready : s.proven = false → To2Cause o s w .ready (101, "Request sequence failure")
  | siSequence (si : ServiceInfo) : s.proven = false ∨ s.guid = none → To2Cause o s w (.deviceSi si) (101, "Request sequence failure")
  | siLoops (si : ServiceInfo) (n : Nat) : s.loops = some n → 1000 < n →
      To2Cause o s w (.deviceSi si) (101, "Too many serviceinfo loops performed")
  | siFails (si : ServiceInfo) (g : Bytes) : s.guid.bind RvServer.parseGuid = some g → s.loops.getD 0 = 0 →
      ServiceInfo.moduleList R.decVal si = none ∨ (∃ ms, ServiceInfo.moduleList R.decVal si = some ms ∧
        ((o.api (ServiceInfo.apiQuery (guidText g) ms)).bind ServiceInfo.replyItems) = none) →
      To2Cause o s w (.deviceSi si) (500, "Error handling serviceinfo")
  | doneSequence (n : Bytes) : s.proven = false ∨ s.nonce6 = none ∨ s.guid = none ∨ s.nonce7 = none →
      To2Cause o s w (.done n) (101, "Request sequence failure")
  | doneNonce (n n6 : Bytes) : s.nonce6 = some n6 → n6 ≠ n → To2Cause o s w (.done n) (101, "Nonce6 invalid")
  | doneStore (n g : Bytes) (e : SErr) : s.guid.bind RvServer.parseGuid = some g → (B.setTo2 o.now w (guidText g)).2 = .err e →
      To2Cause o s w (.done n) (500, "Internal server error")

end

/-! ### The model of errors belongs to that of the handlers -/

section
variable {R : OwnerEnv} {c : Bool} {B : VStore (Voucher R.E)} {cfg : Config R} {o : Oracle R} {s : Data R} {w : B.W}

theorem helloDevice_why {m : Hello} {body : Bytes} :
    (helloDevice R B cfg o m body s w).2.isSome = true ↔ helloDeviceWhy R B cfg o m body w = some none := by
  unfold helloDevice helloDeviceWhy
  cases RvServer.guidKey m.guid with
  | none => simp
  | some k =>
    simp only
    rcases B.load o.now w k with ⟨w', q⟩
    cases q with
    | err e => simp
    | panic => simp
    | ok v =>
      cases v with
      | none => simp
      | some v =>
        simp only
        unfold helloReply
        split
        · simp
        · cases o.kex with
          | none => simp
          | some x =>
            obtain ⟨key, random⟩ := x
            cases o.nonce6 with
            | none => simp
            | some n =>
              simp only
              cases proveHdrToken R cfg v m body n (newKex m.kex key random) <;> simp

theorem getEntry_why {n : Nat} : (getEntry R c B o n s w).2.isSome = true ↔ getEntryWhy R c B o n s w = some none := by
  unfold getEntry getEntryWhy
  cases s.guid with
  | none => simp
  | some g =>
    simp only [Option.bind_some]
    cases RvServer.parseGuid g with
    | none => simp
    | some g =>
      simp only
      rcases B.load o.now w (guidText g) with ⟨w', q⟩
      cases q with
      | err e => simp
      | panic => simp
      | ok v =>
        cases v with
        | none => simp
        | some v =>
          simp only
          cases entry c v n <;> simp

theorem proveWith_why {token n6 : Bytes} {kx : KeyExchange R.K} {cs : CipherSuite} {v : Voucher R.E} :
    (proveWith R c cfg o token n6 kx cs v s).isSome = true ↔
      (voucherKeyWhy R v fun k => checkTokenWhy R c token k n6 (setupWhy R cfg o kx cs)) = some none := by
  unfold proveWith voucherKeyWhy voucherKey
  cases v.chain with
  | none => simp
  | some ch =>
    simp only
    cases (R.certs ch).head? with
    | none => simp
    | some leaf =>
      simp only
      cases R.leafKey leaf with
      | none => simp
      | some k =>
        simp only
        unfold checkToken checkTokenWhy
        cases parseSign1 R.E c token with
        | err e => simp
        | panic => simp
        | ok t =>
          simp only
          cases R.euphNonce t.unprot with
          | none => simp
          | some q =>
            cases q with
            | none => simp
            | some n7 =>
              simp only
              cases RvServer.getEat R.toRvEnv c token k with
              | err e => simp
              | panic => simp
              | ok eat =>
                simp only
                cases eat.payload with
                | none => simp
                | some p =>
                  simp only [Option.bind_some]
                  cases R.decProve p with
                  | none => simp
                  | some b =>
                    simp only
                    by_cases hn : eat.nonce ≠ n6
                    · simp [if_pos hn]
                    · rw [if_neg hn, if_neg hn]
                      simp only
                      unfold setupWhy
                      cases kx.deriveKey .owner cs o.nonInterop b with
                      | err e => simp
                      | panic => simp
                      | ok key =>
                        simp only
                        cases o.newGuid with
                        | none => simp
                        | some g2 =>
                          simp only
                          cases setupToken R cfg g2 n7 <;> simp

theorem proveDevice_why {token : Bytes} :
    (proveDevice R c B cfg o token s w).2.isSome = true ↔ proveDeviceWhy R c B cfg o token s w = some none := by
  unfold proveDevice proveDeviceWhy
  cases s.guid with
  | none => simp
  | some g =>
    simp only [Option.bind_some]
    cases RvServer.parseGuid g with
    | none => simp
    | some g =>
      cases s.nonce6 with
      | none => simp
      | some n6 =>
        cases s.kex with
        | none => simp
        | some kx =>
          cases s.cipher with
          | none => simp
          | some cs =>
            simp only
            rcases B.load o.now w (guidText g) with ⟨w', q⟩
            cases q with
            | err e => simp
            | panic => simp
            | ok v =>
              cases v with
              | none => simp
              | some v => exact proveWith_why

theorem deviceSi_why {si : ServiceInfo} : (deviceSi R o si s).isSome = true ↔ deviceSiWhy R o si s = some none := by
  unfold deviceSi deviceSiWhy
  split
  · simp
  · cases s.guid with
    | none => simp
    | some g =>
      simp only [Option.bind_some]
      cases RvServer.parseGuid g with
      | none => simp
      | some g =>
        simp only
        split
        · simp
        · cases Verif.ServiceInfo.perform R.encVal R.decVal o.api (guidText g) si (s.loops.getD 0) <;> simp

theorem keep_isSome {k : Option Keys} {q : Option (Resp × Data R)} : (keep R k q).isSome = q.isSome := by
  cases q <;> rfl

/-- The owner server answers just if there is no reason not to. -/
theorem owner_why {r : Req} {k : Option Keys} :
    (OwnerServer.handle R c B cfg o r s k w).2.isSome = true ↔ ownerWhy R c B cfg o r s w = some none := by
  cases r with
  | hello m body =>
    show (keep R k _).isSome = true ↔ _
    rw [keep_isSome]
    exact helloDevice_why
  | getEntry n =>
    show (keep R k _).isSome = true ↔ _
    rw [keep_isSome]
    exact getEntry_why
  | prove t => exact proveDevice_why
  | ready =>
    show (if s.proven then some (Resp.ownerReady, s, k) else none).isSome = true ↔ readyWhy R s = some none
    unfold readyWhy
    split <;> simp
  | deviceSi si =>
    show (keep R k _).isSome = true ↔ _
    rw [keep_isSome]
    exact deviceSi_why
  | done n =>
    show (keep R k _).isSome = true ↔ _
    rw [keep_isSome]
    exact done_why

/-! ### The reasons are true -/

theorem eat_claims {token : Bytes} {k : R.E.Pub} {eat : RvServer.Eat} (h : RvServer.getEat R.toRvEnv c token k = .ok eat) :
    SignedClaims R c token k eat.nonce eat.payload := by
  unfold RvServer.getEat at h
  rw [Res.bind_eq_ok] at h
  obtain ⟨s, hs, h⟩ := h
  split at h
  · rename_i hv
    rw [Res.bind_eq_ok] at h
    obtain ⟨cl, hcl, h⟩ := h
    have hcl := ofOpt_eq_ok.1 hcl
    unfold RvServer.eatFromMap at h
    split at h
    · cases h
    rename_i n hn
    split at h
    · cases h
    split at h
    · cases h
      obtain ⟨a, b, d⟩ := cl
      simp only at hn
      subst hn
      exact ⟨s, b, hs, hv, hcl⟩
    · cases h
    · cases h
  · cases h

theorem key_none {v : Voucher R.E} {ch : R.E.Chain} {leaf : R.C.Cert} (h1 : v.chain = some ch) (h2 : (R.certs ch).head? = some leaf)
    (h3 : R.leafKey leaf = none) (k : R.E.Pub) : ¬ DeviceKey R v k := by
  rintro ⟨ch', leaf', a, b, d⟩
  rw [h1] at a
  cases a
  rw [h2] at b
  cases b
  rw [h3] at d
  cases d

/-- **C95**, proofs by devices: each reason for refusing one is true. -/
theorem C95_proof {token : Bytes} {x : Rejection} (h : proveDeviceWhy R c B cfg o token s w = some (some x)) :
    ∃ code t text, x = .own code t text ∧ (t = .to2ProveDevice ∨ t = .to2GetOVNextEntry ∧ code = 101 ∧ text = "Request sequence failure") ∧
      ProveCause R c B cfg o s w token (code, text) := by
  unfold proveDeviceWhy at h
  split at h
  · rename_i hg
    cases h
    exact ⟨_, _, _, rfl, .inl rfl, .sequence (.inl hg)⟩
  rename_i g hg
  split at h
  · cases h
  rename_i g' hp
  have hgg : s.guid.bind RvServer.parseGuid = some g' := by rw [hg]; exact hp
  split at h
  · rename_i hn
    cases h
    exact ⟨_, _, _, rfl, .inl rfl, .sequence (.inr (.inl hn))⟩
  rename_i n6 hn
  split at h
  · rename_i hk
    cases h
    exact ⟨_, _, _, rfl, .inl rfl, .sequence (.inr (.inr (.inl hk)))⟩
  rename_i kx hkx
  split at h
  · rename_i hc
    cases h
    exact ⟨_, _, _, rfl, .inr ⟨rfl, rfl, rfl⟩, .sequence (.inr (.inr (.inr hc)))⟩
  rename_i cs hcs
  split at h
  · cases h
  · rename_i e he
    cases h
    exact ⟨_, _, _, rfl, .inl rfl, .store g' e hgg he⟩
  · rename_i he
    cases h
    exact ⟨_, _, _, rfl, .inl rfl, .gone g' hgg he⟩
  rename_i v hv
  have hhas : Has R B o.now s w v := ⟨g', hgg, hv⟩
  unfold voucherKeyWhy at h
  split at h
  · rename_i hch
    cases h
    exact ⟨_, _, _, rfl, .inl rfl, .noChain v hhas hch⟩
  rename_i ch hch
  split at h
  · rename_i hl
    cases h
    exact ⟨_, _, _, rfl, .inl rfl, .noLeaf v ch hhas hch (List.head?_eq_none_iff.1 hl)⟩
  rename_i leaf hl
  split at h
  · rename_i hk
    cases h
    exact ⟨_, _, _, rfl, .inl rfl, .key v hhas (key_none hch hl hk)⟩
  rename_i k hk
  have hdk : DeviceKey R v k := ⟨ch, leaf, hch, hl, hk⟩
  unfold checkTokenWhy at h
  split at h
  · cases h
  · rename_i e he
    cases h
    exact ⟨_, _, _, rfl, .inl rfl, .unreadable (.inl (by rw [he]; exact nofun))⟩
  rename_i t ht
  split at h
  · rename_i he
    cases h
    exact ⟨_, _, _, rfl, .inl rfl, .unreadable (.inr ⟨t, ht, he⟩)⟩
  · rename_i he
    cases h
    exact ⟨_, _, _, rfl, .inl rfl, .noNonce7 t ht he⟩
  rename_i n7 hn7
  beta_reduce at h
  split at h
  · cases h
  · rename_i e he
    cases h
    exact ⟨_, _, _, rfl, .inl rfl, .signature v k hhas hdk (by rw [he]; exact nofun)⟩
  rename_i eat heat
  have hcl := eat_claims heat
  split at h
  · rename_i hp
    cases h
    rw [hp] at hcl
    exact ⟨_, _, _, rfl, .inl rfl, .noPayload v k _ hhas hdk hcl⟩
  rename_i p hpl
  rw [hpl] at hcl
  split at h
  · rename_i hd
    cases h
    exact ⟨_, _, _, rfl, .inl rfl, .payload k _ p hcl hd⟩
  rename_i b hd
  split at h
  · rename_i hne
    cases h
    refine ⟨_, _, _, rfl, .inl rfl, .nonce v k _ p hhas hdk hcl ?_⟩
    rw [hn]
    intro hh
    cases hh
    exact hne rfl
  unfold setupWhy at h
  split at h
  · cases h
  · rename_i e he
    cases h
    exact ⟨_, _, _, rfl, .inl rfl, .kex kx cs k _ p b hkx hcs hcl hd (by
      intro x hx
      rw [show kx.deriveKey .owner cs o.nonInterop b = _ from he] at hx
      cases hx)⟩
  split at h
  · cases h
  rename_i g2 hg2
  split at h
  · cases h
  · rename_i e he
    cases h
    exact ⟨_, _, _, rfl, .inl rfl, .signing g2 n7 hg2 (by
      intro x hx
      rw [show setupToken R cfg g2 n7 = _ from he] at hx
      cases hx)⟩
  · cases h

/-- **C95**, the owner server: each reason its handlers give is true. -/
theorem C95_owner_partial {r : Req} {x : Rejection} (h : ownerWhy R c B cfg o r s w = some (some x)) :
    ∃ code t text, x = .own code t text ∧ To2Cause R c B cfg o s w r (code, text) := by
  cases r with
  | hello m body =>
    replace h : helloDeviceWhy R B cfg o m body w = _ := h
    unfold helloDeviceWhy at h
    split at h
    · cases h
    rename_i k hk
    unfold RvServer.guidKey at hk
    split at hk
    · cases hk
      split at h
      · cases h
      · rename_i e he
        cases h
        exact ⟨_, _, _, rfl, .hello m body (.inl ⟨e, he⟩)⟩
      · rename_i he
        cases h
        exact ⟨_, _, _, rfl, .unknown m body he⟩
      · rename_i v hv
        split at h
        · rename_i hs
          cases h
          exact ⟨_, _, _, rfl, .info m body hs⟩
        · split at h
          · rename_i key random n _ _
            split at h
            · cases h
            · rename_i e he
              cases h
              exact ⟨_, _, _, rfl, .hello m body (.inr (.inr (.inr ⟨v, n, _, hv, by rw [he]; exact nofun⟩)))⟩
            · cases h
          · rename_i hno
            cases h
            refine ⟨_, _, _, rfl, .hello m body ?_⟩
            cases ha : o.kex with
            | none => exact .inr (.inl rfl)
            | some q =>
              cases hb : o.nonce6 with
              | none => exact .inr (.inr (.inl rfl))
              | some n => exact absurd hb (hno q.1 q.2 n ha)
    · cases hk
  | getEntry n =>
    replace h : getEntryWhy R c B o n s w = _ := h
    unfold getEntryWhy at h
    split at h
    · rename_i hg
      cases h
      exact ⟨_, _, _, rfl, .entrySequence n hg⟩
    rename_i g hg
    split at h
    · cases h
    rename_i g' hp
    have hgg : s.guid.bind RvServer.parseGuid = some g' := by rw [hg]; exact hp
    split at h
    · cases h
    · rename_i e he
      cases h
      exact ⟨_, _, _, rfl, .entryStore n g' e hgg he⟩
    · rename_i he
      cases h
      exact ⟨_, _, _, rfl, .entryGone n g' hgg he⟩
    · split at h <;> cases h
  | prove token =>
    obtain ⟨code, t, text, h1, _, h2⟩ := C95_proof (show proveDeviceWhy R c B cfg o token s w = _ from h)
    exact ⟨code, t, text, h1, .prove token _ h2⟩
  | ready =>
    replace h : readyWhy R s = _ := h
    unfold readyWhy at h
    split at h
    · cases h
    · rename_i hp
      cases h
      exact ⟨_, _, _, rfl, .ready (by simpa using hp)⟩
  | deviceSi si =>
    replace h : deviceSiWhy R o si s = _ := h
    unfold deviceSiWhy at h
    split at h
    · rename_i hp
      cases h
      exact ⟨_, _, _, rfl, .siSequence si (.inl (by simpa using hp))⟩
    split at h
    · rename_i hg
      cases h
      exact ⟨_, _, _, rfl, .siSequence si (.inr hg)⟩
    rename_i g hg
    split at h
    · cases h
    rename_i g' hp
    have hgg : s.guid.bind RvServer.parseGuid = some g' := by rw [hg]; exact hp
    split at h
    · rename_i hl
      cases h
      cases hs : s.loops with
      | none => rw [hs] at hl; exact absurd hl (by decide)
      | some n => rw [hs] at hl; exact ⟨_, _, _, rfl, .siLoops si n hs hl⟩
    split at h
    · rename_i hf
      cases h
      refine ⟨_, _, _, rfl, ?_⟩
      unfold Verif.ServiceInfo.perform at hf
      split at hf
      · cases hf
      rename_i h0
      refine .siFails si g' hgg (Classical.not_not.1 h0) ?_
      split at hf
      · rename_i hm; exact .inl hm
      rename_i ms hm
      refine .inr ⟨ms, hm, ?_⟩
      split at hf
      · rename_i ha; rw [ha]; rfl
      · rename_i r ha
        rw [ha]
        exact Option.map_eq_none_iff.1 hf
    · cases h
  | done n =>
    replace h : doneWhy R B o n s w = _ := h
    unfold doneWhy at h
    split at h
    · rename_i hp
      cases h
      exact ⟨_, _, _, rfl, .doneSequence n (.inl (by simpa using hp))⟩
    split at h
    · rename_i hn
      cases h
      exact ⟨_, _, _, rfl, .doneSequence n (.inr (.inl hn))⟩
    rename_i n6 hn
    split at h
    · rename_i hne
      cases h
      exact ⟨_, _, _, rfl, .doneNonce n n6 hn hne⟩
    split at h
    · rename_i hg
      cases h
      exact ⟨_, _, _, rfl, .doneSequence n (.inr (.inr (.inl hg)))⟩
    rename_i g hg
    split at h
    · cases h
    rename_i g' hp
    have hgg : s.guid.bind RvServer.parseGuid = some g' := by rw [hg]; exact hp
    split at h
    · rename_i h7
      cases h
      exact ⟨_, _, _, rfl, .doneSequence n (.inr (.inr (.inr h7)))⟩
    split at h
    · cases h
    · rename_i w' e he
      cases h
      exact ⟨_, _, _, rfl, .doneStore n g' e hgg (by rw [he])⟩
    · cases h

/-! ### What is told belongs to the message -/

/-- The message of a request. -/
def to2Type : Req → MsgType
  | .hello _ _ => .to2HelloDevice
  | .getEntry _ => .to2GetOVNextEntry
  | .prove _ => .to2ProveDevice
  | .ready => .to2DeviceServiceInfoReady
  | .deviceSi _ => .to2DeviceServiceInfo
  | .done _ => .to2Done

theorem decode_to2 {t : MsgType} {b : Bytes} {r : Req} (h : OwnerServer.decode R c t b = some r) : to2Type r = t := by
  unfold OwnerServer.decode at h
  split at h
  · obtain ⟨_, _, rfl⟩ := Option.map_eq_some_iff.1 h; rfl
  · obtain ⟨_, _, rfl⟩ := Option.map_eq_some_iff.1 h; rfl
  · split at h
    · cases h; rfl
    · cases h
  · split at h
    · cases h; rfl
    · cases h
  · obtain ⟨_, _, rfl⟩ := Option.map_eq_some_iff.1 h; rfl
  · obtain ⟨_, _, rfl⟩ := Option.map_eq_some_iff.1 h; rfl
  · cases h

theorem owner_from {r : Req} {x : Rejection} (h : ownerWhy R c B cfg o r s w = some (some x)) : fromHandler (to2Type r) x = true := by
  cases r with
  | hello m body =>
    replace h : helloDeviceWhy R B cfg o m body w = _ := h
    show fromHandler .to2HelloDevice x = true
    unfold helloDeviceWhy at h
    repeat' split at h
    all_goals first | (cases h; done) | (cases h; decide)
  | getEntry n =>
    replace h : getEntryWhy R c B o n s w = _ := h
    show fromHandler .to2GetOVNextEntry x = true
    unfold getEntryWhy at h
    repeat' split at h
    all_goals first | (cases h; done) | (cases h; decide)
  | prove token =>
    replace h : proveDeviceWhy R c B cfg o token s w = _ := h
    show fromHandler .to2ProveDevice x = true
    obtain ⟨code, t, text, rfl, ht, hc⟩ := C95_proof h
    rcases ht with rfl | ⟨rfl, rfl, rfl⟩
    · cases hc <;> decide
    · decide
  | ready =>
    replace h : readyWhy R s = _ := h
    show fromHandler .to2DeviceServiceInfoReady x = true
    unfold readyWhy at h
    split at h <;> cases h
    decide
  | deviceSi si =>
    replace h : deviceSiWhy R o si s = _ := h
    show fromHandler .to2DeviceServiceInfo x = true
    unfold deviceSiWhy at h
    repeat' split at h
    all_goals first | (cases h; done) | (cases h; decide)
  | done n => exact (C94_done_violated (show doneWhy R B o n s w = _ from h) 0).1

section server
variable {Id : Type} [DecidableEq Id] {idOf : List Char → Option Id} {aead : Aead} {encode : Resp → Bytes}

/-- **C95**, for requests to an owner server: one that its handler refuses is answered with a reason that is true, and with nothing but
that reason. -/
theorem C95_to2_partial {σ : St (OwnerServer.server R c B cfg Id idOf aead encode)}
    {rq : Request (OwnerServer.server R c B cfg Id idOf aead encode)} {a : Accepted (OwnerServer.server R c B cfg Id idOf aead encode)}
    {x : Rejection} (ha : accept σ rq = some a) (h : ownerWhy R c B cfg rq.oracle a.req a.sess.data σ.world = some (some x)) :
    (step σ rq).2 = .reject ∧ why σ rq x = some x ∧ told x ∈ outcomes rq.type ∧
      ∃ code t text, x = .own code t text ∧ To2Cause R c B cfg rq.oracle a.sess.data σ.world a.req (code, text) := by
  have hnone : (OwnerServer.handle R c B cfg rq.oracle a.req a.sess.data a.sess.keys σ.world).2 = none := by
    cases hq : (OwnerServer.handle R c B cfg rq.oracle a.req a.sess.data a.sess.keys σ.world).2 with
    | none => rfl
    | some y =>
      have := owner_why.1 (show (OwnerServer.handle R c B cfg rq.oracle a.req a.sess.data a.sess.keys σ.world).2.isSome = true by rw [hq]; rfl)
      rw [this] at h
      cases h
  have hw : why σ rq x = some x := by
    unfold why
    rw [ha]
    simp only
    rcases hh : OwnerServer.handle R c B cfg rq.oracle a.req a.sess.data a.sess.keys σ.world with ⟨w', q⟩
    rw [hh] at hnone
    cases hnone
    rfl
  have ht : to2Type a.req = rq.type := by
    unfold accept at ha
    split at ha
    · cases ha
    split at ha
    · cases ha
    split at ha
    · cases ha
    split at ha
    · cases ha
    split at ha
    · cases ha
    rename_i req hp
    cases ha
    unfold parseRequest at hp
    split at hp
    · cases hp
    split at hp
    · cases hp
    split at hp
    · cases hp
    exact decode_to2 hp
  have hf := owner_from h
  rw [ht] at hf
  exact ⟨(C94_refused σ rq x).2 ⟨x, hw⟩, hw, why_outcome hf hw, C95_owner_partial h⟩

end server

/-! ### What fails -/

/-- What fails: whoever presents a token that the device did not sign is told of an internal error of the server, if of anything. -/
theorem C95_signature_violated {token : Bytes} {v : Voucher R.E} {k : R.E.Pub} {t : Sign1} {n7 : Bytes}
    (h1 : Has R B o.now s w v) (h2 : s.nonce6.isSome = true) (h3 : s.kex.isSome = true) (h4 : s.cipher.isSome = true)
    (h5 : DeviceKey R v k) (h6 : parseSign1 R.E c token = .ok t) (h7 : R.euphNonce t.unprot = some (some n7))
    (h8 : R.E.verify k t.prot t.payload t.sig = false) :
    proveDeviceWhy R c B cfg o token s w = some (some (.own 500 .to2ProveDevice "Internal server error")) := by
  obtain ⟨g, hg, hl⟩ := h1
  obtain ⟨ch, leaf, hc, hh, hk⟩ := h5
  have he : RvServer.getEat R.toRvEnv c token k = .err .crypto := by
    unfold RvServer.getEat
    rw [h6, Res.bind_ok, if_neg (by rw [h8]; exact nofun)]
  unfold proveDeviceWhy
  cases a1 : s.guid with
  | none => rw [a1] at hg; cases hg
  | some gt =>
    rw [a1] at hg
    simp only [Option.bind_some] at hg
    cases a2 : s.nonce6 with
    | none => rw [a2] at h2; cases h2
    | some n6 =>
      cases a3 : s.kex with
      | none => rw [a3] at h3; cases h3
      | some kx =>
        cases a4 : s.cipher with
        | none => rw [a4] at h4; cases h4
        | some cs =>
          simp only [hg, hl]
          unfold voucherKeyWhy checkTokenWhy
          simp only [hc, hh, hk, h6, h7, he]
          rfl

end
end Verif.Errors

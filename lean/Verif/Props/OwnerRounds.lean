import Verif.Props.OwnerServer
/-!
Property C39: the service info exchange ends.
-/
namespace Verif.OwnerServer
open Verif Verif.Voucher Verif.Store Verif.Types Verif.ServiceInfo

section
variable {R : OwnerEnv} {c : Bool} {B : VStore (Voucher R.E)} {cfg : Config R}
  {Id : Type} [DecidableEq Id] {idOf : List Char → Option Id} {aead : Http.Aead} {encode : Resp → Bytes}

local notation "Srv" => server R c B cfg Id idOf aead encode
local notation "Histories" => Hist R c B cfg idOf aead encode
local notation "Rounds" => rounds R c B cfg idOf aead encode
local notation "Hellos" => SaysHello R c B cfg idOf aead encode

/-- All requests but HelloDevice need a stored session. -/
theorem accepted_stored {σ : Http.St Srv} {rq : Http.Request Srv} {a : Http.Accepted Srv}
    (ha : Http.accept σ rq = some a) (ht : rq.type ≠ .to2HelloDevice) : σ.sessions a.id = some a.sess := by
  obtain ⟨_, hf, hv, _⟩ := Http.accept_eq_some ha
  rcases Http.findSession_cases hf with ⟨_, _, _, _, h3⟩ | ⟨_, _, h3, _⟩
  · exact h3
  · exfalso
    rw [h3] at hv
    have hv : rq.type.validPrev none = true := hv
    rcases accepted_cases ha with ⟨h, _⟩ | ⟨h, _⟩ | ⟨h, _⟩ | ⟨h, _⟩ | ⟨h, _⟩ | ⟨h, _⟩
    · exact ht h
    all_goals rw [h] at hv; revert hv; decide

/-- What a request other than HelloDevice does to its session: it is left alone, or the count of rounds stays, or
a round is served. -/
theorem handled {σ : Http.St Srv} {rq : Http.Request Srv} {a : Http.Accepted Srv}
    (ha : Http.accept σ rq = some a) (ht : rq.type ≠ .to2HelloDevice) {w : B.W} {resp : Resp} {data : Data R}
    {keys : Option Http.Keys} (hh : handle R c B cfg rq.oracle a.req a.sess.data a.sess.keys σ.world = (w, some (resp, data, keys))) :
    (a.om ≠ .to2OwnerServiceInfo ∧ data.loops = a.sess.data.loops) ∨
    (a.om = .to2OwnerServiceInfo ∧ a.sess.data.loops.getD 0 ≤ maxLoops ∧
      data.loops = some (a.sess.data.loops.getD 0 + 1) ∧ keys = a.sess.keys ∧ (∃ k, keys = some k) ∧
      ∃ m, resp = .ownerSi m ∧ (a.sess.data.loops.getD 0 ≠ 0 → m = ⟨false, true, []⟩) ∧
        (a.sess.data.loops.getD 0 = 0 → m.isMore = false ∧ m.isDone = false)) := by
  rcases accepted_cases ha with ⟨h, _⟩ | ⟨ht, hom, hkeys, n, hr, hn⟩ |
      ⟨ht, hom, hkeys, hr⟩ | ⟨ht, hom, hr⟩ | ⟨ht, hom, k, plain, si, hk, hp, hsi, hr⟩ |
      ⟨ht, hom, k, plain, n, hk, hp, hn, hr⟩
  · exact absurd h ht
  · refine .inl ⟨by rw [hom]; decide, ?_⟩
    rw [hr] at hh
    simp only [handle, Prod.mk.injEq] at hh
    obtain ⟨hw, hh⟩ := hh
    obtain ⟨hx, rfl⟩ := keep_some hh
    obtain ⟨rfl, _⟩ := getEntry_some (w' := (getEntry R c B rq.oracle n a.sess.data _).1) (Prod.ext rfl hx)
    rfl
  · refine .inl ⟨by rw [hom]; decide, ?_⟩
    rw [hr] at hh
    simp only [handle] at hh
    obtain ⟨t, g, n6, kx, cs, v, k, n7, b, key, g2, tk, _, _, _, _, _, _, _, _, _, _, _, _, _, rfl⟩ := proveDevice_some hh
    rfl
  · refine .inl ⟨by rw [hom]; decide, ?_⟩
    rw [hr] at hh
    simp only [handle, Prod.mk.injEq] at hh
    obtain ⟨hw, hh⟩ := hh
    split at hh
    · simp only [Option.some.injEq, Prod.mk.injEq] at hh
      obtain ⟨_, rfl, rfl⟩ := hh
      rfl
    · cases hh
  · rw [hr] at hh
    simp only [handle, Prod.mk.injEq] at hh
    obtain ⟨hw, hh⟩ := hh
    obtain ⟨hx, rfl⟩ := keep_some hh
    obtain ⟨_, hle, t, g, m, _, _, hpf, rfl, rfl⟩ := deviceSi_some hx
    refine .inr ⟨hom, hle, rfl, rfl, ⟨k, hk⟩, m, rfl, ?_, ?_⟩
    · intro h0
      unfold perform at hpf
      rw [if_pos h0] at hpf
      exact (Option.some.inj hpf).symm
    · intro h0
      unfold perform at hpf
      rw [if_neg (by simpa using h0)] at hpf
      split at hpf
      · cases hpf
      split at hpf
      · cases hpf
      rw [Option.map_eq_some_iff] at hpf
      obtain ⟨l, _, rfl⟩ := hpf
      exact ⟨rfl, rfl⟩
  · refine .inl ⟨by rw [hom]; decide, ?_⟩
    rw [hr] at hh
    simp only [handle, Prod.mk.injEq] at hh
    obtain ⟨hw, hh⟩ := hh
    obtain ⟨hx, rfl⟩ := keep_some hh
    rcases doneTo2_cases (B := B) rq.oracle n a.sess.data σ.world with
      hd | ⟨t, g, n7, hpv, hn6, htx, hg, hn7, _, hd | hd⟩
    · rw [hd] at hx; cases hx
    · rw [hd.2] at hx
      simp only [Option.some.injEq, Prod.mk.injEq] at hx
      obtain ⟨_, rfl⟩ := hx
      rfl
    · rw [hd.2] at hx; cases hx

/-- How many rounds a session may still be served. -/
def left (σ : Http.St Srv) (i : Id) : Nat :=
  match σ.sessions i with
  | none => 0
  | some s => (maxLoops + 1) - s.data.loops.getD 0

theorem left_le (σ : Http.St Srv) (i : Id) : left σ i ≤ maxLoops + 1 := by
  unfold left
  split
  · omega
  · exact Nat.sub_le _ _

theorem rounds_left (i : Id) (h : Histories) (σ : Http.St Srv) (hn : ¬ Hellos i σ h) : Rounds i σ h ≤ left σ i := by
  induction h generalizing σ with
  | nil => exact Nat.zero_le _
  | cons e r ih =>
    simp only [SaysHello, not_or] at hn
    obtain ⟨hn1, hn2⟩ := hn
    have ih := ih _ hn2
    simp only [rounds]
    cases e with
    | internal m =>
      simp only [Nat.zero_add]
      exact ih
    | expire j =>
      simp only [Nat.zero_add]
      refine Nat.le_trans ih ?_
      unfold left
      simp only [Http.after]
      split
      · exact Nat.zero_le _
      · rename_i s hs
        split at hs
        · cases hs
        · rw [hs]
          exact Nat.le_refl _
    | request rq =>
      simp only at hn1 ⊢
      simp only [Http.after] at ih
      simp only [Http.after]
      rcases Http.step_sessions σ rq with ⟨hs, hno⟩ | ⟨a, w, resp, data, keys, ha, hh, hs, hr⟩
      · rw [if_neg (fun hx => by obtain ⟨_, b, tok, hx⟩ := hx; exact hno _ _ _ hx)]
        have : left (Http.step σ rq).1 i = left σ i := by unfold left; rw [hs]
        omega
      · by_cases hi : i = a.id
        · subst hi
          have ht : rq.type ≠ .to2HelloDevice := fun ht => hn1 ⟨ht, a, ha, rfl⟩
          have hst := accepted_stored ha ht
          have l1 : left (Http.step σ rq).1 a.id = (maxLoops + 1) - data.loops.getD 0 := by
            unfold left
            rw [hs, if_pos rfl]
          have l2 : left σ a.id = (maxLoops + 1) - a.sess.data.loops.getD 0 := by
            unfold left
            rw [hst]
          rcases handled ha ht hh with ⟨hom, hl⟩ | ⟨hom, hle, hl, _⟩
          · rw [if_neg, l2, ← hl, ← l1]
            · omega
            · rintro ⟨_, b, tok, hx⟩
              obtain ⟨a', _, _, _, _, ha', _, _, hom', _⟩ := Http.step_ok hx
              rw [ha] at ha'
              cases ha'
              exact hom hom'.symm
          · rw [hl] at l1
            simp only [Option.getD_some] at l1
            split <;> omega
        · have : left (Http.step σ rq).1 i = left σ i := by
            unfold left
            rw [hs, if_neg hi]
          rw [if_neg]
          · omega
          · rintro ⟨⟨a', ha', hid⟩, _⟩
            rw [ha] at ha'
            cases ha'
            exact hi hid.symm

theorem rounds_append (i : Id) (h h' : Histories) (σ : Http.St Srv) :
    Rounds i σ (h ++ h') = Rounds i σ h + Rounds i (Http.replay (move B cfg) σ h) h' := by
  induction h generalizing σ with
  | nil => simp [rounds, Http.replay]
  | cons e r ih =>
    simp only [List.cons_append, rounds, Http.replay]
    rw [ih]
    omega

/-- **C39**, with 1001 for the maximum of 1000 rounds: in any stretch of any history in which session `i` is not
started anew, at most 1001 rounds of service info are served in it. -/
theorem C39_rounds_partial (i : Id) (σ : Http.St Srv) (h : Histories) (hn : ¬ Hellos i σ h) :
    Rounds i σ h ≤ maxLoops + 1 :=
  Nat.le_trans (rounds_left i h σ hn) (left_le σ i)

/-- **C39** for whole histories in which session `i` is started once. -/
theorem C39_session_partial (i : Id) (w : B.W) (h1 : Histories) (rq : Http.Request Srv) (h2 : Histories)
    (hn1 : ¬ Hellos i (Http.start w) h1)
    (hn2 : ¬ Hellos i (Http.replay (move B cfg) (Http.start w) (h1 ++ [.request rq])) h2) :
    Rounds i (Http.start w) (h1 ++ .request rq :: h2) ≤ maxLoops + 1 := by
  have e : h1 ++ .request rq :: h2 = (h1 ++ [.request rq]) ++ h2 := by simp
  have z : left (Http.start w : Http.St Srv) i = 0 := rfl
  have r1 := rounds_left i h1 _ hn1
  rw [e, rounds_append, rounds_append]
  have r2 := C39_rounds_partial i _ h2 hn2
  by_cases hh : rq.type = .to2HelloDevice
  · have : Rounds i (Http.replay (move B cfg) (Http.start w) h1) [.request rq] = 0 := by
      simp only [rounds, Nat.add_zero]
      rw [if_neg]
      rintro ⟨_, b, tok, hx⟩
      obtain ⟨a', _, _, _, _, ha', _, _, hom', _⟩ := Http.step_ok hx
      rcases accepted_cases ha' with ⟨h, hom, _⟩ | ⟨h, _⟩ | ⟨h, _⟩ | ⟨h, _⟩ | ⟨h, _⟩ | ⟨h, _⟩
      · rw [hom] at hom'; cases hom'
      all_goals rw [hh] at h; cases h
    omega
  · have hn3 : ¬ Hellos i (Http.replay (move B cfg) (Http.start w) h1) (.request rq :: h2) := by
      simp only [SaysHello, not_or]
      refine ⟨fun hx => hh hx.1, ?_⟩
      rw [Http.replay_snoc] at hn2
      exact hn2
    have r3 := C39_rounds_partial i _ _ hn3
    have e2 := rounds_append i [.request rq] h2 (Http.replay (move B cfg) (Http.start w) h1)
    rw [List.singleton_append, ← Http.replay_append] at e2
    omega

/-- A round was served in session `i`: its session says so, or is gone. -/
def Served (σ : Http.St Srv) (i : Id) : Prop := ∀ s, σ.sessions i = some s → s.data.loops.getD 0 ≠ 0

theorem served_stays (i : Id) (h : Histories) (σ : Http.St Srv) (hn : ¬ Hellos i σ h) (hs : Served σ i) :
    Served (Http.replay (move B cfg) σ h) i := by
  induction h generalizing σ with
  | nil => exact hs
  | cons e r ih =>
    simp only [SaysHello, not_or] at hn
    obtain ⟨hn1, hn2⟩ := hn
    refine ih _ hn2 ?_
    cases e with
    | internal m => exact hs
    | expire j =>
      intro s h
      simp only [Http.after] at h
      split at h
      · cases h
      · exact hs s h
    | request rq =>
      simp only at hn1
      intro s h
      simp only [Http.after] at h
      rcases Http.step_sessions σ rq with ⟨hst, hno⟩ | ⟨a, w, resp, data, keys, ha, hh, hst, hr⟩
      · rw [hst] at h
        exact hs s h
      · rw [hst] at h
        split at h
        · rename_i hi
          have ht : rq.type ≠ .to2HelloDevice := fun ht => hn1 ⟨ht, a, ha, hi.symm⟩
          have hold := hs _ (by rw [hi]; exact accepted_stored ha ht)
          cases h
          rcases handled ha ht hh with ⟨_, hl⟩ | ⟨_, _, hl, _⟩
          · simp only [hl]
            exact hold
          · simp only [hl, Option.getD_some]
            omega
        · exact hs s h

/-- **C39** (finish): once a round was answered in session `i`, every later answer in it (the session not being
started anew) is an empty message which tells the device that the exchange is finished. -/
theorem C39_finish (i : Id) (σ : Http.St Srv) (rq : Http.Request Srv) (hi : Http.InSession σ rq i) (b : Bytes)
    (tok : Option (List Char)) (hr : (Http.step σ rq).2 = .ok .to2OwnerServiceInfo b tok) (h : Histories)
    (hn : ¬ Hellos i (Http.step σ rq).1 h) (rq' : Http.Request Srv)
    (hi' : Http.InSession (Http.replay (move B cfg) (Http.step σ rq).1 h) rq' i) (b' : Bytes)
    (tok' : Option (List Char))
    (hr' : (Http.step (Http.replay (move B cfg) (Http.step σ rq).1 h) rq').2 = .ok .to2OwnerServiceInfo b' tok') :
    ∃ s k, (Http.replay (move B cfg) (Http.step σ rq).1 h).sessions i = some s ∧ s.keys = some k ∧
      aead.encrypt k.sevk rq'.iv (encode (.ownerSi ⟨false, true, []⟩)) = some b' := by
  have hserved : Served (Http.step σ rq).1 i := by
    intro s h
    rcases Http.step_sessions σ rq with ⟨_, hno⟩ | ⟨a, w, resp, data, keys, ha, hh, hst, hr2⟩
    · exact absurd hr (hno _ _ _)
    · obtain ⟨a', ha', hid⟩ := hi
      rw [ha] at ha'
      cases ha'
      obtain ⟨a', _, _, _, _, ha', _, _, hom', _⟩ := Http.step_ok hr
      rw [ha] at ha'
      cases ha'
      have ht : rq.type ≠ .to2HelloDevice := by
        intro ht
        rcases accepted_cases ha with ⟨h, hom, _⟩ | ⟨h, _⟩ | ⟨h, _⟩ | ⟨h, _⟩ | ⟨h, _⟩ | ⟨h, _⟩
        · rw [hom] at hom'; cases hom'
        all_goals rw [ht] at h; cases h
      rw [hst, if_pos hid.symm] at h
      cases h
      rcases handled ha ht hh with ⟨hom, _⟩ | ⟨_, _, hl, _⟩
      · exact absurd hom'.symm hom
      · simp only [hl, Option.getD_some]
        omega
  have hlater := served_stays i h _ hn hserved
  obtain ⟨a, w, resp, data, keys, ha, hh, hso, hom, henc, hck⟩ := Http.step_ok hr'
  obtain ⟨a', ha', hid⟩ := hi'
  rw [ha] at ha'
  cases ha'
  have ht : rq'.type ≠ .to2HelloDevice := by
    intro ht
    rcases accepted_cases ha with ⟨h, hom', _⟩ | ⟨h, _⟩ | ⟨h, _⟩ | ⟨h, _⟩ | ⟨h, _⟩ | ⟨h, _⟩
    · rw [hom'] at hom; cases hom
    all_goals rw [ht] at h; cases h
  have hst := accepted_stored ha ht
  rw [server_handle] at hh
  rcases handled ha ht hh with ⟨hom', _⟩ | ⟨_, _, _, hk, ⟨k, hkk⟩, m, hm, hdone, _⟩
  · exact absurd hom.symm hom'
  · have := hdone (hlater _ (by rw [← hid]; exact hst))
    subst this
    refine ⟨a.sess, k, by rw [← hid]; exact hst, by rw [← hk]; exact hkk, ?_⟩
    rw [hkk, hm] at henc
    exact henc

/-! The maximum is exceeded by one -/

/-- What a device has to send for its rounds to be served: the session is the one its token names, and the
request decrypts and decodes. -/
structure Asks (rq : Http.Request Srv) (i : Id) (k : Http.Keys) : Prop where
  type : rq.type = .to2DeviceServiceInfo
  size : rq.body.length ≤ 16384
  content : rq.cborContent = true
  auth : ∃ hdr, rq.auth = some hdr ∧ idOf (Http.bearer hdr) = some i
  store : rq.storeOk = true
  plain : ∃ plain si, aead.decrypt k.sevk rq.body = some plain ∧ R.decDeviceSi plain = some si
  encrypts : ∀ m, aead.encrypt k.sevk rq.iv (encode (.ownerSi m)) ≠ none

theorem serve {σ : Http.St Srv} {rq : Http.Request Srv} {i : Id} {k : Http.Keys} {s : Http.Sess Srv} {n : Nat} {g : Bytes}
    (ask : Asks rq i k) (hs : σ.sessions i = some s) (hk : s.keys = some k)
    (hl : s.last = some .to2OwnerServiceInfo ∨ s.last = some .to2OwnerServiceInfoReady)
    (hp : s.data.proven = true) (hg : s.data.guid = some (guidText g)) (hg16 : g.length = 16)
    (hn : s.data.loops.getD 0 = n) (h1 : 1 ≤ n) (h2 : n ≤ maxLoops) :
    Http.InSession σ rq i ∧ (∃ b, (Http.step σ rq).2 = .ok .to2OwnerServiceInfo b none) ∧
    (Http.step σ rq).1.sessions i =
      some ⟨some .to2OwnerServiceInfo, some k, { s.data with loops := some (n + 1) }⟩ := by
  obtain ⟨hdr, ha1, ha2⟩ := ask.auth
  obtain ⟨plain, si, hpl, hsi⟩ := ask.plain
  have hacc : Http.accept σ rq = some ⟨.to2OwnerServiceInfo, i, s, none, .deviceSi si⟩ := by
    have hroute : Http.routeOf ownerRoutes rq.type = some .to2OwnerServiceInfo := by
      rw [ask.type]; decide
    have hfind : Http.findSession σ rq = some (i, s, none) := by
      unfold Http.findSession
      simp only [ha1]
      simp only [ha2, hs]
    have hparse : Http.parseRequest (Sv := Srv) rq.type s rq.body = some (.deviceSi si) := by
      unfold Http.parseRequest
      have hv : rq.type.validPrev s.last = true := by
        rw [ask.type]
        rcases hl with hl | hl <;> rw [hl] <;> decide
      have he : Http.encOk rq.type s.keys = true := by
        rw [ask.type, hk]; rfl
      rw [hv, he, hk]
      simp only [Http.decryptWith, hpl, ask.type]
      simp only [Bool.not_true, Bool.false_eq_true, if_false]
      simp only [decode, hsi]
      rfl
    unfold Http.accept
    simp only [hroute, hfind, hparse, ask.content]
    rw [if_neg (by have := ask.size; omega)]
    rfl
  have hh : handle R c B cfg rq.oracle (.deviceSi si) s.data s.keys σ.world =
      (σ.world, some (.ownerSi ⟨false, true, []⟩, { s.data with loops := some (n + 1) }, some k)) := by
    have hd : deviceSi R rq.oracle si s.data = some (.ownerSi ⟨false, true, []⟩, { s.data with loops := some (n + 1) }) := by
      unfold deviceSi
      simp only [hp, hg, hn, Bool.not_true, Bool.false_eq_true, if_false, Option.bind_some]
      rw [RvServer.parseGuid_of hg16]
      simp only
      rw [if_neg (by omega)]
      unfold perform
      rw [if_pos (by omega)]
    simp only [handle, hd, keep, hk]
  refine ⟨⟨_, hacc, rfl⟩, ?_, ?_⟩
  · unfold Http.step
    rw [hacc]
    simp only
    rw [hh]
    simp only [ask.store, Bool.not_true, Bool.false_eq_true, if_false]
    unfold Http.respond
    cases he : aead.encrypt k.sevk rq.iv (encode (.ownerSi ⟨false, true, []⟩)) with
    | none => exact absurd he (ask.encrypts _)
    | some b =>
      refine ⟨b, ?_⟩
      simp only [Http.encryptWith, he]
      rfl
  · unfold Http.step
    rw [hacc]
    simp only
    rw [hh]
    simp only [ask.store, Bool.not_true, Bool.false_eq_true, if_false, Http.putSession, if_true]

/-- The maximum of **C39** is exceeded: whatever the session, 1000 further rounds are served after the first, if
the device asks for them. -/
theorem C39_maximum_violated (rq : Http.Request Srv) (i : Id) (k : Http.Keys) (ask : Asks rq i k) (σ : Http.St Srv)
    (s : Http.Sess Srv) (g : Bytes) (hs : σ.sessions i = some s) (hk : s.keys = some k)
    (hl : s.last = some .to2OwnerServiceInfo) (hp : s.data.proven = true) (hg : s.data.guid = some (guidText g))
    (hg16 : g.length = 16) (hn : s.data.loops = some 1) :
    Rounds i σ (List.replicate maxLoops (.request rq)) = maxLoops := by
  have main : ∀ (m n : Nat) (σ : Http.St Srv) (s : Http.Sess Srv), σ.sessions i = some s → s.keys = some k →
      s.last = some .to2OwnerServiceInfo → s.data.proven = true → s.data.guid = some (guidText g) →
      s.data.loops = some n → 1 ≤ n → n + m ≤ maxLoops + 1 →
      Rounds i σ (List.replicate m (.request rq)) = m := by
    intro m
    induction m with
    | zero => intros; rfl
    | succ m ih =>
      intro n σ s hs hk hl hp hg hn h1 hle
      obtain ⟨a1, ⟨b, a2⟩, a3⟩ := serve (n := n) ask hs hk (.inl hl) hp hg hg16 (by rw [hn]; rfl) h1 (by omega)
      simp only [List.replicate_succ, rounds]
      rw [if_pos ⟨a1, b, none, a2⟩]
      simp only [Http.after]
      rw [ih (n + 1) _ _ a3 rfl rfl hp hg rfl (by omega) (by omega)]
      omega
  exact main maxLoops 1 σ s hs hk hl hp hg hn (by omega) (by omega)

end

end Verif.OwnerServer

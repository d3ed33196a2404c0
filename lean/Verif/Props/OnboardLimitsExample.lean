import Verif.Props.OnboardLimits
import Verif.Props.OnboardExample
/-!
A concrete device and owner which meet the hypotheses of `C59_large_output_violated`.
-/
namespace Verif.Device
open Verif Verif.Voucher Verif.Store Verif.Types Verif.ServiceInfo Verif.Fs Verif.Cbor.Spec

namespace Toy
open Verif.RvServer.Toy (aead guid)
open Verif.Toy (encBytes)

/-- The owner wants to know the output of a program. -/
def ask2 : List Item :=
  [(.command, "active".toList, .bool true), (.command, "command".toList, .text "/bin/logs".toList),
   (.command, "return_stdout".toList, .bool true), (.command, "execute".toList, .bool true)]

def arrives2 (q : Http.Sent) : Http.Request srv1 :=
  ⟨q.type, true, q.auth, q.body, ['s'], [], ⟨100, some (List.replicate 16 6), some ((5 : UInt8), List.replicate 48 2),
    some (List.replicate 16 0xbb), false, fun _ => some ⟨none, some ask2, none⟩⟩, true⟩

/-- The operating system of the device: as in the other example, but programs output 20000 bytes. -/
def answers2 : (e : Op) → Op.Ans env e
  | .host _ (.run _ _ _) => (some ⟨some 0, List.replicate 20000 65, []⟩ : Option SiClient.Output)
  | e => answers e

def W2 : Http.Around srv1 (ops env) Unit := ⟨fun _ q => arrives2 q, fun _ => .good, fun _ => [], fun _ e => ((), answers2 e), fun _ => false⟩

def trace2 : Trace (sig env) := Prog.doings (Http.answer W2) begin1 onboarding
def end2 : Http.Now srv1 Empty Unit × Res (Http.Client × DevErr) Bool := Prog.exec (Http.answer W2) begin1 onboarding

theorem answered2 (e : Op) (a : Op.Ans env e) (h : (⟨.app e, a⟩ : (sig env).Deed) ∈ trace2) : a = answers2 e := by
  obtain ⟨_, h⟩ := Http.run_answers W2 _ _ e a h
  exact h

theorem fortunate2 : Fortunate env (9 : UInt8) trace2 where
  nonce o h := ⟨_, answered2 _ _ h, by simp⟩
  kex o h := ⟨_, _, answered2 _ _ h, by simp⟩
  sign pl o h := ⟨_, _, answered2 _ _ h, by simp, by simp, (by decide : ([9] == [(9 : UInt8)]) = true), fun _ _ => rfl⟩
  create p b h := answered2 _ _ h
  append p x b h := answered2 _ _ h
  remove p b h := answered2 _ _ h
  read p o h := ⟨_, cred, answered2 _ _ h, rfl⟩
  os m o h := ⟨_, answered2 _ _ h⟩

theorem announces2 : Announces env SiClient.Toy.host trace2 := by
  intro sub clevis v h x hx
  have hv : v = "toy".toList := by
    have h : some (some v) = (some (some "toy".toList) : Option (Option (List Char))) := answered2 _ _ h
    exact Option.some.inj (Option.some.inj h)
  subst hv
  have key : (SiClient.devmod SiClient.Toy.host "toy".toList (announced sub clevis)).all (fun x => leaf x.2.2 ||
      match x.2.2 with | .array l => l.all leaf | _ => false) = true := by
    cases sub <;> cases clevis <;> decide +kernel
  have hx := List.all_eq_true.1 key x hx
  rcases Bool.or_eq_true _ _ |>.mp hx with hx | hx
  · exact leaf_val _ hx
  · split at hx
    · rename_i l hl
      rw [hl]
      exact array_val l (List.all_eq_true.1 hx)
    · cases hx

theorem honest2 (v : Voucher sized) (hv : voucher = some v) :
    Honest env true aead encode cfg cred (9 : UInt8) v blob SiClient.Toy.host trace2 where
  codec := codecLaws
  wire := wire
  digests := digests
  agree := agree
  secures := secures
  keys := ownerKeys
  guid := by decide +kernel
  voucher := fits_sound v (by have := voucher_fits; rw [hv] at this; exact this)
  redirect := by decide +kernel
  fortunate := fortunate2
  announces := announces2

theorem bulky : Bulky env where
  bytes b := by
    show b.length ≤ (3 :: b : Bytes).length
    simp
  info si x hx := by
    show x.2.length ≤ (encSi si).length
    rw [encSi_flat]
    exact (flatMap_length _).2 _ (List.mem_flatMap.2 ⟨x, hx, by simp⟩)

theorem instructs2 (sub clevis : Bool) : ∃ l, Instructs env encode (fun _ => some ⟨none, some ask2, none⟩) cred.guid sub clevis l ∧
    Follows SiClient.Toy.host trace2 l := by
  refine ⟨ask2, ⟨_, rfl, rfl, ?_, ?_, by decide +kernel⟩, ?_⟩
  · intro x hx
    simp only [ask2, List.mem_cons, List.not_mem_nil, or_false] at hx
    refine leaf_val x.2.2 ?_
    rcases hx with rfl | rfl | rfl | rfl <;> rfl
  · intro x hx
    simp only [ask2, List.mem_cons, List.not_mem_nil, or_false] at hx
    rcases hx with rfl | rfl | rfl | rfl <;> exact plain_of_known nofun
  · intro u res h hu
    have h : Prog.Ends (.act (.host .command (.run "/bin/logs".toList [] none)) _ : Proc SiClient.sig SiClient.Err _) u res := h
    obtain ⟨a, u1, rfl, h1⟩ := Prog.ends_act h
    have ha : a = (some ⟨some 0, List.replicate 20000 65, []⟩ : Option SiClient.Output) :=
      answered2 (.host .command (.run "/bin/logs".toList [] none)) a (hu _ List.mem_cons_self _ rfl)
    subst ha
    obtain ⟨-, rfl⟩ := Prog.ends_ret h1
    exact ⟨_, rfl⟩

/-- A program was run. -/
def runs : (sig env).Deed → Bool
  | ⟨.app (.host .command (.run _ _ _)), _⟩ => true
  | _ => false

set_option maxRecDepth 100000 in
/-- The hypotheses of `C59_large_output_violated` are met, and the program is run. -/
example : ∃ (v : Voucher sized) (hist : List (Http.Event srv1 Empty)) (r : Res (Http.Client × DevErr) Bool),
    Honest env true aead encode cfg cred (9 : UInt8) v blob SiClient.Toy.host trace2 ∧ Bulky env ∧
    Http.Talk (Sv := srv1) (X := ops env) (fun m _ => m.elim) ⟨fun _ => none, []⟩ (fun _ => false) none [] hist trace2 ∧
    (∀ h1 rq h2, hist = h1 ++ .request rq :: h2 → Serves (c := true) (B := (M1 : OwnerServer.VStore (Voucher env.E))) (cfg := cfg)
      (idOf := some) (A := aead) (encode := encode) (fun _ => false) false cred.guid v SiClient.Toy.host trace2
      (Http.replay (Sv := srv1) (fun m _ => m.elim) ⟨fun _ => none, []⟩ h1) rq) ∧
    (∀ rq, .request rq ∈ hist → ∀ sub clevis l, Instructs env encode rq.oracle.api cred.guid sub clevis l → WantsOutput l) ∧
    (∀ x ∈ SiClient.ran .command (onHost trace2), ∀ o, x.output = some o → 16384 < o.stdout.length) ∧
    Prog.Ends onboarding trace2 r ∧ trace2.any runs = true := by
  cases hv : voucher with
  | none => have := voucher_fits; rw [hv] at this; cases this
  | some v =>
    obtain ⟨hist, h1, h2⟩ := Http.talk_run (M := Empty) (fun m _ => m.elim) ⟨fun _ => none, []⟩ W2 (fun _ q => ⟨rfl, rfl, rfl, rfl, (by decide : ' ' ∉ ['s'])⟩) onboarding begin1 rfl none
    have hrq : ∀ rq, Http.Event.request rq ∈ hist → ∃ q, rq = arrives2 q := by
      intro rq hm
      have hm : Http.Event.request rq ∈ (Prog.exec (Http.answer W2) begin1 onboarding).1.past := by
        rw [h1]; simp [hm]
      rcases Http.run_requests W2 _ _ _ hm with hm | ⟨n, q, rfl⟩
      · cases hm
      · exact ⟨q, rfl⟩
    refine ⟨v, hist, end2.2, honest2 v hv, bulky, h2, ?_, ?_, ?_, Prog.exec_ends _ _ _, by decide +kernel⟩
    · intro g1 rq g2 e
      obtain ⟨q, rfl⟩ := hrq rq (by rw [e]; simp)
      refine ⟨rfl, rfl, ⟨_, rfl, by simp⟩, ⟨_, _, rfl, by simp⟩, ⟨_, rfl, by simp⟩, rfl, rfl, ?_, rfl, instructs2⟩
      exact held v hv _ _ _
    · intro rq hm sub clevis l hl
      obtain ⟨q, rfl⟩ := hrq rq hm
      obtain ⟨rep, e1, e2, -⟩ := hl
      cases e1
      have e2 : some ask2 = some l := e2
      cases e2
      exact ⟨ask2.tail, (by rfl : (SiClient.cmdPieces ask2).1 = [ask2.tail]) ▸ List.mem_singleton.2 rfl, by rfl⟩
    · intro x hx o ho
      obtain ⟨d, hd, hx⟩ := List.mem_flatMap.1 hx
      obtain ⟨d', hd', e⟩ := List.mem_filterMap.1 hd
      match d', e, hd' with
      | ⟨.app (.host m op), a⟩, e, hd' =>
        cases e
        cases op with
        | run p ar i =>
          have ha := answered2 _ _ hd'
          simp only [SiClient.ranOf] at hx
          split at hx
          · cases List.mem_singleton.1 hx
            rw [ha] at ho
            cases ho
            simp
          · cases hx
        | _ => cases hx

/-! ### A voucher whose first entry is not in shortest form -/

/-- The same entry, but the length of its array takes a byte more. -/
def longer (e : Bytes) : Bytes := [0xd2, 0x98, 0x04] ++ e.drop 2

/-- A voucher like the other one, but the manufacturer's program has written its entry in another form. -/
def voucher3 : Option (Voucher sized) :=
  match new header ⟨.hmacSha256, List.replicate 32 2⟩ (some (9 : UInt8)) with
  | .ok v =>
    match extend (E := sized) true v (7 : UInt8) none (11 : UInt8) with
    | (v, .ok ()) =>
      match extend (E := sized) true { v with entries := { v.entries with contents := v.entries.contents.map longer } } (11 : UInt8) none (12 : UInt8) with
      | (v, .ok ()) => some v
      | _ => none
    | _ => none
  | _ => none

/-- `VoucherFor`, except for the form of the entries. -/
structure ValidFor (R : DevEnv) (c : Bool) (cr : Credential.Cred) (dev owner : R.E.Pub) (v : Voucher R.E) : Prop where
  valid : ∃ (hdr : Bytes) (hh : Header R.E) (key : Bytes) (ps : List (Payload R.E)),
    OwnerServer.headerRaw R.toOwnerEnv v = .ok hdr ∧ hdr.length < 2 ^ 32 ∧ Header.deserialize R.E c hdr = .ok hh ∧
    MadeWith R.H cr.keys hdr v.hmac ∧ hh.contents.contents[4]? = some key ∧ Commits R.E cr.keyHash key ∧
    SignChain R.E c (hh.guid ++ hh.deviceInfo.toUTF8.toList) hh.mfgKey (hdr ++ R.E.encHash v.hmac) v.entries.contents ps ∧
    lastOwner hh.mfgKey ps = owner
  nonempty : v.entries.contents ≠ []
  few : v.entries.contents.length ≤ 255
  key : OwnerServer.voucherKey R.toOwnerEnv v = some dev

/-- `fits`, except for the form of the entries. -/
def fits3 (v : Voucher sized) : Bool :=
  (match OwnerServer.headerRaw env.toOwnerEnv v with
  | .ok hdr =>
    match Header.deserialize sized true hdr with
    | .ok hh =>
      match hh.contents.contents[4]?, chain (hh.guid ++ hh.deviceInfo.toUTF8.toList) hh.mfgKey (hdr ++ sized.encHash v.hmac) v.entries.contents with
      | some key, some ps => decide (hdr.length < 2 ^ 32) && decide (v.hmac.value = List.replicate v.hmac.type.digestSize 2) &&
          decide (cred.keyHash.type.isPlain = true ∧ cred.keyHash.value = Verif.Toy.digest cred.keyHash.type key) &&
          decide ((lastOwner hh.mfgKey ps : UInt8) = 12)
      | _, _ => false
    | _ => false
  | _ => false) && decide (v.entries.contents.length ≠ 0) && decide (v.entries.contents.length ≤ 255) &&
    decide ((OwnerServer.voucherKey env.toOwnerEnv v : Option UInt8) = some 9)

theorem fits3_sound (v : Voucher sized) (h : fits3 v = true) : ValidFor env true cred (9 : UInt8) (12 : UInt8) v := by
  unfold fits3 at h
  simp only [Bool.and_eq_true, decide_eq_true_eq] at h
  obtain ⟨⟨⟨h1, h2⟩, h3⟩, h5⟩ := h
  refine ⟨?_, by intro e; rw [e] at h2; exact h2 rfl, h3, h5⟩
  split at h1
  · rename_i hdr e1
    split at h1
    · rename_i hh e2
      split at h1
      · rename_i key ps e3 e4
        simp only [Bool.and_eq_true, decide_eq_true_eq] at h1
        obtain ⟨⟨⟨k1, k2⟩, k3⟩, k4⟩ := h1
        exact ⟨hdr, hh, key, ps, e1, k1, e2, k2, e3, k3, chain_sound _ _ _ _ _ e4, k4⟩
      · cases h1
    · cases h1
  · cases h1

theorem voucher3_fits : (match voucher3 with | some v => fits3 v | none => false) = true := by decide +kernel

abbrev M3 : OwnerServer.VStore (Voucher sized) where
  W := List Name
  empty := []
  load _ w _ := (w, match voucher3 with | some v => .ok (some v) | none => .ok none)
  put w _ _ := (w, .ok ())
  setTo2 _ w k := (k :: w, .ok ())
  setWait _ w _ _ := (w, .ok ())
  maintain _ _ w := w
  pending _ _ _ := .ok []
  ending _ _ := .ok []
  windowCheck := false

abbrev srv3 : Http.Server := OwnerServer.server env.toOwnerEnv true (M3 : OwnerServer.VStore (Voucher env.E)) cfg (List Char) some aead encode

def arrives3 (q : Http.Sent) : Http.Request srv3 :=
  ⟨q.type, true, q.auth, q.body, ['s'], [], ⟨100, some (List.replicate 16 6), some ((5 : UInt8), List.replicate 48 2),
    some (List.replicate 16 0xbb), false, fun _ => some ⟨none, none, some true⟩⟩, true⟩

def W3 : Http.Around srv3 (ops env) Unit := ⟨fun _ q => arrives3 q, fun _ => .good, fun _ => [], fun _ e => ((), answers e), fun _ => false⟩

def begin3 : Http.Now srv3 Empty Unit := ⟨0, [], ⟨fun _ => none, []⟩, ()⟩
def trace3 : Trace (sig env) := Prog.doings (Http.answer W3) begin3 onboarding
def end3 : Http.Now srv3 Empty Unit × Res (Http.Client × DevErr) Bool := Prog.exec (Http.answer W3) begin3 onboarding

theorem answered3 (e : Op) (a : Op.Ans env e) (h : (⟨.app e, a⟩ : (sig env).Deed) ∈ trace3) : a = answers e := by
  obtain ⟨_, h⟩ := Http.run_answers W3 _ _ e a h
  exact h

theorem fortunate3 : Fortunate env (9 : UInt8) trace3 where
  nonce o h := ⟨_, answered3 _ _ h, by simp⟩
  kex o h := ⟨_, _, answered3 _ _ h, by simp⟩
  sign pl o h := ⟨_, _, answered3 _ _ h, by simp, by simp, (by decide : ([9] == [(9 : UInt8)]) = true), fun _ _ => rfl⟩
  create p b h := answered3 _ _ h
  append p x b h := answered3 _ _ h
  remove p b h := answered3 _ _ h
  read p o h := ⟨_, cred, answered3 _ _ h, rfl⟩
  os m o h := ⟨_, answered3 _ _ h⟩

theorem announces3 : Announces env SiClient.Toy.host trace3 := by
  intro sub clevis v h x hx
  have hv : v = "toy".toList := by
    have h : some (some v) = (some (some "toy".toList) : Option (Option (List Char))) := answered3 _ _ h
    exact Option.some.inj (Option.some.inj h)
  subst hv
  have key : (SiClient.devmod SiClient.Toy.host "toy".toList (announced sub clevis)).all (fun x => leaf x.2.2 ||
      match x.2.2 with | .array l => l.all leaf | _ => false) = true := by
    cases sub <;> cases clevis <;> decide +kernel
  have hx := List.all_eq_true.1 key x hx
  rcases Bool.or_eq_true _ _ |>.mp hx with hx | hx
  · exact leaf_val _ hx
  · split at hx
    · rename_i l hl
      rw [hl]
      exact array_val l (List.all_eq_true.1 hx)
    · cases hx

theorem delivered3 : Delivered env trace3 := by
  have hs : trace3.all small = true := by decide +kernel
  intro q o h
  have := List.all_eq_true.1 hs _ h
  cases o with
  | none => cases this
  | some r => exact ⟨⟨r, rfl⟩, of_decide_eq_true this⟩

theorem instructs3 (sub clevis : Bool) : ∃ l, Instructs env encode (fun _ => some ⟨none, none, some true⟩) cred.guid sub clevis l ∧
    Follows SiClient.Toy.host trace3 l := by
  obtain ⟨l, h, -⟩ := instructs sub clevis
  refine ⟨l, h, ?_⟩
  obtain ⟨rep, e1, e2, -⟩ := h
  cases e1
  have e2 : some (rebootItems true) = some l := e2
  cases e2
  intro u res h _
  have e : SiClient.process SiClient.Toy.host (rebootItems true) = .ret (.ok (true, [])) := rfl
  rw [e] at h
  obtain ⟨-, rfl⟩ := Prog.ends_ret h
  exact ⟨_, rfl⟩

/-- A hash was wrong. -/
def wrongHash : Res (Http.Client × DevErr) Bool → Bool
  | .err (_, .data .incorrectHash) => true
  | _ => false

theorem wrongHash_sound {r : Res (Http.Client × DevErr) Bool} (h : wrongHash r = true) : ∃ cl, r = .err (cl, .data .incorrectHash) := by
  unfold wrongHash at h
  split at h
  · exact ⟨_, rfl⟩
  · cases h

theorem held3 (v : Voucher sized) (hv : voucher3 = some v) (now : Nat) (w : M3.W) (k : Name) : (M3.load now w k).2 = .ok (some v) := by
  simp only [hv]

/-- **C59** fails for some vouchers: the server and the device write the entries of the voucher anew while it is passed on
(data-formats/src/publictypes.rs, messages/v11/to2.rs:166-178), and if the entry before another one is not in shortest form, then
its hash changes. Here is a voucher which is valid, for the device and its owner, all whose other surroundings are as they
should be, and all messages are delivered; but to the device a hash in the voucher is wrong, and TO2 fails. -/
theorem C59_form_violated : ∃ (v : Voucher sized) (hist : List (Http.Event srv3 Empty)) (T : Trace (sig env)) (r : Res (Http.Client × DevErr) Bool),
    ValidFor env true cred (9 : UInt8) (12 : UInt8) v ∧
    (CodecLaws sized ∧ Wire env encode ∧ Digests env ∧ Agree toyKex ∧ Secures aead ∧ OwnerKeys env cfg ∧ cred.guid.length = 16 ∧
      env.E.verify cfg.ownerPub blob.prot blob.payload blob.sig = true ∧ Fortunate env (9 : UInt8) T ∧ Announces env SiClient.Toy.host T) ∧
    Delivered env T ∧
    Http.Talk (Sv := srv3) (X := ops env) (fun m _ => m.elim) ⟨fun _ => none, []⟩ (fun _ => false) none [] hist T ∧
    (∀ h1 rq h2, hist = h1 ++ .request rq :: h2 → Serves (c := true) (B := (M3 : OwnerServer.VStore (Voucher env.E))) (cfg := cfg)
      (idOf := some) (A := aead) (encode := encode) (fun _ => false) false cred.guid v SiClient.Toy.host T
      (Http.replay (Sv := srv3) (fun m _ => m.elim) ⟨fun _ => none, []⟩ h1) rq) ∧
    Prog.Ends onboarding T r ∧ ∃ cl, r = .err (cl, .data .incorrectHash) := by
  cases hv : voucher3 with
  | none => have := voucher3_fits; rw [hv] at this; cases this
  | some v =>
    obtain ⟨hist, h1, h2⟩ := Http.talk_run (M := Empty) (fun m _ => m.elim) ⟨fun _ => none, []⟩ W3 (fun _ q => ⟨rfl, rfl, rfl, rfl, (by decide : ' ' ∉ ['s'])⟩) onboarding begin3 rfl none
    refine ⟨v, hist, trace3, end3.2, fits3_sound v (by have := voucher3_fits; rw [hv] at this; exact this),
      ⟨codecLaws, wire, digests, agree, secures, ownerKeys, by decide +kernel, by decide +kernel, fortunate3, announces3⟩, delivered3, h2, ?_,
      Prog.exec_ends _ _ _, wrongHash_sound (by decide +kernel)⟩
    intro g1 rq g2 e
    have hm : Http.Event.request rq ∈ (Prog.exec (Http.answer W3) begin3 onboarding).1.past := by
      rw [h1, e]; simp
    rcases Http.run_requests W3 _ _ _ hm with hm | ⟨n, q, rfl⟩
    · cases hm
    · refine ⟨rfl, rfl, ⟨_, rfl, by simp⟩, ⟨_, _, rfl, by simp⟩, ⟨_, rfl, by simp⟩, rfl, rfl, ?_, rfl, instructs3⟩
      exact held3 v hv _ _ _

end Toy
end Verif.Device

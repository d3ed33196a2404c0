import Verif.Props.To0
import Verif.Props.OnboardExample
/-!
A concrete owner, rendezvous server and device which meet the hypotheses of `C73_meets_partial` (and so of `C73_registers_partial`,
`C73_finds_partial`): the voucher of the device with GUID aa…aa, whose owner is 12.
-/
namespace Verif.To0
open Verif Verif.Voucher Verif.Store Verif.Cbor.Spec

namespace Toy
open Verif.RvServer.Toy (aead guid)
open Verif.Toy (encBytes takeBytes)
open Verif.Device.Toy (env sized cfg cred)

/-! ### The codecs -/

def encode : RvServer.Resp → Bytes
  | .helloAck n => encBytes n
  | .acceptOwner w => env.encU32 w
  | .helloRvAck n => encBytes n
  | .redirect t => t

def msgs : Msgs := ⟨[0x80], Verif.Toy.whole takeBytes, env.decU32⟩

theorem u32_dec (n : Nat) (h : n < 2 ^ 32) : env.decU32 (env.encU32 n) = some n := by
  show (if (Cbor.toBe 4 n).length = 4 then some (beNat (Cbor.toBe 4 n)) else none) = some n
  rw [if_pos (Cbor.toBe_length 4 n), Cbor.beNat_toBe 4 n h]

theorem u32_item (n : Nat) : IsItem (env.encU32 n) :=
  .int (m := 0) (by simp) (.ext4 (m := 0) (arg := Cbor.toBe 4 n) (by omega) (Cbor.toBe_length 4 n))

theorem to1_length (h : Hash) (hl : h.value.length ≤ 64) : (env.encTo1 h).length < 2 ^ 63 := by
  have := Device.Toy.encHash_le h
  show (Verif.Toy.encHash h).length < _
  omega

theorem wire : Wire env.toOwnerEnv msgs encode where
  hello := by decide
  ack := Device.Toy.small_dec
  accept := u32_dec
  u32 n h := ⟨u32_dec n h, u32_item n⟩
  nonce n h := ⟨Device.Toy.small_dec n h, Device.Toy.small_item n h⟩
  to1 h hl := ⟨Device.Toy.hash_dec h hl, to1_length h hl⟩

theorem helloRv_dec (g : Bytes) (h : g.length = 16) : env.decHelloRv (env.encHelloRv g) = some (g, true, []) := by
  show (Verif.Toy.whole takeBytes (encBytes g)).map (fun g => (g, true, ([] : Bytes))) = _
  rw [Device.Toy.small_dec g h]
  rfl

theorem helloAck_dec (n : Bytes) (h : n.length = 16) : env.decHelloAck (encode (.helloRvAck n)) = some (n, .es384, []) := by
  show (Verif.Toy.whole takeBytes (encBytes n)).map (fun n => (n, OwnerServer.SigType.es384, ([] : Bytes))) = _
  rw [Device.Toy.small_dec n h]
  rfl

theorem claims_dec (n u : Bytes) (hn : n.length = 16) (hu : u.length = 17) :
    env.decClaims (env.encClaims n u none) = some (some n, some u, none) := by
  have := Device.Toy.takeAll_enc [n, u] 3 (by simp) (by simp [hn, hu])
  simp only [List.flatMap_cons, List.flatMap_nil] at this
  show (match Device.Toy.takeAll 3 (encBytes n ++ (encBytes u ++ [])) with
    | some [n, u] => some (some n, some u, none)
    | some [n, u, f] => some (some n, some u, some f)
    | _ => none) = _
  rw [this]

theorem claims_length (n u : Bytes) (hn : n.length = 16) (hu : u.length = 17) : (env.encClaims n u none).length < 2 ^ 63 := by
  show (encBytes n ++ (encBytes u ++ [])).length < _
  simp only [List.length_append, Device.Toy.encBytes_length, hn, hu, List.length_nil]
  omega

theorem wire1 : Wire1 env encode where
  hello := helloRv_dec
  ack := helloAck_dec
  redirect _ := rfl
  claims n u hn hu := ⟨claims_dec n u hn hu, claims_length n u hn hu⟩

/-! ### The voucher -/

/-- The voucher as it is read from its file. -/
def voucher : Option (Voucher sized) := Device.Toy.voucher.bind fun v => Device.Toy.de (Device.Toy.ser v)

/-- The rendezvous server grants 100 seconds, trusts the manufacturer 7 and device certificates issued by 100. -/
def rcfg : RvServer.Config env.toRvEnv := ⟨100, some [(7, 7)], some [(100, 100)]⟩

/-- Whether owner and rendezvous server accept the voucher for the device 9. -/
def fits (v : Voucher sized) : Bool :=
  (match hdrBytes v, v.header.infoBytes sized with
  | .ok hdr, .ok info =>
    match Device.Toy.chain info v.header.mfgKey hdr v.entries.contents with
    | some ps => decide (ps.length ≠ 0) && decide ((lastOwner v.header.mfgKey ps : UInt8) = 12)
    | none => false
  | _, _ => false) &&
  (match v.chain with
  | some ch => decide ((ch : UInt8) = 9)
  | none => false) &&
  (match serialize v with
  | .ok b => decide (b.length < 2 ^ 32)
  | _ => false) &&
  decide (v.header.guid = guid) && decide (v.header.version = 101) && decide ((v.header.mfgKey : UInt8) = 7) &&
  decide (v.contents.tag = none)

theorem voucher_fits : (match voucher with | some v => fits v | none => false) = true := by decide +kernel

theorem written (v : Voucher sized) (hv : voucher = some v) (ht : v.contents.tag = none) : Rewritable true v := by
  unfold voucher at hv
  obtain ⟨v0, -, hv⟩ := Option.bind_eq_some_iff.1 hv
  unfold Device.Toy.de at hv
  split at hv
  · rename_i v' r hd
    cases hv
    refine ⟨wf_of_deserialize hd, by rw [ht]; simp, ?_⟩
    unfold deserialize at hd
    split at hd
    · cases hd
    · cases hd
    · cases hd
    · rename_i a r' ha
      obtain ⟨v'', h1, h2⟩ := Res.bind_eq_ok.1 hd
      cases h2
      obtain ⟨th, ah, _, _, _, h4, h5⟩ := Cbor.grammar_of_deserialize Cbor.itemClass_isItem (by simp) ha
      rw [(wf_of_fromParsedArray (h5 5 rfl) h1).2]
      exact h4
  · cases hv

theorem device_ok : RvServer.verifyDevice env.toRvEnv ⟨0, none, cfg.deviceKeys⟩ (9 : UInt8) = .ok (9, 100) := rfl
theorem device_ok' : RvServer.verifyDevice env.toRvEnv rcfg (9 : UInt8) = .ok (9, 100) := rfl

theorem accepts (v : Voucher sized) (hv : voucher = some v) : Accepts env.toOwnerEnv true cfg rcfg (9 : UInt8) v := by
  have hf := voucher_fits
  rw [hv] at hf
  simp only [fits, Bool.and_eq_true, decide_eq_true_eq] at hf
  obtain ⟨⟨⟨⟨⟨⟨h1, h2⟩, h3⟩, h4⟩, h5⟩, h6⟩, h7⟩ := hf
  refine ⟨written v hv h7, by rw [h4]; rfl, h5, ?_, ?_, ?_, ?_⟩
  · split at h1
    · rename_i hdr info e1 e2
      split at h1
      · rename_i ps e3
        simp only [Bool.and_eq_true, decide_eq_true_eq] at h1
        exact ⟨hdr, info, ps, e1, e2, Device.Toy.chain_sound _ _ _ _ _ e3, by intro h; rw [h] at h1; exact h1.1 rfl, h1.2⟩
      · cases h1
    · cases h1
  · split at h2
    · rename_i ch e
      simp only [decide_eq_true_eq] at h2
      subst h2
      exact ⟨9, (9, 100), (9, 100), e, device_ok, device_ok', rfl⟩
    · cases h2
  · intro bag hb
    have hb : some [((7, 7) : Nat × Nat)] = some bag := hb
    cases hb
    refine ⟨fun cert _ => ⟨_, rfl⟩, (7, 7), .head _, (show Nat from 7), rfl, ?_⟩
    rw [show v.header.mfgKey = (7 : UInt8) from h6]
    rfl
  · intro n b hn hb
    cases hs : serialize v with
    | err e => rw [hs] at h3; cases h3
    | panic => rw [hs] at h3; cases h3
    | ok raw =>
      rw [hs] at h3
      have h3 : raw.length < 2 ^ 32 := of_decide_eq_true h3
      unfold OwnerServer.buildTo0d at hb
      rw [hs] at hb
      rw [Res.bind_ok, show Cbor.serialize ⟨none, [raw, env.encU32 cfg.period, env.encNonce n]⟩ =
        .ok ([0x83] ++ [raw, env.encU32 cfg.period, encBytes n].flatten) from rfl] at hb
      have e := Res.ok.inj hb
      rw [← e]
      simp only [List.length_append, List.flatten_cons, List.flatten_nil, List.length_cons, List.length_nil, Device.Toy.encBytes_length,
        Cbor.toBe_length, hn]
      omega

theorem honest (v : Voucher sized) (hv : voucher = some v) :
    Honest env.toOwnerEnv true msgs aead encode cfg rcfg (9 : UInt8) v where
  codec := Device.Toy.codecLaws
  wire := wire
  digest d := Verif.Toy.digest_length .sha384 d
  secures := Device.Toy.secures
  key := Device.Toy.signs _ _
  voucher := accepts v hv
  period := by decide

/-! ### The run -/

def ser (i : RvServer.Item env.toRvEnv) : Bytes := (show UInt8 from i.key) :: i.to1d
def de : Bytes → Option (RvServer.Item env.toRvEnv)
  | [] => none
  | k :: t => some ⟨(k : UInt8), t⟩

abbrev B : RvServer.Backend (RvServer.Item env.toRvEnv) := RvServer.dirBackend ser de
abbrev srv : Http.Server := RvServer.server env.toRvEnv true B rcfg (List Char) some aead encode

def arrives (q : Http.Sent) : Http.Request srv :=
  ⟨q.type, true, q.auth, q.body, ['s'], [], ⟨100, some (List.replicate 16 6), false⟩, true⟩

abbrev Mv := Nat × List Name

def W0 : Http.Around srv ops Unit := ⟨fun _ q => arrives q, fun _ => .good, fun _ => [], fun _ e => ((), match e with | .connect _ => ()), fun _ => false⟩
def W1 : Http.Around srv (Device.ops env) Unit := ⟨fun _ q => arrives q, fun _ => .good, fun _ => [], fun _ e => ((), Device.Toy.answers e), fun _ => false⟩

abbrev reporting (v : Voucher sized) : Proc sig To0Err Nat := report env.toOwnerEnv cfg msgs aead v
abbrev asking : Proc (Device.sig env) Device.DevErr (Option Sign1) := Device.getTo1d true aead cred ["http://rv:80"]

def begin0 : Http.Now srv Mv Unit := ⟨0, [], Http.start B.empty, ()⟩
def end0 (v : Voucher sized) : Http.Now srv Mv Unit × Res To0Err Nat := Prog.exec (Http.answer W0) begin0 (reporting v)
def trace0 (v : Voucher sized) : Trace sig := Prog.doings (Http.answer W0) begin0 (reporting v)
def begin1 (v : Voucher sized) : Http.Now srv Mv Unit := ⟨0, (end0 v).1.past, (end0 v).1.server, ()⟩
def end1 (v : Voucher sized) : Http.Now srv Mv Unit × Res Device.DevErr (Option Sign1) := Prog.exec (Http.answer W1) (begin1 v) asking
def trace1 (v : Voucher sized) : Trace (Device.sig env) := Prog.doings (Http.answer W1) (begin1 v) asking

def small {X : Sig} (d : (Http.netSig X).Deed) : Bool :=
  match d with
  | ⟨.net q, some _⟩ => decide (q.body.length ≤ 16384)
  | ⟨.net _, none⟩ => false
  | _ => true

theorem delivered {X : Sig} {t : Trace (Http.netSig X)} (h : t.all small = true) : Delivered t := by
  intro q o hm
  have := List.all_eq_true.1 h _ hm
  cases o with
  | none => cases this
  | some r => exact ⟨⟨r, rfl⟩, of_decide_eq_true this⟩

/-- Whether a request brings a voucher for the device. -/
def names : Http.Event srv Mv → Bool
  | .request rq =>
    match RvServer.parseOwnerSign env.toRvEnv true rq.body with
    | .ok (.ownerSign to0d _) =>
      match RvServer.parseTo0d env.toRvEnv true to0d with
      | .ok t => decide (t.voucher.header.guid = guid)
      | _ => false
    | _ => false
  | _ => false

theorem names_of (e : Http.Event srv Mv) (h : RvServer.Names env.toRvEnv true B rcfg some aead encode guid e) : names e = true := by
  cases e with
  | request rq =>
    obtain ⟨to0d, to1d, t, h1, h2, h3⟩ := h
    simp only [names, h1, h2, h3]
    simp
  | internal m => cases h
  | expire i => cases h

/-- The run, and what happens in it. -/
def run (v : Voucher sized) : Bool :=
  (trace0 v).all small && (trace1 v).all small &&
  decide ((end0 v).1.past.map names = [false, true]) &&
  decide ((end1 v).1.past.map names = [false, true, false, false]) &&
  (match reportUrls env.toOwnerEnv v with | .ok (_ :: _) => true | _ => false)

theorem runs : (match voucher with | some v => run v | none => false) = true := by decide +kernel

attribute [local irreducible] second

theorem faithful0 : W0.Faithful := fun _ _ => ⟨rfl, rfl, rfl, rfl, (by decide : ' ' ∉ ['s'])⟩
theorem faithful1 : W1.Faithful := fun _ _ => ⟨rfl, rfl, rfl, rfl, (by decide : ' ' ∉ ['s'])⟩

theorem awake (q : Http.Sent) : Awake (arrives q) := ⟨rfl, rfl, _, rfl, by simp⟩

theorem signs (v : Voucher sized) : DeviceSigns env (9 : UInt8) (trace1 v) := by
  intro pl o h
  obtain ⟨_, h⟩ := Http.run_answers W1 _ _ _ _ h
  exact ⟨_, _, h, by simp, by simp, (by decide : ([9] == [(9 : UInt8)]) = true), rfl⟩

theorem last_of {α : Type} {f : α → Bool} {a b : List α} {x : α} (h : (a ++ x :: b).map f = [false, true]) (hx : f x = true) :
    a.map f = [false] ∧ b = [] := by
  match a, h with
  | [], h => simp only [List.nil_append, List.map_cons, hx, List.cons.injEq] at h; cases h.1
  | [y], h => simp_all
  | y :: z :: a, h => simp at h

/-- The hypotheses of `C73_meets_partial` are met. -/
example : ∃ (v : Voucher sized) (hist hist' : RvServer.Hist env.toRvEnv true B rcfg some aead encode) (u : String) (us : List String),
    Honest env.toOwnerEnv true msgs aead encode cfg rcfg (9 : UInt8) v ∧ Wire1 env encode ∧ (∀ x, de (ser x) = some x) ∧
    cred.guid = v.header.guid ∧
    Http.Talk (Sv := srv) (RvServer.move env.toRvEnv B) (Http.start B.empty) (fun _ => false) none [] hist (trace0 v) ∧ Delivered (trace0 v) ∧
    (∀ rq, .request rq ∈ hist → Awake (idOf := some) (c := true) (B := B) (rcfg := rcfg) (A := aead) (encode := encode) rq ∧
      rq.oracle.stopped = false ∧ rq.oracle.now / second + rcfg.maxWait ≤ 253402300799) ∧
    reportUrls env.toOwnerEnv v = .ok (u :: us) ∧ Prog.Ends (reporting v) (trace0 v) (end0 v).2 ∧
    (∀ h1 rq h2, hist = h1 ++ .request rq :: h2 → RvServer.Names env.toRvEnv true B rcfg some aead encode v.header.guid (.request rq) →
      ∀ e ∈ h2 ++ [] ++ hist', ¬ RvServer.Names env.toRvEnv true B rcfg some aead encode v.header.guid e ∧
        ∀ T, RvServer.timeOf env.toRvEnv true B rcfg some aead encode e = some T →
          T + second ≤ rq.oracle.now + min cfg.period rcfg.maxWait * second) ∧
    Http.Talk (Sv := srv) (RvServer.move env.toRvEnv B) (Http.start B.empty) (fun _ => false) none ([] ++ hist ++ []) hist' (trace1 v) ∧
    Delivered (trace1 v) ∧ DeviceSigns env (9 : UInt8) (trace1 v) ∧
    (∀ rq, .request rq ∈ hist' → Awake (idOf := some) (c := true) (B := B) (rcfg := rcfg) (A := aead) (encode := encode) rq) ∧
    Prog.Ends asking (trace1 v) (end1 v).2 := by
  have hr := runs
  cases hv : voucher with
  | none => rw [hv] at hr; cases hr
  | some v =>
    rw [hv] at hr
    have hr : run v = true := hr
    have hf := voucher_fits
    rw [hv] at hf
    simp only [fits, Bool.and_eq_true, decide_eq_true_eq] at hf
    have hguid : v.header.guid = guid := hf.1.1.1.2
    simp only [run, Bool.and_eq_true, decide_eq_true_eq] at hr
    obtain ⟨⟨⟨⟨r1, r2⟩, r3⟩, r4⟩, r5⟩ := hr
    obtain ⟨u, us, hu⟩ : ∃ u us, reportUrls env.toOwnerEnv v = .ok (u :: us) := by
      split at r5
      · exact ⟨_, _, by assumption⟩
      · cases r5
    obtain ⟨hist, h1, h2⟩ := Http.talk_run (M := Mv) (RvServer.move env.toRvEnv B) (Http.start B.empty) W0 faithful0 (reporting v) begin0 rfl none
    have h1' : (end0 v).1.past = hist := h1
    have hs0 := Http.run_server (M := Mv) (RvServer.move env.toRvEnv B) (Http.start B.empty) W0 (reporting v) begin0 rfl
    have hs1 : (begin1 v).server = Http.replay (RvServer.move env.toRvEnv B) (Http.start B.empty) (begin1 v).past := hs0
    obtain ⟨hist', h3, h4⟩ := Http.talk_run (M := Mv) (RvServer.move env.toRvEnv B) (Http.start B.empty) W1 faithful1 asking (begin1 v) hs1 none
    have h3' : (end1 v).1.past = hist ++ hist' := by rw [← h1']; exact h3
    have q0 : ∀ e ∈ hist, ∃ q, e = .request (arrives q) := by
      intro e hm
      rw [← h1'] at hm
      rcases Http.run_events W0 _ _ _ hm with hm | ⟨_, q, rfl⟩
      · cases hm
      · exact ⟨q, rfl⟩
    have q1 : ∀ e ∈ hist ++ hist', ∃ q, e = .request (arrives q) := by
      intro e hm
      rw [← h3'] at hm
      rcases Http.run_events W1 _ _ _ hm with hm | ⟨_, q, rfl⟩
      · exact q0 e (h1' ▸ hm)
      · exact ⟨q, rfl⟩
    refine ⟨v, hist, hist', u, us, honest v hv, wire1, fun _ => rfl, hguid.symm, h2, delivered r1, ?_, hu, Prog.exec_ends _ _ _, ?_, ?_,
      delivered r2, signs v, ?_, Prog.exec_ends _ _ _⟩
    · intro rq hm
      obtain ⟨q, hq⟩ := q0 (.request rq) hm
      cases hq
      refine ⟨awake q, rfl, ?_⟩
      show 100 / second + 100 ≤ 253402300799
      have : 100 / second ≤ 100 := Nat.div_le_self ..
      omega
    · rintro g1 rq g2 rfl hn e he
      rw [hguid] at hn ⊢
      have hn := names_of _ hn
      rw [h1'] at r3
      obtain ⟨k1, rfl⟩ := last_of r3 hn
      simp only [List.nil_append] at he
      rw [h3', List.map_append, r3] at r4
      have r4 : hist'.map names = [false, false] := by simpa using r4
      refine ⟨fun h => ?_, ?_⟩
      · have h := names_of _ h
        have : names e ∈ hist'.map names := List.mem_map_of_mem he
        rw [r4, h] at this
        simp at this
      · intro T hT
        obtain ⟨q, hq⟩ := q0 (.request rq) (by simp)
        cases hq
        obtain ⟨q', rfl⟩ := q1 e (List.mem_append_right _ he)
        have hT : some 100 = some T := hT
        cases hT
        show 100 + second ≤ 100 + 100 * second
        omega
    · rw [List.nil_append, List.append_nil, ← h1']
      exact h4
    · intro rq hm
      obtain ⟨q, hq⟩ := q1 (.request rq) (by simp [hm])
      cases hq
      exact awake q

end Toy
end Verif.To0

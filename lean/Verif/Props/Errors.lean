import Verif.Model.Errors
import Verif.Spec.Talk
import Verif.Props.Wire
/-!
**C94**: a client whose request is refused is told so and why, and nothing else.
-/
namespace Verif.Errors
open Verif Verif.Http
open Verif.Wire hiding step

/-! ### Specification -/

/-- Everything a client may be told after a message of a type: code, type of message, text. It does not depend on sessions, keys, stores
or on what was sent. -/
def outcomes (t : MsgType) : List (Nat × MsgType × String) :=
  [(500, t, "Message sequence error"), (500, t, "IM encryption requirement not met"), (101, t, "Error decrypting"),
   (100, .invalid, "Invalid request body"), (100, .invalid, "Invalid request type"), (500, .invalid, "Error processing response"),
   (500, t, "Error retrieving session"), (500, t, "Error storing session"), (101, t, "Sequence error: must be encrypted"),
   (101, t, "Sequence error: must not be encrypted"), (101, t, "Error encrypting"), (500, t, "Internal server error"),
   (500, t, "Internal error"), (500, .to2ProveDevice, "Internal server error")] ++
  handlerErrors.filterMap fun x => if x.1 = t then some x.2 else none

/-- The messages whose handlers name other messages in some of their errors. -/
def mixed : List MsgType :=
  [.diSetHmac, .to1ProveToRV, .to2ProveDevice, .to2DeviceServiceInfoReady, .to2DeviceServiceInfo, .to2Done]

/-! ### The model of errors belongs to that of requests -/

variable {Sv : Server}

theorem parseWhy_none (t : MsgType) (s : Sess Sv) (body : Bytes) : parseWhy t s body = none ↔ (parseRequest t s body).isSome = true := by
  unfold parseWhy parseRequest
  split
  · simp
  · split
    · simp
    · cases decryptWith Sv.aead s.keys body with
      | none => simp
      | some plain =>
        simp only
        cases Sv.decode t plain <;> simp

theorem acceptWhy_none (σ : St Sv) (rq : Request Sv) : acceptWhy σ rq = none ↔ (accept σ rq).isSome = true := by
  unfold acceptWhy accept
  cases routeOf Sv.routes rq.type with
  | none => simp
  | some om =>
    simp only
    split
    · simp
    · split
      · simp
      · cases findSession σ rq with
        | none => simp
        | some x =>
          obtain ⟨i, s, c⟩ := x
          simp only
          rw [parseWhy_none]
          cases parseRequest rq.type s rq.body <;> simp

theorem respondWhy_none (t om : MsgType) (resp : Sv.Resp) (cookie : Option (List Char)) (k : Option Keys) (iv : Bytes) :
    respondWhy (Sv := Sv) t om resp k iv = none ↔ respond om resp cookie k iv ≠ .reject := by
  unfold respondWhy respond
  split
  · simp
  · cases encryptWith Sv.aead k iv (Sv.encode resp) <;> simp

/-- There is a reason just if a request is refused. -/
theorem C94_refused (σ : St Sv) (rq : Request Sv) (handler : Rejection) :
    (step σ rq).2 = .reject ↔ ∃ x, why σ rq handler = some x := by
  have key : why σ rq handler = none ↔ (step σ rq).2 ≠ .reject := by
    have ha := acceptWhy_none σ rq
    unfold why step
    cases h : accept σ rq with
    | none =>
      rw [h] at ha
      simp only at ha ⊢
      rw [ha]
      simp
    | some a =>
      simp only
      generalize Sv.handle rq.oracle rq.type a.req a.sess.data a.sess.keys σ.world = q
      obtain ⟨w, q⟩ := q
      cases q with
      | none => simp
      | some x =>
        obtain ⟨resp, data, keys⟩ := x
        simp only
        split
        · simp
        · exact respondWhy_none _ _ _ _ _ _
  cases hw : why σ rq handler with
  | none => simp [key.1 hw]
  | some x =>
    simp only [Option.some.injEq, exists_eq', iff_true]
    cases hr : (step σ rq).2 with
    | reject => rfl
    | ok a b d =>
      have := key.2 (by rw [hr]; exact nofun)
      rw [this] at hw
      cases hw

/-! ### What is told -/

theorem handler_outcome {t : MsgType} {r : Rejection} (h : fromHandler t r = true) : told r ∈ outcomes t := by
  unfold fromHandler at h
  rw [Bool.or_eq_true] at h
  unfold outcomes
  rcases h with h | h
  · have h := of_decide_eq_true h
    unfold fromErrors fromError at h
    split at h
    · simp only [List.mem_singleton] at h
      subst h
      simp [told]
    · simp only [List.mem_cons, List.not_mem_nil, or_false] at h
      rcases h with rfl | rfl <;> simp [told]
  · obtain ⟨x, hx, h⟩ := List.any_eq_true.1 h
    obtain ⟨h1, rfl⟩ := of_decide_eq_true h
    apply List.mem_append_right
    rw [List.mem_filterMap]
    exact ⟨x, hx, by rw [if_pos h1]; rfl⟩

theorem parse_outcome {t : MsgType} {s : Sess Sv} {body : Bytes} {x : Rejection} (h : parseWhy t s body = some x) : told x ∈ outcomes t := by
  unfold parseWhy at h
  unfold outcomes
  split at h
  · cases h; simp [told]
  · split at h
    · cases h; simp [told]
    · split at h
      · cases h; simp [told]
      · split at h
        · cases h; simp [told]
        · cases h

theorem accept_outcome {σ : St Sv} {rq : Request Sv} {x : Rejection} (h : acceptWhy σ rq = some x) : told x ∈ outcomes rq.type := by
  unfold acceptWhy at h
  split at h
  · cases h; simp [told, outcomes]
  · split at h
    · cases h; simp [told, outcomes]
    · split at h
      · cases h; simp [told, outcomes]
      · split at h
        · cases h; simp [told, outcomes]
        · exact parse_outcome h

theorem why_outcome {σ : St Sv} {rq : Request Sv} {handler x : Rejection} (hh : fromHandler rq.type handler = true)
    (h : why σ rq handler = some x) : told x ∈ outcomes rq.type := by
  unfold why at h
  split at h
  · exact accept_outcome h
  · split at h
    · cases h
      exact handler_outcome hh
    · split at h
      · cases h; simp [told, outcomes]
      · unfold respondWhy at h
        split at h
        · cases h
          split <;> simp [told, outcomes]
        · split at h
          · cases h; simp [told, outcomes]
          · cases h

theorem handlerErrors_ok : ∀ x ∈ handlerErrors, x.2.1 ∈ errorCodes ∧ x.2.2.2 ≠ "" ∧ (utf8 x.2.2.2).length < 100 := by decide +kernel

theorem outcomes_ok {t : MsgType} {x : Nat × MsgType × String} (h : x ∈ outcomes t) :
    x.1 ∈ errorCodes ∧ x.2.2 ≠ "" ∧ (utf8 x.2.2).length < 100 := by
  unfold outcomes at h
  rcases List.mem_append.1 h with h | h
  · simp only [List.mem_cons, List.not_mem_nil, or_false] at h
    rcases h with rfl | rfl | rfl | rfl | rfl | rfl | rfl | rfl | rfl | rfl | rfl | rfl | rfl | rfl <;>
      (dsimp only; exact ⟨by decide, by decide, by decide +kernel⟩)
  · obtain ⟨y, hy, he⟩ := List.mem_filterMap.1 h
    split at he
    · cases he
      exact handlerErrors_ok y hy
    · cases he

theorem head_le (m n : Nat) : (head m n).length ≤ 9 := by
  have h : ∀ k n, (Cbor.toBe k n).length = k := by
    intro k
    induction k with
    | zero => intro n; rfl
    | succ k ih => intro n; simp [Cbor.toBe, ih]
  unfold head
  repeat' split
  all_goals simp [h]

theorem message_small {x : Rejection} (h : (utf8 (told x).2.2).length < 100) (uuid : Nat) :
    (errorMsg.write (message uuid x)).length < 2 ^ 64 := by
  have e : errorMsg.write (message uuid x) = head 4 5 ++ (head 0 (told x).1 ++ (head 0 (told x).2.1.code ++
      ((head 3 (utf8 (told x).2.2).length ++ utf8 (told x).2.2) ++ ([0xf6] ++ (enc (Codec.u128.ser (uuid % 2 ^ 64)) ++ []))))) := by
    rfl
  have hu : (enc (Codec.u128.ser (uuid % 2 ^ 64))).length ≤ 9 := by
    have hlt : uuid % 2 ^ 64 < 2 ^ 64 := Nat.mod_lt _ (by decide)
    have : Codec.u128.ser (uuid % 2 ^ 64) = .uint (uuid % 2 ^ 64) := if_pos hlt
    rw [this]
    exact head_le _ _
  have h1 := head_le 4 5
  have h2 := head_le 0 (told x).1
  have h3 := head_le 0 (told x).2.1.code
  have h4 := head_le 3 (utf8 (told x).2.2).length
  rw [e]
  simp only [List.length_append, List.length_cons, List.length_nil]
  omega

/-- **C94**: a refused request is answered with an error message which every client of the repository recognizes as failure and can read:
with a code, a text, and no change of its keys and its token. -/
theorem C94_reported {σ : St Sv} {rq : Request Sv} {handler x : Rejection} (hh : fromHandler rq.type handler = true)
    (hw : why σ rq handler = some x) (kdf : Bool) (uuid : Nat) {A : Aead} {R : Type} (dec : Bytes → Option R) (c : Client) (sm : MsgType) :
    Arrives kdf (step σ rq).2 (reply kdf uuid x) ∧
    ∃ m : ErrorMsg, receive A dec c sm (reply kdf uuid x) = (c.noteKdf kdf, .err (.errorMessage (errorMsg.write m))) ∧
      errorMsg.read (errorMsg.write m) = some m ∧ m.code ∈ errorCodes ∧ m.text ≠ "" ∧ (m.code, m.previous, m.text) ∈ outcomes rq.type := by
  have ho := why_outcome hh hw
  obtain ⟨h1, h2, h3⟩ := outcomes_ok ho
  constructor
  · rw [(C94_refused σ rq handler).2 ⟨x, hw⟩]
    rfl
  · exact ⟨message uuid x, rfl, C83_error_partial _ h1 _ _ _ (message_small h3 uuid), h1, h2, ho⟩

/-- **C94**: nothing else is told. The reply is made of a random number and one of the outcomes for the type of the message, whatever the
session, its keys, the stores, and the contents of the request. -/
theorem C94_nothing_else {σ : St Sv} {rq : Request Sv} {handler x : Rejection} (hh : fromHandler rq.type handler = true)
    (hw : why σ rq handler = some x) (kdf : Bool) (uuid : Nat) :
    ∃ y ∈ outcomes rq.type, reply kdf uuid x =
      ⟨false, .code 255, none, kdf, errorMsg.write ⟨y.1, y.2.1, y.2.2, none, uuid % 2 ^ 64⟩⟩ :=
  ⟨told x, why_outcome hh hw, rfl⟩

/-! ### Which message it was -/

theorem handler_names : ∀ x ∈ handlerErrors, x.1 ∉ mixed → x.2.2.1 = x.1 := by decide +kernel

/-- **C94**, the message that was refused: it is named, unless it could not be parsed or was refused by HTTP, or is one of six. -/
theorem C94_names_partial {σ : St Sv} {rq : Request Sv} {handler x : Rejection} (hh : fromHandler rq.type handler = true)
    (hw : why σ rq handler = some x) (hm : rq.type ∉ mixed) : (told x).2.1 = rq.type ∨ x = .parse ∨ x = .notFound ∨ x = .other := by
  have hp : ∀ {s : Sess Sv}, parseWhy rq.type s rq.body = some x → (told x).2.1 = rq.type ∨ x = .parse ∨ x = .notFound ∨ x = .other := by
    intro s h
    unfold parseWhy at h
    split at h
    · cases h; exact .inl rfl
    · split at h
      · cases h; exact .inl rfl
      · split at h
        · cases h; exact .inl rfl
        · split at h
          · cases h; exact .inr (.inl rfl)
          · cases h
  unfold why at hw
  split at hw
  · unfold acceptWhy at hw
    split at hw
    · cases hw; exact .inr (.inr (.inl rfl))
    · split at hw
      · cases hw; exact .inr (.inr (.inr rfl))
      · split at hw
        · cases hw; exact .inr (.inr (.inr rfl))
        · split at hw
          · cases hw; exact .inl rfl
          · exact hp hw
  · split at hw
    · cases hw
      unfold fromHandler at hh
      rw [Bool.or_eq_true] at hh
      rcases hh with h | h
      · have h := of_decide_eq_true h
        unfold fromErrors fromError at h
        split at h
        · rename_i ht
          exact absurd (by rw [ht]; decide) hm
        · simp only [List.mem_cons, List.not_mem_nil, or_false] at h
          rcases h with rfl | rfl <;> exact .inl rfl
      · obtain ⟨y, hy, h⟩ := List.any_eq_true.1 h
        obtain ⟨h1, rfl⟩ := of_decide_eq_true h
        left
        show y.2.2.1 = _
        rw [← h1]
        exact handler_names y hy (by rw [h1]; exact hm)
    · split at hw
      · cases hw; exact .inl rfl
      · unfold respondWhy at hw
        split at hw
        · cases hw; exact .inl rfl
        · split at hw
          · cases hw; exact .inl rfl
          · cases hw

/-- What fails: for a message of a known type which cannot be parsed, the error names no message. -/
theorem C94_parse_violated {t : MsgType} {s : Sess Sv} {body plain : Bytes} (h1 : t.validPrev s.last = true) (h2 : encOk t s.keys = true)
    (h3 : decryptWith Sv.aead s.keys body = some plain) (h4 : Sv.decode t plain = none) (uuid : Nat) :
    ∃ x, parseWhy t s body = some x ∧ (message uuid x).previous = .invalid := by
  refine ⟨.parse, ?_, rfl⟩
  unfold parseWhy
  simp only [h1, h2, h3, h4, Bool.not_true, Bool.false_eq_true, if_false]

section
variable {R : OwnerServer.OwnerEnv} {B : OwnerServer.VStore (Voucher.Voucher R.E)} {o : OwnerServer.Oracle R} {n : Bytes}
  {s : OwnerServer.Data R} {w : B.W}

/-- The errors of the handler of TO2.Done belong to that handler. -/
theorem done_why : (OwnerServer.doneTo2 R B o n s w).2.isSome = true ↔ doneWhy R B o n s w = some none := by
  unfold OwnerServer.doneTo2 doneWhy
  split
  · simp
  · cases s.nonce6 with
    | none => simp
    | some n6 =>
      simp only
      split
      · simp
      · cases s.guid with
        | none => simp
        | some g =>
          simp only [Option.bind_some]
          cases RvServer.parseGuid g with
          | none => simp
          | some g =>
            cases s.nonce7 with
            | none => simp
            | some n7 =>
              simp only
              rcases B.setTo2 o.now w (Store.guidText g) with ⟨w', r⟩
              cases r <;> simp

/-- What fails: when the owner server's handler refuses TO2.Done, it names another message, always. -/
theorem C94_done_violated {x : Rejection} (h : doneWhy R B o n s w = some (some x)) (uuid : Nat) :
    fromHandler .to2Done x = true ∧ (message uuid x).previous ≠ .to2Done := by
  unfold doneWhy at h
  split at h
  · cases h; exact ⟨by decide, show (told _).2.1 ≠ MsgType.to2Done by decide⟩
  · split at h
    · cases h; exact ⟨by decide, show (told _).2.1 ≠ MsgType.to2Done by decide⟩
    · split at h
      · cases h; exact ⟨by decide, show (told _).2.1 ≠ MsgType.to2Done by decide⟩
      · split at h
        · cases h; exact ⟨by decide, show (told _).2.1 ≠ MsgType.to2Done by decide⟩
        · split at h
          · cases h
          · split at h
            · cases h; exact ⟨by decide, show (told _).2.1 ≠ MsgType.to2Done by decide⟩
            · split at h
              · cases h
              · cases h; exact ⟨by decide, show (told _).2.1 ≠ MsgType.to2Done by decide⟩
              · cases h

end

end Verif.Errors

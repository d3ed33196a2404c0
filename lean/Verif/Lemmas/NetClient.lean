import Verif.Model.NetClient
import Verif.Props.Http
/-!
Successful and possible exchanges of a client with the network, in terms of requests and replies.
-/
namespace Verif.Http
open Verif

/-- What is known about a client's exchange that succeeded with message `m`: the request `s`, its IV, and the reply. -/
structure Exchanged {R : Type} (A : Aead) (dec : Bytes → Option R) (c c' : Client) (om sm : MsgType) (plain iv : Bytes)
    (nk : Option (Option Keys)) (body : Bytes) (r : NetReply) (m : R) : Prop where
  order : om.validPrev c.last = true
  secret : encOk om c.keys = true
  sent : encryptWith A c.keys iv plain = some body
  success : r.success = true
  type : r.type = .code sm.code
  keys : c'.keys = nk.getD c.keys
  last : c'.last = some sm
  token : c'.token = r.auth.join.or c.token
  auth : r.auth ≠ some none
  kdf : c'.nonInterop = some (c.nonInterop.getD r.kdfHeader)
  reads : ∃ p, decryptWith A c'.keys r.body = some p ∧ dec p = some m

theorem noteKdf_eq (c : Client) (b : Bool) : c.noteKdf b = { c with nonInterop := some (c.nonInterop.getD b) } := by
  unfold Client.noteKdf
  obtain ⟨t, k, l, n⟩ := c
  cases n <;> rfl

theorem exchanged_of_send {R : Type} {A : Aead} {dec : Bytes → Option R} {c c' : Client} {om sm : MsgType}
    {plain iv body : Bytes} {nk : Option (Option Keys)} {r : NetReply} {m : R}
    (hp : precheck c om sm nk = none) (hb : encryptWith A c.keys iv plain = some body)
    (h : send A dec c om sm plain iv nk (fun _ => some r) = (c', .ok m)) :
    Exchanged A dec c c' om sm plain iv nk body r m := by
  unfold send at h
  rw [hp] at h
  simp only [hb] at h
  have h1 : om.validPrev c.last = true ∧ encOk om c.keys = true := by
    unfold precheck at hp
    split at hp
    · cases hp
    rename_i h1
    split at hp
    · cases hp
    split at hp
    · cases hp
    rename_i h3
    exact ⟨by simpa using h1, by simpa using h3⟩
  generalize hc : (({ c with last := some sm } : Client).setKeys nk) = c1 at h
  have hc1 : c1 = ⟨c.token, nk.getD c.keys, some sm, c.nonInterop⟩ := by subst hc; cases nk <;> rfl
  have hres : ∃ t, replyType r = .ok t ∧ outcome A dec c1.keys sm t r = .ok m ∧ r.auth ≠ some none ∧
      c' = ⟨r.auth.join.or c.token, nk.getD c.keys, some sm, some (c.nonInterop.getD r.kdfHeader)⟩ := by
    unfold receive at h
    cases ht : replyType r with
    | err e => rw [ht] at h; cases h
    | panic => rw [ht] at h; cases h
    | ok t =>
      rw [ht] at h
      simp only at h
      cases hauth : r.auth with
      | none =>
        rw [hauth] at h
        simp only [Prod.mk.injEq] at h
        obtain ⟨g1, g2⟩ := h
        refine ⟨t, rfl, g2, nofun, ?_⟩
        rw [← g1, noteKdf_eq, hc1]
        rfl
      | some tok =>
        rw [hauth] at h
        cases tok with
        | none => cases h
        | some tok =>
          simp only [Prod.mk.injEq] at h
          obtain ⟨g1, g2⟩ := h
          refine ⟨t, rfl, g2, nofun, ?_⟩
          rw [← g1, noteKdf_eq, hc1]
          rfl
  clear h
  obtain ⟨t, ht, ho, ha, rfl⟩ := hres
  unfold outcome at ho
  split at ho
  case isFalse => split at ho <;> cases ho
  rename_i hs
  split at ho
  · cases ho
  rename_i hts
  have hts : t = sm := by simpa using hts
  cases hd : decryptWith A c1.keys r.body with
  | none => rw [hd] at ho; cases ho
  | some p =>
  rw [hd] at ho
  simp only at ho
  have hde : dec p = some m := by
    cases hde : dec p with
    | none => rw [hde] at ho; cases ho
    | some m' => rw [hde] at ho; cases ho; rfl
  have hcode : r.type = .code sm.code := by
    unfold replyType at ht
    cases hty : r.type with
    | absent => rw [hty] at ht; simp [hs] at ht
    | unreadable => rw [hty] at ht; cases ht
    | code n =>
      rw [hty] at ht
      simp only at ht
      cases hof : MsgType.ofCode n with
      | none => rw [hof] at ht; cases ht
      | some t' =>
        rw [hof] at ht
        cases ht
        have : n = t.code := by
          unfold MsgType.ofCode at hof
          split at hof <;> first | (cases hof; rfl) | cases hof
        rw [this, hts]
  rw [hc1] at hd
  exact ⟨h1.1, h1.2, hb, hs, hcode, rfl, rfl, rfl, ha, rfl, p, hd, hde⟩

variable {X : Sig} {ε R : Type}

/-- A successful exchange as part of a program. -/
theorem ends_send {wrap : CErr → ε} {A : Aead} {dec : Bytes → Option R} {c : Client} {om sm : MsgType} {plain : Bytes}
    {nk : Option (Option Keys)} {x : Client × R} {t : Trace (netSig X)}
    (h : Prog.Ends (sendP wrap A dec c om sm plain nk : Proc (netSig X) ε _) t (.ok x)) :
    ∃ iv body r, t = [⟨.iv, iv⟩, ⟨.net ⟨om, c.token, body⟩, some r⟩] ∧
      Exchanged A dec c x.1 om sm plain iv nk body r x.2 := by
  obtain ⟨iv, body, r, ht, hp, hb, hs⟩ := ends_sendP (c' := x.1) (m := x.2) h
  exact ⟨iv, body, r, ht, exchanged_of_send hp hb hs⟩

/-- A deed of an exchange. -/
theorem reaches_send {wrap : CErr → ε} {A : Aead} {dec : Bytes → Option R} {c : Client} {om sm : MsgType} {plain : Bytes}
    {nk : Option (Option Keys)} {t : Trace (netSig X)} {s : Sent} {r : Option NetReply}
    (h : Proc.Reaches (sendP wrap A dec c om sm plain nk : Proc (netSig X) ε _) t ⟨.net s, r⟩) :
    ∃ iv, t = [⟨.iv, iv⟩] ∧ precheck c om sm nk = none ∧ encryptWith A c.keys iv plain = some s.body ∧
      s.type = om ∧ s.auth = c.token := by
  obtain ⟨u, h⟩ := h
  rcases does_sendP h with h | ⟨iv, h⟩ | ⟨iv, body, r', h, hp, hb⟩
  · simp at h
  · cases t with
    | nil => simp at h; exact nomatch h.1
    | cons x t => simp at h
  · cases t with
    | nil => simp at h; exact nomatch h.1
    | cons x t =>
      cases t with
      | nil =>
        simp only [List.cons_append, List.nil_append, List.cons.injEq] at h
        obtain ⟨rfl, h, _⟩ := h
        cases h
        exact ⟨iv, rfl, hp, hb, rfl, rfl⟩
      | cons y t => simp at h

/-- An exchange sends one type of message only. -/
theorem only_send {P : NetEff X → Prop} {wrap : CErr → ε} {A : Aead} {dec : Bytes → Option R} {c : Client}
    {om sm : MsgType} {plain : Bytes} {nk : Option (Option Keys)} (hiv : P .iv)
    (hs : ∀ s : Sent, s.type = om → P (.net s)) :
    Prog.Only (S := netSig X) P (sendP wrap A dec c om sm plain nk : Proc (netSig X) ε _) := by
  intro t h d hd
  rcases does_sendP h with rfl | ⟨iv, rfl⟩ | ⟨iv, body, r', rfl, hp, hb⟩
  · cases hd
  · rw [List.mem_singleton] at hd; subst hd; exact hiv
  · simp only [List.mem_cons, List.not_mem_nil, or_false] at hd
    rcases hd with rfl | rfl
    · exact hiv
    · exact hs _ rfl

theorem only_app {P : NetEff X → Prop} {e : X.Eff} (h : P (.app e)) :
    Prog.Only (S := netSig X) P (app e : Proc (netSig X) ε _) := Proc.only_ask h

end Verif.Http

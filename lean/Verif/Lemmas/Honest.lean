import Verif.Lemmas.Device
import Verif.Lemmas.Talk
/-!
Exchanges of which neither the request nor the reply gets lost: what becomes of them, whatever it is.
-/
namespace Verif.Http
open Verif
variable {X : Sig} {R : Type} {A : Aead} {dec : Bytes → Option R} {c : Client} {om sm : MsgType} {plain : Bytes}
    {nk : Option (Option Keys)} {t : Trace (netSig X)}

/-- What became of an exchange. -/
def resultQ : Client × Res CErr R → Res (Client × CErr) (Client × R)
  | (c, .ok m) => .ok (c, m)
  | (c, .err e) => .err (c, e)
  | (_, .panic) => .panic

theorem receivedQ_eq (x : Client × Res CErr R) : (receivedQ x : Proc (netSig X) _ _) = .ret (resultQ x) := by
  obtain ⟨c, r⟩ := x
  cases r <;> rfl

theorem ends_sendQ_sent {r : Res (Client × CErr) (Client × R)} (hp : precheck c om sm nk = none)
    (he : ∀ iv, (encryptWith A c.keys iv plain).isSome = true)
    (h : Prog.Ends (sendQ A dec c om sm plain nk : Proc (netSig X) _ _) t r) :
    ∃ iv body o, encryptWith A c.keys iv plain = some body ∧
      t = [⟨.iv, iv⟩, ⟨.net ⟨om, c.token, body⟩, (o : Option NetReply)⟩] ∧
      ∀ q, o = some q → r = resultQ (receive A dec (({ c with last := some sm } : Client).setKeys nk) sm q) := by
  unfold sendQ at h
  rw [hp] at h
  simp only at h
  obtain ⟨iv, t1, rfl, h1⟩ := Prog.ends_act h
  obtain ⟨body, hb⟩ := Option.isSome_iff_exists.1 (he iv)
  have h1 : Prog.Ends (Proc.bind (Proc.some? (({ c with last := some sm } : Client), CErr.encrypt) (encryptWith A c.keys iv plain)) _) t1 r := h1
  rw [hb] at h1
  obtain ⟨o, t2, rfl, h2⟩ := Prog.ends_act h1
  refine ⟨iv, body, o, hb, ?_, ?_⟩
  · have h2 : Prog.Ends (Proc.bind (Proc.some? _ (o : Option NetReply)) _) t2 r := h2
    cases ho : (o : Option NetReply) with
    | none =>
      rw [ho] at h2
      obtain ⟨rfl, -⟩ := Prog.ends_ret h2
      rfl
    | some q =>
      rw [ho] at h2
      have h2 : Prog.Ends (receivedQ (receive A dec (({ c with last := some sm } : Client).setKeys nk) sm q)) t2 r := h2
      rw [receivedQ_eq] at h2
      obtain ⟨rfl, -⟩ := Prog.ends_ret h2
      rfl
  · rintro q hq
    have hq : (o : Option NetReply) = some q := hq
    have h2 : Prog.Ends (Proc.bind (Proc.some? _ (o : Option NetReply)) _) t2 r := h2
    rw [hq] at h2
    have h2 : Prog.Ends (receivedQ (receive A dec (({ c with last := some sm } : Client).setKeys nk) sm q)) t2 r := h2
    rw [receivedQ_eq] at h2
    exact (Prog.ends_ret h2).2.symm

/-- A good reply is read. -/
theorem receive_good {q : NetReply} {p : Bytes} {m : R} (h1 : q.success = true) (h2 : q.type = .code sm.code)
    (h3 : q.auth ≠ some none) (h4 : decryptWith A c.keys q.body = some p) (h5 : dec p = some m) :
    receive A dec c sm q = (⟨q.auth.join.or c.token, c.keys, c.last, some (c.nonInterop.getD q.kdfHeader)⟩, .ok m) := by
  have hc : MsgType.ofCode sm.code = some sm := by cases sm <;> rfl
  have hr : replyType q = .ok sm := by simp only [replyType, h2, hc]
  have ho : outcome A dec c.keys sm sm q = .ok m := by simp [outcome, h1, h4, h5]
  unfold receive
  rw [hr]
  simp only
  obtain ⟨tok, k, l, n⟩ := c
  cases ha : q.auth with
  | none => rw [noteKdf_eq]; simp only at ho ⊢; rw [ho]; rfl
  | some o =>
    cases o with
    | none => exact absurd ha h3
    | some tok => rw [noteKdf_eq]; simp only [Client.setToken] at ho ⊢; rw [ho]; rfl

end Verif.Http

namespace Verif.Device
open Verif Verif.Voucher Verif.Types
variable {R : DevEnv} {α : Type} {A : Http.Aead} {dec : Bytes → Option α} {cl : Http.Client} {om sm : MsgType} {plain : Bytes}
    {nk : Option (Option Http.Keys)} {t : Trace (sig R)}

theorem ends_mapErr_all {S : Sig} {ε ε' : Type} {f : ε → ε'} {p : Proc S ε α} {t : Trace S} {r : Res ε' α}
    (h : Prog.Ends (Proc.mapErr f p) t r) : ∃ r', Prog.Ends p t r' ∧ (∀ a, r' = .ok a → r = .ok a) ∧ (∀ a, r = .ok a → r' = .ok a) := by
  obtain ⟨r', t1, t2, rfl, h1, h2⟩ := Prog.ends_bind h
  cases r' with
  | ok a =>
    obtain ⟨rfl, h3⟩ := Prog.ends_ret h2
    rw [List.append_nil]
    exact ⟨_, h1, fun b hb => by cases hb; exact h3.symm, fun b hb => by subst h3; cases hb; rfl⟩
  | err e =>
    obtain ⟨rfl, h3⟩ := Prog.ends_ret h2
    rw [List.append_nil]
    exact ⟨_, h1, fun b hb => (by cases hb), fun b hb => by subst h3; cases hb⟩
  | panic =>
    obtain ⟨rfl, h3⟩ := Prog.ends_ret h2
    rw [List.append_nil]
    exact ⟨_, h1, fun b hb => (by cases hb), fun b hb => by subst h3; cases hb⟩

/-- A message which is sent; a good reply to it is read. -/
theorem ends_say_sent {r : Res (Http.Client × DevErr) (Http.Client × α)} (hp : Http.precheck cl om sm nk = none)
    (he : ∀ iv, (Http.encryptWith A cl.keys iv plain).isSome = true)
    (h : Prog.Ends (say A dec cl om sm plain nk : Step R _) t r) :
    ∃ iv body o, Http.encryptWith A cl.keys iv plain = some body ∧
      t = [⟨.iv, iv⟩, ⟨.net ⟨om, cl.token, body⟩, (o : Option Http.NetReply)⟩] ∧
      ∀ q p m, o = some q → q.success = true → q.type = .code sm.code → q.auth ≠ some none →
        Http.decryptWith A (nk.getD cl.keys) q.body = some p → dec p = some m →
        r = .ok (⟨q.auth.join.or cl.token, nk.getD cl.keys, some sm, some (cl.nonInterop.getD q.kdfHeader)⟩, m) := by
  obtain ⟨r', h1, h2, -⟩ := ends_mapErr_all h
  obtain ⟨iv, body, o, h3, h4, h5⟩ := Http.ends_sendQ_sent hp he h1
  refine ⟨iv, body, o, h3, h4, fun q p m hq g1 g2 g3 g4 g5 => ?_⟩
  have h6 := h5 q hq
  have hk : (({ cl with last := some sm } : Http.Client).setKeys nk).keys = nk.getD cl.keys := by cases nk <;> rfl
  rw [Http.receive_good g1 g2 g3 (by rw [hk]; exact g4) g5] at h6
  refine h2 _ (h6.trans ?_)
  simp only [Http.resultQ]
  rw [hk]
  cases nk <;> rfl

end Verif.Device

import Verif.Model.Http
import Verif.Lemmas.Proc
/-!
The HTTP client (`http-wrapper/src/client.rs`) as part of a larger program: `sendP` is `Http.send` where the random IV and the
reply are answers of the surroundings. Nothing is assumed about replies, so the network may do anything. Other effects of
the program are those of a signature `X`.
-/
namespace Verif.Http
open Verif

/-- Effects of a program with network access: a random IV, an HTTP request with its reply, and its other effects. -/
inductive NetEff (X : Sig) where
  | iv
  | net (s : Sent)
  | app (e : X.Eff)

/-- Answers: the IV, the reply (`none`: connection failure). -/
def NetEff.Ans {X : Sig} : NetEff X → Type
  | .iv => Bytes
  | .net _ => Option NetReply
  | .app e => X.Ans e

/-- Programs with network access. -/
abbrev netSig (X : Sig) : Sig := ⟨NetEff X, NetEff.Ans⟩

variable {X : Sig} {ε R : Type}

/-- The end of `send_request` (client.rs:242-304): what was received. -/
def received (wrap : CErr → ε) : Client × Res CErr R → Proc (netSig X) ε (Client × R)
  | (c, .ok m) => pure (c, m)
  | (_, .err e) => Proc.fail (wrap e)
  | (_, .panic) => Prog.ret .panic

/-- `ServiceClient::send_request` (client.rs:168-304) with the answers asked for on the way, see `send`. The client's state is
returned after success only: the programs modelled give up a client after an error. -/
def sendP (wrap : CErr → ε) (A : Aead) (dec : Bytes → Option R) (c : Client) (om sm : MsgType) (plain : Bytes)
    (newKeys : Option (Option Keys)) : Proc (netSig X) ε (Client × R) :=
  match precheck c om sm newKeys with
  | some e => Proc.fail (wrap e)
  | none => do
    let iv ← Proc.ask (S := netSig X) .iv
    let body ← Proc.some? (wrap .encrypt) (encryptWith A c.keys iv plain)
    let r ← Proc.ask (S := netSig X) (.net ⟨om, c.token, body⟩)
    let r ← Proc.some? (wrap .network) (r : Option NetReply)
    received wrap (receive A dec (({ c with last := some sm } : Client).setKeys newKeys) sm r)

/-- Effects of the program itself. -/
def app (e : X.Eff) : Proc (netSig X) ε (X.Ans e) := Proc.ask (S := netSig X) (.app e)

theorem ends_app {e : X.Eff} {t : Trace (netSig X)} {r : Res ε (X.Ans e)} (h : Prog.Ends (app e : Proc (netSig X) ε _) t r) :
    ∃ a, r = .ok a ∧ t = [⟨.app e, a⟩] := Proc.ends_ask h

theorem does_app {e : X.Eff} {t : Trace (netSig X)} (h : Prog.Does (app e : Proc (netSig X) ε _) t) :
    t = [] ∨ ∃ a, t = [⟨.app e, a⟩] := Proc.does_ask h

/-- A successful exchange: the checks passed, one request was sent, and `send` makes the same of the reply. -/
theorem ends_sendP {wrap : CErr → ε} {A : Aead} {dec : Bytes → Option R} {c c' : Client} {om sm : MsgType} {plain : Bytes}
    {nk : Option (Option Keys)} {m : R} {t : Trace (netSig X)}
    (h : Prog.Ends (sendP wrap A dec c om sm plain nk : Proc (netSig X) ε _) t (.ok (c', m))) :
    ∃ iv body r, t = [⟨.iv, iv⟩, ⟨.net ⟨om, c.token, body⟩, some r⟩] ∧ precheck c om sm nk = none ∧
      encryptWith A c.keys iv plain = some body ∧
      send A dec c om sm plain iv nk (fun _ => some r) = (c', .ok m) := by
  unfold sendP at h
  cases hp : precheck c om sm nk with
  | some e => rw [hp] at h; exact (Proc.ends_fail h).elim
  | none =>
    rw [hp] at h
    simp only at h
    obtain ⟨iv, t1, rfl, h1⟩ := Proc.ends_ask_bind h
    obtain ⟨body, hb, h2⟩ := Proc.ends_some_bind h1
    obtain ⟨r, t2, rfl, h3⟩ := Proc.ends_ask_bind h2
    obtain ⟨r', hr, h4⟩ := Proc.ends_some_bind h3
    have hr : (r : Option NetReply) = some r' := hr
    subst hr
    clear h h1 h2 h3
    unfold received at h4
    split at h4
    · rename_i c1 m1 he
      obtain ⟨rfl, h⟩ := Proc.ends_pure h4
      cases h
      refine ⟨iv, body, r', rfl, rfl, hb, ?_⟩
      unfold send
      rw [hp]
      simp only [hb]
      exact he
    · exact (Proc.ends_fail h4).elim
    · cases (Prog.ends_ret h4).2

/-- What an exchange may do: nothing but one request, of the given type and after the checks. -/
theorem does_sendP {wrap : CErr → ε} {A : Aead} {dec : Bytes → Option R} {c : Client} {om sm : MsgType} {plain : Bytes}
    {nk : Option (Option Keys)} {t : Trace (netSig X)}
    (h : Prog.Does (sendP wrap A dec c om sm plain nk : Proc (netSig X) ε _) t) :
    t = [] ∨ (∃ iv, t = [⟨.iv, iv⟩]) ∨ ∃ iv body r, t = [⟨.iv, iv⟩, ⟨.net ⟨om, c.token, body⟩, r⟩] ∧
      precheck c om sm nk = none ∧ encryptWith A c.keys iv plain = some body := by
  unfold sendP at h
  cases hp : precheck c om sm nk with
  | some e => rw [hp] at h; exact .inl (Proc.does_fail h)
  | none =>
    rw [hp] at h
    simp only at h
    rcases Proc.does_ask_bind h with h0 | ⟨iv, t1, rfl, h1⟩
    · exact .inl h0
    rcases Proc.does_some_bind h1 with rfl | ⟨body, hb, h2⟩
    · exact .inr (.inl ⟨iv, rfl⟩)
    rcases Proc.does_ask_bind h2 with rfl | ⟨r, t2, rfl, h3⟩
    · exact .inr (.inl ⟨iv, rfl⟩)
    refine .inr (.inr ⟨iv, body, r, ?_, rfl, hb⟩)
    have : t2 = [] := by
      rcases Proc.does_some_bind h3 with h0 | ⟨r', _, h4⟩
      · exact h0
      unfold received at h4
      split at h4
      · exact Proc.does_pure h4
      · exact Proc.does_fail h4
      · exact Proc.does_lift h4
    rw [this]

end Verif.Http

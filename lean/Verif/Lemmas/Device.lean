import Verif.Model.Device
import Verif.Lemmas.NetClient
/-!
Taking apart the steps of the device's client.
-/
namespace Verif

namespace Proc
variable {S : Sig} {α β ε ε' : Type} {P : S.Eff → Prop} {f : ε → ε'}

theorem ends_mapErr {p : Proc S ε α} {t : Trace S} {a : α} (h : Prog.Ends (mapErr f p) t (.ok a)) : Prog.Ends p t (.ok a) := by
  obtain ⟨r, t1, t2, rfl, h1, h2⟩ := Prog.ends_bind h
  cases r with
  | ok b =>
    obtain ⟨rfl, h3⟩ := Prog.ends_ret h2
    cases h3
    rw [List.append_nil]
    exact h1
  | err e => cases (Prog.ends_ret h2).2
  | panic => cases (Prog.ends_ret h2).2

theorem mapErr_ends {p : Proc S ε α} {t : Trace S} {a : α} (h : Prog.Ends p t (.ok a)) : Prog.Ends (mapErr f p) t (.ok a) := by
  unfold mapErr
  rw [← List.append_nil t]
  exact Prog.bind_steps h (.nil _)

theorem mapErr_fails {p : Proc S ε α} {t : Trace S} {e : ε} (h : Prog.Ends p t (.err e)) :
    Prog.Ends (mapErr f p) t (.err (f e)) := by
  unfold mapErr
  rw [← List.append_nil t]
  exact Prog.bind_steps h (.nil _)

theorem does_mapErr {p : Proc S ε α} {t : Trace S} (h : Prog.Does (mapErr f p) t) : Prog.Does p t := by
  obtain ⟨q, h⟩ := h
  rcases Prog.steps_bind h with ⟨p', h1, _⟩ | ⟨r, t1, t2, rfl, h1, h2⟩
  · exact ⟨p', h1⟩
  · have : t2 = [] := by cases r <;> exact (Prog.steps_ret h2).1
    subst this
    rw [List.append_nil]
    exact ⟨_, h1⟩

theorem only_mapErr {p : Proc S ε α} (h : Prog.Only P p) : Prog.Only P (mapErr f p) := fun t ht => h t (does_mapErr ht)

theorem reaches_mapErr {p : Proc S ε α} {t : Trace S} {d : S.Deed} (h : Reaches (mapErr f p) t d) : Reaches p t d :=
  ⟨h.choose, does_mapErr h.choose_spec⟩

theorem ends_attempt {p : Proc S ε α} {t : Trace S} {a : α} (h : Prog.Ends (attempt p) t (.ok (some a))) : Prog.Ends p t (.ok a) := by
  obtain ⟨r, t1, t2, rfl, h1, h2⟩ := Prog.ends_bind h
  cases r with
  | ok b =>
    obtain ⟨rfl, h3⟩ := Prog.ends_ret h2
    cases h3
    rw [List.append_nil]
    exact h1
  | err e => cases (Prog.ends_ret h2).2
  | panic => cases (Prog.ends_ret h2).2

theorem does_attempt {p : Proc S ε α} {t : Trace S} (h : Prog.Does (attempt p) t) : Prog.Does p t := by
  obtain ⟨q, h⟩ := h
  rcases Prog.steps_bind h with ⟨p', h1, _⟩ | ⟨r, t1, t2, rfl, h1, h2⟩
  · exact ⟨p', h1⟩
  · have : t2 = [] := by cases r <;> exact (Prog.steps_ret h2).1
    subst this
    rw [List.append_nil]
    exact ⟨_, h1⟩

theorem reaches_attempt {p : Proc S ε α} {t : Trace S} {d : S.Deed} (h : Reaches (attempt p) t d) : Reaches p t d :=
  ⟨h.choose, does_attempt h.choose_spec⟩

theorem reaches_ask {e : S.Eff} {t : Trace S} {d : S.Deed} (h : Reaches (ask e : Proc S ε _) t d) : t = [] ∧ d.1 = e := by
  obtain ⟨u, h⟩ := h
  rcases does_ask h with h | ⟨a, h⟩
  · simp at h
  · cases t with
    | nil =>
      simp only [List.nil_append, List.cons.injEq] at h
      exact ⟨rfl, by rw [h.1]⟩
    | cons x t => simp at h

end Proc

namespace Http
variable {X : Sig} {R ε : Type}

/-- The two models of an exchange agree. -/
theorem sendP_eq {wrap : CErr → ε} {A : Aead} {dec : Bytes → Option R} {c : Client} {om sm : MsgType} {plain : Bytes}
    {nk : Option (Option Keys)} : (sendP wrap A dec c om sm plain nk : Proc (netSig X) ε _) =
    Proc.mapErr (fun x => wrap x.2) (sendQ A dec c om sm plain nk) := by
  unfold sendP sendQ
  cases precheck c om sm nk with
  | some e => rfl
  | none =>
    refine congrArg (Prog.act (S := netSig X) .iv) (funext fun iv => ?_)
    change Proc.bind (Proc.some? _ (encryptWith A c.keys iv plain)) _ =
      Proc.mapErr _ (Proc.bind (Proc.some? _ (encryptWith A c.keys iv plain)) _)
    cases hb : encryptWith A c.keys iv plain with
    | none => rfl
    | some body =>
      refine congrArg (Prog.act (S := netSig X) (.net ⟨om, c.token, body⟩)) (funext fun r => ?_)
      change Proc.bind (Proc.some? _ (r : Option NetReply)) _ =
        Proc.mapErr _ (Proc.bind (Proc.some? _ (r : Option NetReply)) _)
      cases (r : Option NetReply) with
      | none => rfl
      | some r =>
        change received wrap _ = Proc.mapErr _ (receivedQ _)
        rcases receive A dec (({ c with last := some sm } : Client).setKeys nk) sm r with ⟨c', m | e | _⟩ <;> rfl

variable {A : Aead} {dec : Bytes → Option R} {c : Client} {om sm : MsgType} {plain : Bytes}
    {nk : Option (Option Keys)} {t : Trace (netSig X)}

theorem ends_sendQ {x : Client × R} (h : Prog.Ends (sendQ A dec c om sm plain nk : Proc (netSig X) _ _) t (.ok x)) :
    ∃ iv body r, t = [⟨.iv, iv⟩, ⟨.net ⟨om, c.token, body⟩, some r⟩] ∧
      Exchanged A dec c x.1 om sm plain iv nk body r x.2 :=
  ends_send (wrap := id) (by rw [sendP_eq]; exact Proc.mapErr_ends h)

theorem does_mapErr' {S : Sig} {α ε ε' : Type} {f : ε → ε'} {p : Proc S ε α} {t : Trace S} (h : Prog.Does p t) :
    Prog.Does (Proc.mapErr f p) t := by
  obtain ⟨q, h⟩ := h
  induction h with
  | nil p => exact ⟨_, .nil _⟩
  | cons h ih =>
    obtain ⟨q', h'⟩ := ih
    exact ⟨q', .cons h'⟩

theorem does_sendQ (h : Prog.Does (sendQ A dec c om sm plain nk : Proc (netSig X) _ _) t) :
    t = [] ∨ (∃ iv, t = [⟨.iv, iv⟩]) ∨ ∃ iv body r, t = [⟨.iv, iv⟩, ⟨.net ⟨om, c.token, body⟩, r⟩] ∧
      precheck c om sm nk = none ∧ encryptWith A c.keys iv plain = some body :=
  does_sendP (wrap := id) (by rw [sendP_eq]; exact does_mapErr' h)

theorem reaches_sendQ {s : Sent} {r : Option NetReply}
    (h : Proc.Reaches (sendQ A dec c om sm plain nk : Proc (netSig X) _ _) t ⟨.net s, r⟩) :
    ∃ iv, t = [⟨.iv, iv⟩] ∧ precheck c om sm nk = none ∧ encryptWith A c.keys iv plain = some s.body ∧
      s.type = om ∧ s.auth = c.token :=
  reaches_send (wrap := id) (by
    rw [sendP_eq]
    obtain ⟨u, h⟩ := h
    exact ⟨u, does_mapErr' h⟩)

theorem only_sendQ {P : NetEff X → Prop} (hiv : P .iv) (hs : ∀ s : Sent, s.type = om → P (.net s)) :
    Prog.Only (S := netSig X) P (sendQ A dec c om sm plain nk : Proc (netSig X) _ _) := by
  intro t h
  have := only_send (X := X) (wrap := id) (A := A) (dec := dec) (c := c) (sm := sm) (plain := plain) (nk := nk) hiv hs t
  rw [sendP_eq] at this
  exact this (does_mapErr' h)

end Http

namespace Device
open Verif Verif.Voucher Verif.Types Verif.ServiceInfo Verif.Fs
variable {R : DevEnv} {c : Bool} {A : Http.Aead} {α β : Type} {cl : Http.Client} {t : Trace (sig R)} {P : (sig R).Eff → Prop}

section say
variable {dec : Bytes → Option α} {om sm : MsgType} {plain : Bytes} {nk : Option (Option Http.Keys)}

theorem ends_say {x : Http.Client × α} (h : Prog.Ends (say A dec cl om sm plain nk : Step R _) t (.ok x)) :
    ∃ iv body r, t = [⟨.iv, iv⟩, ⟨.net ⟨om, cl.token, body⟩, some r⟩] ∧
      Http.Exchanged A dec cl x.1 om sm plain iv nk body r x.2 := Http.ends_sendQ (Proc.ends_mapErr h)

theorem reaches_say {s : Http.Sent} {r : Option Http.NetReply}
    (h : Proc.Reaches (say A dec cl om sm plain nk : Step R _) t ⟨.net s, r⟩) :
    ∃ iv, t = [⟨.iv, iv⟩] ∧ Http.precheck cl om sm nk = none ∧ Http.encryptWith A cl.keys iv plain = some s.body ∧
      s.type = om ∧ s.auth = cl.token := Http.reaches_sendQ (Proc.reaches_mapErr h)

theorem only_say (hiv : P .iv) (hs : ∀ s : Http.Sent, s.type = om → P (.net s)) :
    Prog.Only P (say A dec cl om sm plain nk : Step R _) := Proc.only_mapErr (Http.only_sendQ hiv hs)

end say

theorem ends_given {r : Res DevErr α} {a : α} (h : Prog.Ends (given cl r : Step R α) t (.ok a)) : t = [] ∧ r = .ok a :=
  Proc.ends_lift (Proc.ends_mapErr h)

theorem only_given {r : Res DevErr α} : Prog.Only P (given cl r : Step R α) := Proc.only_mapErr Proc.only_lift

theorem ends_freshNonce {n : Bytes} (h : Prog.Ends (freshNonce cl : Step R Bytes) t (.ok n)) :
    t = [⟨.app .nonce, (some n : Option Bytes)⟩] := by
  obtain ⟨a, t', rfl, h1⟩ := Proc.ends_ask_bind h
  obtain ⟨rfl, ha⟩ := Proc.ends_some? h1
  have ha : a = some n := ha
  rw [ha]

theorem only_freshNonce (h : P (.app .nonce)) : Prog.Only P (freshNonce cl : Step R Bytes) :=
  Proc.only_bind (Http.only_app (X := ops R) h) fun _ => Proc.only_some?

theorem ends_signToken {unprot payload b : Bytes} (h : Prog.Ends (signToken cl unprot payload : Step R Bytes) t (.ok b)) :
    ∃ x : Bytes × Bytes, t = [⟨.app (.sign payload), (some x : Option (Bytes × Bytes))⟩] ∧
      liftD (liftP (Cbor.serialize ⟨some 18, [R.E.encBytes x.1, unprot, R.E.encBytes payload, R.E.encBytes x.2]⟩)) = .ok b := by
  obtain ⟨a, t', rfl, h1⟩ := Proc.ends_ask_bind h
  obtain ⟨x, ha, h2⟩ := Proc.ends_some_bind h1
  have ha : a = some x := ha
  obtain ⟨rfl, h3⟩ := ends_given h2
  exact ⟨x, by rw [ha], h3⟩

theorem only_signToken {unprot payload : Bytes} (h : P (.app (.sign payload))) :
    Prog.Only P (signToken cl unprot payload : Step R Bytes) :=
  Proc.only_bind (Http.only_app (X := ops R) h) fun _ => Proc.only_bind Proc.only_some? fun _ => only_given

/-! ### Reporting errors -/

theorem only_sendError {e : DevErr} (hid : P (.app .uuid)) (hiv : P .iv) (hs : ∀ s : Http.Sent, s.type = .error → P (.net s)) :
    Prog.Only P (sendError A cl e : Proc (sig R) DevErr Unit) :=
  Proc.only_bind (Http.only_app (X := ops R) hid) fun _ =>
    Proc.only_bind (Proc.only_mapErr (Proc.only_attempt (Http.only_sendQ hiv hs))) fun _ => Proc.only_pure

theorem ends_reporting {p : Step R α} {a : α} (h : Prog.Ends (reporting A p) t (.ok a)) : Prog.Ends p t (.ok a) := by
  obtain ⟨r, t1, t2, rfl, h1, h2⟩ := Prog.ends_bind h
  cases r with
  | ok b =>
    obtain ⟨rfl, h3⟩ := Prog.ends_ret h2
    cases h3
    rw [List.append_nil]
    exact h1
  | err e =>
    obtain ⟨_, u1, u2, rfl, _, h4⟩ := Proc.ends_bind h2
    exact (Proc.ends_fail h4).elim
  | panic => cases (Prog.ends_ret h2).2

theorem only_reporting {p : Step R α} (hp : Prog.Only P p) (hid : P (.app .uuid)) (hiv : P .iv)
    (hs : ∀ s : Http.Sent, s.type = .error → P (.net s)) : Prog.Only P (reporting A p) :=
  Prog.only_bind hp fun r => match r with
    | .ok _ => Prog.only_ret
    | .err (_, _) => Proc.only_bind (only_sendError hid hiv hs) fun _ => Proc.only_fail
    | .panic => Prog.only_ret

/-- A deed of an attempt is one of the protocol itself, unless it belongs to the error message. -/
theorem reaches_reporting {p : Step R α} {d : (sig R).Deed} (h1 : d.1 ≠ .app .uuid) (h2 : d.1 ≠ .iv)
    (h3 : ∀ s, d.1 = .net s → s.type ≠ .error) (h : Proc.Reaches (reporting A p) t d) : Proc.Reaches p t d := by
  obtain ⟨u, q, h⟩ := h
  rcases Prog.steps_bind h with ⟨p', g1, _⟩ | ⟨r, t1, t2, he, g1, g2⟩
  · exact ⟨u, p', g1⟩
  · cases r with
    | ok a =>
      obtain ⟨rfl, _⟩ := Prog.steps_ret g2
      rw [List.append_nil] at he
      exact ⟨u, _, by rw [he]; exact g1⟩
    | panic =>
      obtain ⟨rfl, _⟩ := Prog.steps_ret g2
      rw [List.append_nil] at he
      exact ⟨u, _, by rw [he]; exact g1⟩
    | err e =>
      obtain ⟨cl, e⟩ := e
      have ho : Prog.Only (fun x : (sig R).Eff => x ≠ d.1)
          (do
            sendError A cl e
            Proc.fail e : Proc (sig R) DevErr α) :=
        Proc.only_bind (only_sendError (Ne.symm h1) (Ne.symm h2) fun s hs hd => h3 s hd.symm hs) fun _ => Proc.only_fail
      have hn : d ∉ t2 := fun hd => ho t2 ⟨q, g2⟩ d hd rfl
      rw [List.append_eq_append_iff] at he
      rcases he with ⟨as, rfl, h4⟩ | ⟨bs, rfl, rfl⟩
      · cases as with
        | nil =>
          rw [List.nil_append] at h4
          exact absurd (by rw [← h4]; simp) hn
        | cons x as =>
          rw [List.cons_append, List.cons.injEq] at h4
          obtain ⟨rfl, _⟩ := h4
          exact ⟨as, _, g1⟩
      · exact absurd (by simp) hn

end Device
end Verif

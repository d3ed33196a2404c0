import Verif.Spec.History
import Verif.Model.NetClient
/-!
A client and a server of the models talking to each other over an unreliable network: requests and replies may get lost, but
those that arrive are unchanged. Anything else may happen to the server in between, except that others do not take part in the
client's session.
-/
namespace Verif.Http
open Verif
variable {Sv : Server} {M : Type} {X : Sig}

/-- The request `s` of the client arrives at the server as `rq`. A fresh cookie is written in base64, without spaces. -/
structure Carries (s : Sent) (rq : Request Sv) : Prop where
  type : rq.type = s.type
  content : rq.cborContent = true
  auth : rq.auth = s.auth
  body : rq.body = s.body
  cookie : ' ' ∉ rq.freshCookie

/-- The server's reply arrives as `r` (server.rs:300-320): the token becomes an Authorization header. `kdf` says whether the
server announces the other key derivation. Of a rejection only the status is of interest. -/
def Arrives (kdf : Bool) : Reply → NetReply → Prop
  | .ok om b tok, r => r = ⟨true, .code om.code, tok.map fun t => some ("Bearer ".toList ++ t), kdf, b⟩
  | .reject, r => r.success = false

/-- The event is not part of the session `i`. -/
def Apart (i : Option Sv.Id) (σ : St Sv) : Event Sv M → Prop
  | .request rq => ∀ j, i = some j → ¬ InSession σ rq j
  | .expire j => i ≠ some j
  | .internal _ => True

/-- The client's session after a request. -/
def turn (i : Option Sv.Id) : Option (Accepted Sv) → Option Sv.Id
  | some a => some a.id
  | none => i

variable (mv : M → Sv.W → Sv.W) (σ0 : St Sv) (kdf : Request Sv → Bool)

/-- `Talk i p h t`: after the history `p`, with `i` being the client's session, the client does `t` while `h` happens to the
server. -/
inductive Talk : Option Sv.Id → List (Event Sv M) → List (Event Sv M) → Trace (netSig X) → Prop
  | done {i : Option Sv.Id} {p h : List (Event Sv M)} : Talk i p h []
  | other {i : Option Sv.Id} {p h : List (Event Sv M)} {t : Trace (netSig X)} (e : Event Sv M)
      (ha : Apart i (replay mv σ0 p) e) (ht : Talk i (p ++ [e]) h t) : Talk i p (e :: h) t
  | iv {i : Option Sv.Id} {p h : List (Event Sv M)} {t : Trace (netSig X)} (x : Bytes) (ht : Talk i p h t) :
      Talk i p h (⟨.iv, x⟩ :: t)
  | app {i : Option Sv.Id} {p h : List (Event Sv M)} {t : Trace (netSig X)} (e : X.Eff) (a : X.Ans e) (ht : Talk i p h t) :
      Talk i p h (⟨.app e, a⟩ :: t)
  | lost {i : Option Sv.Id} {p h : List (Event Sv M)} {t : Trace (netSig X)} (s : Sent) (ht : Talk i p h t) :
      Talk i p h (⟨.net s, (none : Option NetReply)⟩ :: t)
  | served {i : Option Sv.Id} {p h : List (Event Sv M)} {t : Trace (netSig X)} (s : Sent) (rq : Request Sv)
      (r : Option NetReply) (hc : Carries s rq)
      (hr : ∀ r', r = some r' → Arrives (kdf rq) (step (replay mv σ0 p) rq).2 r')
      (ht : Talk (turn i (accept (replay mv σ0 p) rq)) (p ++ [.request rq]) h t) :
      Talk i p (.request rq :: h) (⟨.net s, r⟩ :: t)

/-- Decryption undoes encryption. -/
def Opens (A : Aead) : Prop := ∀ k iv p b, A.encrypt k iv p = some b → A.decrypt k b = some p

end Verif.Http

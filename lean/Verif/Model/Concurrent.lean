import Verif.Model.RvServer
import Verif.Model.OwnerServer
import Verif.Model.MfgServer
/-!
Requests which are served at the same time. In `Model/Http` a request is one step; here it is taken apart
as the code is: the session is read and the request parsed (http-wrapper/src/server.rs:421-462, 175-239), the
handler runs, operation by operation on the server's stores, and the session is stored and the response sent
(server.rs:259-298, 322-363). Any other request may be served in between; nothing in the code locks a session
or a store entry. A client which hangs up has its request dropped where it stands.

Simplified: an operation on a store (or on the session store) is one step. In the code storing a session
is writing it and then setting its lifetime; as sessions may expire at any time here, the second adds nothing.
-/
namespace Verif.Http
open Verif

/-- A handler at work: it is done, or it does an operation on the world and goes on with what it found. -/
inductive Task (W A : Type) where
  | ret (r : Option A)
  | op (f : W → W) (k : W → Task W A)

/-- Running a handler without interruption. -/
def Task.run {W A : Type} : Task W A → W → W × Option A
  | .ret r, w => (w, r)
  | .op f k, w => (k w).run (f w)

/-- A handler which does one operation on the world. -/
def Task.once {W A : Type} (h : W → W × Option A) : Task W A := .op (fun w => (h w).1) (fun w => .ret (h w).2)

/-- How the handlers of a server go about their work. -/
abbrev Work (Sv : Server) :=
  Sv.Oracle → MsgType → Sv.Req → Sv.S → Option Keys → Task Sv.W (Sv.Resp × Sv.S × Option Keys)

/-- Handlers which do one operation on the world. -/
def oneStep (Sv : Server) : Work Sv := fun o t r s k => .once (Sv.handle o t r s k)

/-- A request being served: with the session as it was read, and what the handler has still to do. -/
structure Flight (Sv : Server) where
  rq : Request Sv
  a : Accepted Sv
  task : Task Sv.W (Sv.Resp × Sv.S × Option Keys)

/-- A server with the requests it is serving, numbered in the order in which they came. -/
structure CSt (Sv : Server) where
  st : St Sv
  flights : Nat → Option (Flight Sv)
  next : Nat

/-- What happens to a server: a request comes and its session is read; the handler of a request does its next
operation; a request is answered; a request is dropped; a session expires; an internal move. -/
inductive CEvent (Sv : Server) (M : Type) where
  | arrive (rq : Request Sv)
  | work (n : Nat)
  | finish (n : Nat)
  | drop (n : Nat)
  | expire (i : Sv.Id)
  | internal (m : M)

variable {Sv : Server} {M : Type}

/-- The entry for a request is replaced. -/
def CSt.put (σ : CSt Sv) (n : Nat) (f : Option (Flight Sv)) : CSt Sv :=
  { σ with flights := fun m => if m = n then f else σ.flights m }

/-- Arrival of a request (server.rs:405-462): refused, or handed to its handler. -/
def carrive (wk : Work Sv) (σ : CSt Sv) (rq : Request Sv) : CSt Sv :=
  match accept σ.st rq with
  | none => { σ with next := σ.next + 1 }
  | some a => { (σ.put σ.next (some ⟨rq, a, wk rq.oracle rq.type a.req a.sess.data a.sess.keys⟩)) with
      next := σ.next + 1 }

/-- The next operation of the handler of request `n`. -/
def work (σ : CSt Sv) (n : Nat) : CSt Sv :=
  match σ.flights n with
  | some ⟨rq, a, .op f k⟩ => { (σ.put n (some ⟨rq, a, k σ.st.world⟩)) with st := { σ.st with world := f σ.st.world } }
  | _ => σ

/-- The end of request `n` (server.rs:259-298), once its handler is done: the session is stored, as the
handler left the copy read at the beginning. -/
def finish (σ : CSt Sv) (n : Nat) : CSt Sv :=
  match σ.flights n with
  | some ⟨_, _, .ret none⟩ => σ.put n none
  | some ⟨rq, a, .ret (some (_, data, keys))⟩ =>
    if rq.storeOk then { (σ.put n none) with st := putSession σ.st a.id ⟨some a.om, keys, data⟩ } else σ.put n none
  | _ => σ

/-- The reply the client of request `n` gets when it is ended (server.rs:322-363); `none`: the handler is still
at work. -/
def replyOf (σ : CSt Sv) (n : Nat) : Option Reply :=
  match σ.flights n with
  | some ⟨_, _, .ret none⟩ => some .reject
  | some ⟨rq, a, .ret (some (resp, _, keys))⟩ =>
    some (if rq.storeOk then respond a.om resp a.cookie keys rq.iv else .reject)
  | _ => none

/-- Effect of an event; `move` gives the internal moves. -/
def cafter (wk : Work Sv) (move : M → Sv.W → Sv.W) (σ : CSt Sv) : CEvent Sv M → CSt Sv
  | .arrive rq => carrive wk σ rq
  | .work n => work σ n
  | .finish n => finish σ n
  | .drop n => σ.put n none
  | .expire i => { σ with st := { σ.st with sessions := fun j => if j = i then none else σ.st.sessions j } }
  | .internal m => { σ with st := { σ.st with world := move m σ.st.world } }

/-- State after a history. -/
def creplay (wk : Work Sv) (move : M → Sv.W → Sv.W) (σ : CSt Sv) : List (CEvent Sv M) → CSt Sv
  | [] => σ
  | e :: r => creplay wk move (cafter wk move σ e) r

/-- A server that has not served anything yet. -/
def cstart (w : Sv.W) : CSt Sv := ⟨⟨fun _ => none, w⟩, fun _ => none, 0⟩

end Verif.Http

namespace Verif.RvServer
open Verif Verif.Voucher Verif.Store

variable (R : RvEnv) (c : Bool) (B : Backend (Item R)) (cfg : Config R)

/-- Storing a registration (handlers_to0.rs:190-213), in two operations: the item, then its lifetime. -/
def registerTask {A : Type} (o : Oracle) (r : Registration R) (fin : Nat → Option A) : Http.Task B.W A :=
  match guidKey r.guid with
  | none => .ret none
  | some k => .op (fun w => (B.put w k r.item).1) fun w =>
    match (B.put w k r.item).2 with
    | .ok () =>
      if o.stopped then .ret none
      else .op (fun w => (B.setTtl o.now w k ((r.wait : Int) * (second : Int))).1) fun w =>
        match (B.setTtl o.now w k ((r.wait : Int) * (second : Int))).2 with
        | .ok () => .ret (fin r.wait)
        | _ => .ret none
    | _ => .ret none

/-- The handlers of the rendezvous server (main.rs:159-181) at work: `ownersign` (handlers_to0.rs:35-221) does two
operations on the store, the others at most one. -/
def workOf (Id : Type) [DecidableEq Id] (idOf : List Char → Option Id) (aead : Http.Aead) (encode : Resp → Bytes) :
    Http.Work (server R c B cfg Id idOf aead encode) := fun o t r s k =>
  match r with
  | .ownerSign to0d to1d =>
    match s.nonce3.bind parseNonce with
    | none => .ret none
    | some n =>
      match checkOwnerSign R c cfg n to0d to1d with
      | .ok r => registerTask R B o r fun wait => some (.acceptOwner wait, s, k)
      | _ => .ret none
  | r => .once ((server R c B cfg Id idOf aead encode).handle o t r s k)

end Verif.RvServer

namespace Verif.OwnerServer
open Verif Verif.Voucher Verif.Store

variable {R : OwnerEnv} (B : VStore (Voucher R.E))

/-- Internal moves of the owner server (main.rs:86-207, 317-350), taken apart: a voucher is imported under its GUID, a
granted time is stored for some GUID, or the store is maintained. Reporting vouchers takes time; here, any time may
be stored for any GUID at any moment, which includes what the loops do. -/
inductive CMove (R : OwnerEnv) where
  | import (v : Voucher R.E)
  | wait (now : Nat) (g : Bytes) (s : Nat)
  | maintain (now : Nat) (ls : List Name)

/-- Effect of these moves. -/
def cmove (m : CMove R) (w : B.W) : B.W :=
  match m with
  | .import v => importV B v w
  | .wait now g s => (B.setWait now w (guidText g) s).1
  | .maintain now ls => B.maintain now ls w

end Verif.OwnerServer

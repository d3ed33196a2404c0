import Verif.Model.Concurrent
import Verif.Spec.RvServer
import Verif.Spec.OwnerServer
import Verif.Spec.MfgServer
/-!
What servers should guarantee when requests are served at the same time. As in `Spec/RvServer` and
`Spec/OwnerServer`, claims about a state are claims about what happened before. A session may expire while a
request in it is being served, and is there again when the request ends; so evidence does not mention expiry.
-/
namespace Verif.Http
open Verif

variable {Sv : Server} {M : Type}

/-- Request `n` is being served as `rq`, in session `i`. -/
def InFlight (σ : CSt Sv) (n : Nat) (rq : Request Sv) (i : Sv.Id) : Prop :=
  ∃ a t, σ.flights n = some ⟨rq, a, t⟩ ∧ a.id = i

/-- With the event `e` in state `σ`, the request `rq` in session `i` is answered by `rep`. -/
def Replies (σ : CSt Sv) (e : CEvent Sv M) (rq : Request Sv) (i : Sv.Id) (rep : Reply) : Prop :=
  ∃ n, e = .finish n ∧ InFlight σ n rq i ∧ replyOf σ n = some rep

/-- With the event `e` in state `σ`, the server works on request `rq` in session `i`. -/
def Works (σ : CSt Sv) (e : CEvent Sv M) (rq : Request Sv) (i : Sv.Id) : Prop :=
  ∃ n, e = .work n ∧ InFlight σ n rq i

/-- The exchange of session `i` which the event `e` ends in state `σ`, if any: request type, and the response type
recorded in the session, unless the request was refused or dropped. -/
def ended (i : Sv.Id) (σ : CSt Sv) (e : CEvent Sv M) : List (MsgType × Option MsgType) :=
  match e with
  | .finish n =>
    match σ.flights n with
    | some ⟨rq, a, .ret (some _)⟩ => if a.id = i then [(rq.type, if rq.storeOk then some a.om else none)] else []
    | some ⟨rq, a, .ret none⟩ => if a.id = i then [(rq.type, none)] else []
    | _ => []
  | .drop n =>
    match σ.flights n with
    | some ⟨rq, a, _⟩ => if a.id = i then [(rq.type, none)] else []
    | none => []
  | _ => []

/-- The exchanges of session `i` in a history, in the order in which they end. -/
def cexchanges (wk : Work Sv) (move : M → Sv.W → Sv.W) (i : Sv.Id) (σ : CSt Sv) :
    List (CEvent Sv M) → List (MsgType × Option MsgType)
  | [] => []
  | e :: r => ended i σ e ++ cexchanges wk move i (cafter wk move σ e) r

/-- In the history `h`, the request `rq` reached its handler in session `a.id`. -/
def Arrived (wk : Work Sv) (move : M → Sv.W → Sv.W) (w0 : Sv.W) (h : List (CEvent Sv M)) (rq : Request Sv)
    (a : Accepted Sv) : Prop :=
  ∃ h1 h2, h = h1 ++ .arrive rq :: h2 ∧ accept (creplay wk move (cstart w0) h1).st rq = some a

/-- Randomness of session cookies: the ids of new sessions were never used before. -/
def CFreshIds (wk : Work Sv) (move : M → Sv.W → Sv.W) (w0 : Sv.W) (h : List (CEvent Sv M)) : Prop :=
  ∀ h1 rq h2 a, h = h1 ++ .arrive rq :: h2 → accept (creplay wk move (cstart w0) h1).st rq = some a →
    a.cookie ≠ none → ∀ rq' a', Arrived wk move w0 h1 rq' a' → a'.id ≠ a.id

/-- The requests of session `i` are not served at the same time. -/
def OneByOne (wk : Work Sv) (move : M → Sv.W → Sv.W) (w0 : Sv.W) (i : Sv.Id) (h : List (CEvent Sv M)) : Prop :=
  ∀ h1 rq h2 a, h = h1 ++ .arrive rq :: h2 → accept (creplay wk move (cstart w0) h1).st rq = some a →
    a.id = i → ∀ n rq', ¬ InFlight (creplay wk move (cstart w0) h1) n rq' i

end Verif.Http

namespace Verif.RvServer
open Verif Verif.Voucher Verif.Store

section
variable (R : RvEnv) (c : Bool) (B : Backend (Item R)) (cfg : Config R)
  {Id : Type} [DecidableEq Id] (idOf : List Char → Option Id) (aead : Http.Aead) (encode : Resp → Bytes)

/-- Histories of a rendezvous server which serves requests at the same time. -/
abbrev CHist := List (Http.CEvent (server R c B cfg Id idOf aead encode) (Nat × List Name))

/-- The state reached from an empty server. -/
def creached (h : CHist R c B cfg idOf aead encode) : Http.CSt (server R c B cfg Id idOf aead encode) :=
  Http.creplay (workOf R c B cfg Id idOf aead encode) (move R B) (Http.cstart B.empty) h

/-- In the history `h`, the server handed out nonce `n` in session `i` in answer to a TO0 Hello. -/
def CNonce3 (h : CHist R c B cfg idOf aead encode) (i : Id) (n : Bytes) : Prop :=
  ∃ h1 e h2 rq tok, h = h1 ++ e :: h2 ∧ rq.type = .to0Hello ∧
    Http.Replies (creached R c B cfg idOf aead encode h1) e rq i (.ok .to0HelloAck (encode (.helloAck n)) tok)

/-- In the history `h`, the server handed out nonce `n` in session `i` in answer to a TO1 HelloRV which
named device `g`. -/
def CNonce4 (h : CHist R c B cfg idOf aead encode) (i : Id) (g n : Bytes) : Prop :=
  ∃ h1 e h2 rq tok, h = h1 ++ e :: h2 ∧ rq.type = .to1HelloRV ∧ R.decHelloRv rq.body = some (g, true, []) ∧
    Http.Replies (creached R c B cfg idOf aead encode h1) e rq i (.ok .to1HelloRVAck (encode (.helloRvAck n)) tok)

/-- In the history `h`, the server worked on a registration of `item` for device `g`, authentic for a nonce
handed out before in the same session. -/
def CRegistered (h : CHist R c B cfg idOf aead encode) (g : Bytes) (t : To0d R) (item : Item R) : Prop :=
  ∃ h1 e h2 rq i n to0d to1d, h = h1 ++ e :: h2 ∧ rq.type = .to0OwnerSign ∧
    Http.Works (creached R c B cfg idOf aead encode h1) e rq i ∧ CNonce3 R c B cfg idOf aead encode h1 i n ∧
    parseOwnerSign R c rq.body = .ok (.ownerSign to0d to1d) ∧ Authentic R c cfg n to0d to1d g t item

end
end Verif.RvServer

namespace Verif.OwnerServer
open Verif Verif.Voucher Verif.Store Verif.Types Verif.ServiceInfo

section
variable (R : OwnerEnv) (c : Bool) (B : VStore (Voucher R.E)) (cfg : Config R)
  {Id : Type} [DecidableEq Id] (idOf : List Char → Option Id) (aead : Http.Aead) (encode : Resp → Bytes)

/-- Histories of an owner server which serves requests at the same time. -/
abbrev CHist := List (Http.CEvent (server R c B cfg Id idOf aead encode) (CMove R))

/-- The state reached from a server without vouchers. -/
def creached (h : CHist R c B cfg idOf aead encode) : Http.CSt (server R c B cfg Id idOf aead encode) :=
  Http.creplay (Http.oneStep _) (cmove B) (Http.cstart B.empty) h

/-- As `HelloDone`. -/
def CHelloDone (h : CHist R c B cfg idOf aead encode) (i : Id) (g n : Bytes) (kx : KeyExchange R.K)
    (cs : CipherSuite) : Prop :=
  ∃ h1 e h2 rq tok b m key random, h = h1 ++ e :: h2 ∧ rq.type = .to2HelloDevice ∧
    Http.Replies (creached R c B cfg idOf aead encode h1) e rq i (.ok .to2ProveOVHdr b tok) ∧
    R.decHello rq.body = some m ∧ m.guid = g ∧ m.cipher = cs ∧ g.length = 16 ∧
    rq.oracle.nonce6 = some n ∧ rq.oracle.kex = some (key, random) ∧ kx = newKex m.kex key random

/-- As `Proven`: at the time of the proof, the store had the voucher `v` for the device. -/
def CProven (h : CHist R c B cfg idOf aead encode) (i : Id) (g n n7 : Bytes) (ks : Http.Keys) : Prop :=
  ∃ h1 e h2 rq v k b kx cs flag now, h = h1 ++ e :: h2 ∧ rq.type = .to2ProveDevice ∧
    Http.Works (creached R c B cfg idOf aead encode h1) e rq i ∧
    CHelloDone R c B cfg idOf aead encode h1 i g n kx cs ∧
    (B.load now (creached R c B cfg idOf aead encode h1).st.world (guidText g)).2 = .ok (some v) ∧
    DeviceKeyOf R v k ∧ SignedProof R c rq.body k n b ∧ Attached R c rq.body n7 ∧
    ks.suite = cs ∧ kx.deriveKey .owner cs flag b = .ok ks.sevk

/-- In the history `h`, the server worked on a Done request in session `i` with the nonce `n` (in clear for the
holder of the keys `ks`), when `g` had proven itself in this session. -/
def CDone (h : CHist R c B cfg idOf aead encode) (i : Id) (g n n7 : Bytes) (ks : Http.Keys) : Prop :=
  ∃ h1 e h2 rq plain, h = h1 ++ e :: h2 ∧ rq.type = .to2Done ∧
    Http.Works (creached R c B cfg idOf aead encode h1) e rq i ∧
    aead.decrypt ks.sevk rq.body = some plain ∧ R.decDone plain = some n ∧
    CProven R c B cfg idOf aead encode h1 i g n n7 ks

/-- As `CDone`, and the mark was set for `g` at that time. -/
def CMarked (h : CHist R c B cfg idOf aead encode) (rq : Http.Request (server R c B cfg Id idOf aead encode)) (i : Id)
    (g n n7 : Bytes) (ks : Http.Keys) : Prop :=
  ∃ h1 e h2 plain, h = h1 ++ e :: h2 ∧ rq.type = .to2Done ∧
    Http.Works (creached R c B cfg idOf aead encode h1) e rq i ∧
    aead.decrypt ks.sevk rq.body = some plain ∧ R.decDone plain = some n ∧
    CProven R c B cfg idOf aead encode h1 i g n n7 ks ∧
    (B.setTo2 rq.oracle.now (creached R c B cfg idOf aead encode h1).st.world (guidText g)).2 = .ok ()

end
end Verif.OwnerServer

namespace Verif.MfgServer
open Verif Verif.Voucher Verif.Store Verif.Types

section
variable (R : MfgEnv) (c : Bool) (B : MStore) (cfg : Config R)
  {Id : Type} [DecidableEq Id] (idOf : List Char → Option Id) (aead : Http.Aead) (encode : Resp → Bytes)

/-- Histories of a manufacturing server which serves requests at the same time. -/
abbrev CHist := List (Http.CEvent (server R c B cfg Id idOf aead encode) Move)

/-- The state reached from a server without vouchers. -/
def creached (h : CHist R c B cfg idOf aead encode) : Http.CSt (server R c B cfg Id idOf aead encode) :=
  Http.creplay (Http.oneStep _) (move B) (Http.cstart B.empty) h

/-- As `Connected`. -/
def CConnected (h : CHist R c B cfg idOf aead encode) (i : Id) (ks : Http.Keys) : Prop :=
  ∃ h1 e h2 rq m key random flag token tok, h = h1 ++ e :: h2 ∧ rq.type = .diunConnect ∧
    Http.Replies (creached R c B cfg idOf aead encode h1) e rq i (.ok .diunAccept (encode (.accept token)) tok) ∧
    R.decConnect rq.body = some m ∧ rq.oracle.kex = some (key, random) ∧ ks.suite = m.cipher ∧
    (OwnerServer.newKex m.kex key random).deriveKey .owner m.cipher flag m.keyExchange = .ok ks.sevk

/-- As `Agreed`. -/
def CAgreed (h : CHist R c B cfg idOf aead encode) (i : Id) (ks : Http.Keys) : Prop :=
  ∃ h1 e h2 rq rep, h = h1 ++ e :: h2 ∧ rq.type = .diunRequestKeyParameters ∧
    Http.Replies (creached R c B cfg idOf aead encode h1) e rq i rep ∧ CConnected R c B cfg idOf aead encode h1 i ks

/-- As `Provided`. -/
def CProvided (h : CHist R c B cfg idOf aead encode) (i : Id) (der : Bytes) (ks : Http.Keys) : Prop :=
  ∃ h1 e h2 rq rep plain st, h = h1 ++ e :: h2 ∧ rq.type = .diunProvideKey ∧
    Http.Replies (creached R c B cfg idOf aead encode h1) e rq i rep ∧ CAgreed R c B cfg idOf aead encode h1 i ks ∧
    aead.decrypt ks.sevk rq.body = some plain ∧ R.decProvideKey plain = some (der, st)

/-- As `KeySource`. -/
def CKeySource (h : CHist R c B cfg idOf aead encode) (i : Id) (ks : Option Http.Keys) (o : Oracle R)
    (info : String) (der : Bytes) : Prop :=
  (∃ k, ks = some k ∧ CProvided R c B cfg idOf aead encode h i der k) ∨
  (cfg.enableDi = true ∧ cfg.keyStore = true ∧ o.keys info.toList = .ok (some der))

/-- As `Started`. -/
def CStarted (h : CHist R c B cfg idOf aead encode) (i : Id) (ks : Option Http.Keys) (info : String)
    (der g hb : Bytes) : Prop :=
  ∃ h1 e h2 rq plain raw tok, h = h1 ++ e :: h2 ∧ rq.type = .diAppStart ∧
    Http.Replies (creached R c B cfg idOf aead encode h1) e rq i
      (Http.respond (Sv := server R c B cfg Id idOf aead encode) .diSetCredentials (.setCredentials hb) tok ks rq.iv) ∧
    (∀ k, ks = some k → CAgreed R c B cfg idOf aead encode h1 i k) ∧
    Http.decryptWith aead ks rq.body = some plain ∧ R.decAppStart plain = some raw ∧
    R.decMfgInfo raw = some (some info) ∧ rq.oracle.guid = some g ∧
    CKeySource R c B cfg idOf aead encode h1 i ks rq.oracle info der

/-- All headers sent to devices fit in memory. -/
def CSmallHeaders (h : CHist R c B cfg idOf aead encode) : Prop :=
  ∀ h' i ks info der g hb, h' <+: h → CStarted R c B cfg idOf aead encode h' i ks info der g hb → hb.length < 2 ^ 63

/-- After the history `h1`, with the event `e`, the server works on a SetHMAC with the value `hmac` in session `i`, with the
keys `ks`. -/
def CAnswered (h1 : CHist R c B cfg idOf aead encode) (e : Http.CEvent (server R c B cfg Id idOf aead encode) Move)
    (i : Id) (ks : Option Http.Keys) (hmac : Hash) : Prop :=
  ∃ rq plain, rq.type = .diSetHmac ∧ Http.Works (creached R c B cfg idOf aead encode h1) e rq i ∧
    Http.decryptWith aead ks rq.body = some plain ∧ R.decSetHmac plain = some hmac

end
end Verif.MfgServer

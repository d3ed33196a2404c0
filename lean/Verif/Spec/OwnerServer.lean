import Verif.Model.OwnerServer
import Verif.Spec.RvServer
/-!
What the owner onboarding server should guarantee: when a device has proven itself in a session, what a
store must do for the marks on vouchers to be trusted, and when registrations are renewed in time.
-/
namespace Verif.OwnerServer
open Verif Verif.Voucher Verif.Store Verif.Types Verif.ServiceInfo

/-- A token (COSE_Sign1) is validly signed by `k` and contains the nonce `n` and the key exchange value `b`. -/
def SignedProof (R : OwnerEnv) (c : Bool) (token : Bytes) (k : R.E.Pub) (n b : Bytes) : Prop :=
  ∃ s u p, parseSign1 R.E c token = .ok s ∧ R.E.verify k s.prot s.payload s.sig = true ∧
    R.decClaims s.payload = some (some n, u, some p) ∧ R.decProve p = some b

/-- The nonce a token carries in its unprotected header (not covered by the signature). -/
def Attached (R : OwnerEnv) (c : Bool) (token n : Bytes) : Prop :=
  ∃ s, parseSign1 R.E c token = .ok s ∧ R.euphNonce s.unprot = some (some n)

/-- `k` is the key of the device of voucher `v`: of the first certificate of its chain. -/
def DeviceKeyOf (R : OwnerEnv) (v : Voucher R.E) (k : R.E.Pub) : Prop :=
  ∃ ch leaf rest, v.chain = some ch ∧ R.certs ch = leaf :: rest ∧ R.leafKey leaf = some k

/-- What the properties need of a store: a mark on a voucher (`Marks`) comes from setting it. -/
structure SoundMarks {V : Type} (B : VStore V) (Marks : B.W → Name → Prop) : Prop where
  empty : ∀ k, ¬ Marks B.empty k
  load : ∀ now w k k', Marks (B.load now w k).1 k' → Marks w k'
  put : ∀ w k k' v, Good k → Good k' → Marks (B.put w k v).1 k' → Marks w k'
  setTo2 : ∀ now w k k', Good k → Good k' → Marks (B.setTo2 now w k).1 k' → Marks w k' ∨ k' = k
  setWait : ∀ now w k s k', Good k → Good k' → Marks (B.setWait now w k s).1 k' → Marks w k'
  maintain : ∀ now ls w k', Marks (B.maintain now ls w) k' → Marks w k'

/-- The directory's file for a voucher is marked as onboarded. -/
def DirMarked (d : Dir) (k : Name) : Prop :=
  ∃ f, d (escape k) = some f ∧ f.xattrs (xattrName to2Key) = some "true".toUTF8.toList

/-- The database's row for a voucher is marked as onboarded. -/
def DbMarked (t : Table) (k : Name) : Prop := ∃ r ∈ t, r.guid = k ∧ r.to2 = some true

section
variable (R : OwnerEnv) (c : Bool) (B : VStore (Voucher R.E)) (cfg : Config R)
  {Id : Type} [DecidableEq Id] (idOf : List Char → Option Id) (aead : Http.Aead) (encode : Resp → Bytes)

/-- An owner server with its history. -/
abbrev Hist := List (Http.Event (server R c B cfg Id idOf aead encode) (Move R))

/-- The state reached from a server without vouchers. -/
def reached (h : Hist R c B cfg idOf aead encode) : Http.St (server R c B cfg Id idOf aead encode) :=
  Http.replay (move B cfg) (Http.start B.empty) h

/-- In the history `h`, a HelloDevice for device `g` was answered in session `i`; the server chose the nonce
`n` and the key exchange `kx`, and the device asked for the cipher `cs`. The session has not expired since. -/
def HelloDone (h : Hist R c B cfg idOf aead encode) (i : Id) (g n : Bytes) (kx : KeyExchange R.K)
    (cs : CipherSuite) : Prop :=
  ∃ h1 rq h2 tok b m key random, h = h1 ++ .request rq :: h2 ∧ rq.type = .to2HelloDevice ∧
    Http.InSession (reached R c B cfg idOf aead encode h1) rq i ∧
    R.decHello rq.body = some m ∧ m.guid = g ∧ m.cipher = cs ∧ g.length = 16 ∧
    rq.oracle.nonce6 = some n ∧ rq.oracle.kex = some (key, random) ∧ kx = newKex m.kex key random ∧
    (Http.step (reached R c B cfg idOf aead encode h1) rq).2 = .ok .to2ProveOVHdr b tok ∧
    .expire i ∉ h2

/-- In the history `h`, the device of the voucher held for `g` proved itself in session `i`: it sent a token
signed with that voucher's device key, with the nonce `n` handed out in this session for device `g`. The
session's keys `ks` are derived from the server's key exchange of this session and the value in the token.
The nonce `n7` came with the token. -/
def Proven (h : Hist R c B cfg idOf aead encode) (i : Id) (g n n7 : Bytes) (ks : Http.Keys) : Prop :=
  ∃ h1 rq h2 v k b kx cs flag now, h = h1 ++ .request rq :: h2 ∧ rq.type = .to2ProveDevice ∧
    Http.InSession (reached R c B cfg idOf aead encode h1) rq i ∧
    HelloDone R c B cfg idOf aead encode h1 i g n kx cs ∧
    (B.load now (reached R c B cfg idOf aead encode h1).world (guidText g)).2 = .ok (some v) ∧
    DeviceKeyOf R v k ∧ SignedProof R c rq.body k n b ∧ Attached R c rq.body n7 ∧
    ks.suite = cs ∧ kx.deriveKey .owner cs flag b = .ok ks.sevk ∧
    .expire i ∉ h2

/-- A Done request was made in session `i` after `h1`, with the nonce `n` (in clear for the holder of the
keys `ks`). -/
def DoneWith (h1 : Hist R c B cfg idOf aead encode) (rq : Http.Request (server R c B cfg Id idOf aead encode))
    (i : Id) (n : Bytes) (ks : Http.Keys) : Prop :=
  rq.type = .to2Done ∧ Http.InSession (reached R c B cfg idOf aead encode h1) rq i ∧
    ∃ plain, aead.decrypt ks.sevk rq.body = some plain ∧ R.decDone plain = some n

open Classical in
/-- How many service info messages are sent in session `i` in the course of `h`, starting from state `σ`. -/
noncomputable def rounds (i : Id) (σ : Http.St (server R c B cfg Id idOf aead encode)) :
    Hist R c B cfg idOf aead encode → Nat
  | [] => 0
  | e :: r =>
    (match e with
      | .request rq =>
        if Http.InSession σ rq i ∧ ∃ b tok, (Http.step σ rq).2 = .ok .to2OwnerServiceInfo b tok then 1 else 0
      | _ => 0) + rounds i (Http.after (move B cfg) σ e) r

/-- A HelloDevice reaches its handler in session `i` in the course of `h`, starting from state `σ`. -/
def SaysHello (i : Id) (σ : Http.St (server R c B cfg Id idOf aead encode)) :
    Hist R c B cfg idOf aead encode → Prop
  | [] => False
  | e :: r =>
    (match e with
      | .request rq => rq.type = .to2HelloDevice ∧ Http.InSession σ rq i
      | _ => False) ∨ SaysHello i (Http.after (move B cfg) σ e) r

end

end Verif.OwnerServer

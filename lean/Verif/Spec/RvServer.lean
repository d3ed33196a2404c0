import Verif.Model.RvServer
import Verif.Spec.History
import Verif.Spec.Voucher
import Verif.Props.Rendezvous
import Verif.Lemmas.Store
/-!
What a rendezvous server should guarantee: when a registration is authentic, what "in the same session"
means, and when a token proves possession of a device key.
-/
namespace Verif.RvServer
open Verif Verif.Voucher Verif.Store

/-- A registration request (`to0d`, `to1d`) is authentic for nonce `n`, names device `g`, and provides
`item`: the registration data carries the nonce and a voucher for `g`; the voucher's manufacturer is
trusted (if manufacturers are configured); its entries form a signed chain from the manufacturer; the
redirect blob is signed by the last owner and commits to the registration data; the voucher's device
certificate chain leads from its leaf to a trusted certificate (to any certificate of the chain if none
are configured); the item is the leaf's key and the redirect blob. -/
structure Authentic (R : RvEnv) (c : Bool) (cfg : Config R) (n to0d to1d g : Bytes) (t : To0d R) (item : Item R) :
    Prop where
  read : parseTo0d R c to0d = .ok t
  nonce : t.nonce = n
  guid : t.voucher.header.guid = g
  manufacturer : ∀ bag, cfg.mfgKeys = some bag →
    ∃ cert ∈ bag, ∃ k, R.C.publicKey cert = some k ∧ R.sameKey t.voucher.header.mfgKey k = true
  owner : ∃ hdr info ps s h, hdrBytes t.voucher = .ok hdr ∧ t.voucher.header.infoBytes R.E = .ok info ∧
    SignChain R.E c info t.voucher.header.mfgKey hdr t.voucher.entries.contents ps ∧ ps ≠ [] ∧
    parseSign1 R.E c to1d = .ok s ∧
    R.E.verify (lastOwner t.voucher.header.mfgKey ps) s.prot s.payload s.sig = true ∧
    R.decTo1 s.payload = some h ∧ Commits R.E h to0d
  device : ∃ ch leaf seg root rest, t.voucher.chain = some ch ∧ R.certs ch = seg ++ root :: rest ∧
    (R.certs ch).head? = some leaf ∧
    List.IsChain (fun a b => Rendezvous.Signs R.C b a) (seg ++ [root]) ∧
    (2 ≤ (R.certs ch).length → seg ≠ []) ∧
    (∀ bag, cfg.deviceKeys = some bag → ∃ x ∈ bag, R.certDigest root = R.certDigest x) ∧
    R.certPub leaf = some item.key
  blob : item.to1d = to1d

/-- A token (COSE_Sign1) is validly signed by `k` and contains the nonce `n`. -/
def SignedToken (R : RvEnv) (c : Bool) (token : Bytes) (k : R.E.Pub) (n : Bytes) : Prop :=
  ∃ s u p, parseSign1 R.E c token = .ok s ∧ R.E.verify k s.prot s.payload s.sig = true ∧
    R.decClaims s.payload = some (some n, u, p)

/-- The store would give out `v` for key `k` at some time. -/
def Held {V : Type} (B : Backend V) (w : B.W) (k : Name) (v : V) : Prop :=
  ∃ now, (B.load now w k).2 = .ok (some v)

/-- What the rendezvous server needs of a store: nothing comes out that was not put in under the same
key. `Holds` says that a value is in the store, possibly expired. -/
structure Sound {V : Type} (B : Backend V) (Holds : B.W → Name → V → Prop) : Prop where
  held : ∀ w k v, Held B w k v → Holds w k v
  empty : ∀ k v, ¬ Holds B.empty k v
  load : ∀ now w k k' v, Holds (B.load now w k).1 k' v → Holds w k' v
  put : ∀ w k k' v v', Good k → Good k' → Holds (B.put w k v).1 k' v' → Holds w k' v' ∨ (k' = k ∧ v' = v)
  setTtl : ∀ now w k dur k' v, Good k → Good k' → Holds (B.setTtl now w k dur).1 k' v → Holds w k' v
  maintain : ∀ now ls w k v, Holds (B.maintain now ls w) k v → Holds w k v

section
variable (R : RvEnv) (c : Bool) (B : Backend (Item R)) (cfg : Config R)
  {Id : Type} [DecidableEq Id] (idOf : List Char → Option Id) (aead : Http.Aead) (encode : Resp → Bytes)

/-- Internal moves of the server: maintenance of the registration store at a time, over a directory
listing. -/
def move (m : Nat × List Name) (w : B.W) : B.W := B.maintain m.1 m.2 w

/-- A rendezvous server with its history. -/
abbrev Hist := List (Http.Event (server R c B cfg Id idOf aead encode) (Nat × List Name))

/-- The state reached from an empty server. -/
def reached (h : Hist R c B cfg idOf aead encode) : Http.St (server R c B cfg Id idOf aead encode) :=
  Http.replay (move R B) (Http.start B.empty) h

/-- In the history `h`, the server handed out nonce `n` in session `i` in answer to a TO0 Hello, and the
session has not expired since. -/
def Nonce3 (h : Hist R c B cfg idOf aead encode) (i : Id) (n : Bytes) : Prop :=
  ∃ h1 rq h2 tok, h = h1 ++ .request rq :: h2 ∧ rq.type = .to0Hello ∧
    Http.InSession (reached R c B cfg idOf aead encode h1) rq i ∧
    (Http.step (reached R c B cfg idOf aead encode h1) rq).2 = .ok .to0HelloAck (encode (.helloAck n)) tok ∧
    .expire i ∉ h2

/-- In the history `h`, the server handed out nonce `n` in session `i` in answer to a TO1 HelloRV which
named device `g`, and the session has not expired since. -/
def Nonce4 (h : Hist R c B cfg idOf aead encode) (i : Id) (g n : Bytes) : Prop :=
  ∃ h1 rq h2 tok, h = h1 ++ .request rq :: h2 ∧ rq.type = .to1HelloRV ∧
    Http.InSession (reached R c B cfg idOf aead encode h1) rq i ∧
    R.decHelloRv rq.body = some (g, true, []) ∧
    (Http.step (reached R c B cfg idOf aead encode h1) rq).2 = .ok .to1HelloRVAck (encode (.helloRvAck n)) tok ∧
    .expire i ∉ h2

/-- The request `rq`, made after `h1`, was a registration of `item` for device `g` with requested lifetime
`t.wait`, authentic for the nonce of its session. -/
def Registered (h1 : Hist R c B cfg idOf aead encode) (rq : Http.Request (server R c B cfg Id idOf aead encode))
    (g : Bytes) (t : To0d R) (item : Item R) : Prop :=
  rq.type = .to0OwnerSign ∧ ∃ i n to0d to1d, Http.InSession (reached R c B cfg idOf aead encode h1) rq i ∧
    Nonce3 R c B cfg idOf aead encode h1 i n ∧
    parseOwnerSign R c rq.body = .ok (.ownerSign to0d to1d) ∧
    Authentic R c cfg n to0d to1d g t item

/-- The server was not stopped between storing a registration and setting its lifetime, and its clock
stays before the year 9999. -/
def Calm (h : Hist R c B cfg idOf aead encode) : Prop :=
  ∀ rq, .request rq ∈ h → rq.oracle.stopped = false ∧ rq.oracle.now / second + cfg.maxWait ≤ 253402300799

/-- When something happened, if it depends on the clock. -/
def timeOf : Http.Event (server R c B cfg Id idOf aead encode) (Nat × List Name) → Option Nat
  | .request rq => some rq.oracle.now
  | .internal m => some m.1
  | .expire _ => none

/-- The event is a request which brings a voucher for device `g`. -/
def Names (g : Bytes) : Http.Event (server R c B cfg Id idOf aead encode) (Nat × List Name) → Prop
  | .request rq => ∃ to0d to1d t, parseOwnerSign R c rq.body = .ok (.ownerSign to0d to1d) ∧
      parseTo0d R c to0d = .ok t ∧ t.voucher.header.guid = g
  | _ => False

end

end Verif.RvServer

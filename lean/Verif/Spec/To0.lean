import Verif.Model.To0
import Verif.Spec.Onboard
import Verif.Spec.RvServer
import Verif.Lemmas.Voucher
/-!
When an owner is expected to be able to register a voucher with a rendezvous server (TO0), and the voucher's device to find it there
(TO1).
-/
namespace Verif.To0
open Verif Verif.Voucher Verif.Store Verif.OwnerServer Verif.Cbor.Spec

/-- What one side writes, the other side reads: serde's codecs as far as they are used in TO0. Restricted to the sizes that occur. -/
structure Wire (R : OwnerEnv) (N : Msgs) (encode : RvServer.Resp → Bytes) : Prop where
  hello : R.helloOk N.hello = true
  ack : ∀ n : Bytes, n.length = 16 → N.decAck (encode (.helloAck n)) = some n
  accept : ∀ w, w < 2 ^ 32 → N.decAccept (encode (.acceptOwner w)) = some w
  u32 : ∀ n, n < 2 ^ 32 → R.decU32 (R.encU32 n) = some n ∧ IsItem (R.encU32 n)
  nonce : ∀ n : Bytes, n.length = 16 → R.decNonce (R.encNonce n) = some n ∧ IsItem (R.encNonce n)
  to1 : ∀ h : Hash, h.value.length ≤ 64 → R.decTo1 (R.encTo1 h) = some h ∧ (R.encTo1 h).length < 2 ^ 63

/-- The owner with the configuration `cfg` and the rendezvous server with the configuration `rcfg` both accept the voucher `v`, whose
device has the key `dev`: it can be written and read; its entries are a chain of signatures from the manufacturer to this owner; the
device's certificates are trusted by both and the manufacturer by the rendezvous server. -/
structure Accepts (R : OwnerEnv) (c : Bool) (cfg : OwnerServer.Config R) (rcfg : RvServer.Config R.toRvEnv) (dev : R.E.Pub)
    (v : Voucher R.E) : Prop where
  written : Rewritable c v
  guid : v.header.guid.length = 16
  version : v.header.version = 101
  owner : ∃ hdr info ps, hdrBytes v = .ok hdr ∧ v.header.infoBytes R.E = .ok info ∧
    SignChain R.E c info v.header.mfgKey hdr v.entries.contents ps ∧ ps ≠ [] ∧ lastOwner v.header.mfgKey ps = cfg.ownerPub
  device : ∃ ch x leaf, v.chain = some ch ∧ RvServer.verifyDevice R.toRvEnv ⟨0, none, cfg.deviceKeys⟩ ch = .ok x ∧
    RvServer.verifyDevice R.toRvEnv rcfg ch = .ok leaf ∧ R.certPub leaf = some dev
  manufacturer : ∀ bag, rcfg.mfgKeys = some bag → (∀ cert ∈ bag, ∃ k, R.C.publicKey cert = some k) ∧
    ∃ cert ∈ bag, ∃ k, R.C.publicKey cert = some k ∧ R.sameKey v.header.mfgKey k = true
  /-- the registration data fit into memory -/
  small : ∀ n b, n.length = 16 → buildTo0d R v cfg.period n = .ok b → b.length < 2 ^ 63

/-- Owner and rendezvous server understand each other, cryptography works, and both accept the voucher. -/
structure Honest (R : OwnerEnv) (c : Bool) (N : Msgs) (A : Http.Aead) (encode : RvServer.Resp → Bytes) (cfg : OwnerServer.Config R)
    (rcfg : RvServer.Config R.toRvEnv) (dev : R.E.Pub) (v : Voucher R.E) : Prop where
  codec : CodecLaws R.E
  wire : Wire R N encode
  digest : ∀ d, (R.E.digest .sha384 d).length = 48
  secures : Device.Secures A
  key : Device.Signs R.E cfg.ownerKey cfg.ownerPub emptyMap
  voucher : Accepts R c cfg rcfg dev v
  period : cfg.period < 2 ^ 32

section
variable {R : RvServer.RvEnv} {c : Bool} {B : RvServer.Backend (RvServer.Item R)} {rcfg : RvServer.Config R} {Id : Type}
  [DecidableEq Id] {idOf : List Char → Option Id} {A : Http.Aead} {encode : RvServer.Resp → Bytes}

local notation "Srv" => RvServer.server R c B rcfg Id idOf A encode

/-- The rendezvous server's surroundings do not fail when a request arrives: its sessions work, and there is randomness. -/
structure Awake (rq : Http.Request Srv) : Prop where
  session : rq.storeOk = true
  cookie : (idOf rq.freshCookie).isSome = true
  nonce : ∃ n, rq.oracle.nonce = some n ∧ n.length = 16

/-- The store for registrations takes one for the device `guid`. -/
def Takes (guid : Bytes) (σ : Http.St Srv) (rq : Http.Request Srv) : Prop :=
  ∀ item, ∃ w, B.put σ.world (guidText guid) item = (w, .ok ()) ∧
    ∀ wait, wait ≤ rcfg.maxWait → (B.setTtl rq.oracle.now w (guidText guid) ((wait : Int) * (second : Int))).2 = .ok ()

/-- In addition the server is not stopped, and its store takes a registration for the device `guid`, if the request is one. -/
structure Serves (guid : Bytes) (σ : Http.St Srv) (rq : Http.Request Srv) : Prop extends Awake rq where
  runs : rq.oracle.stopped = false
  stores : RvServer.Names R c B rcfg idOf A encode guid (.request rq) → Takes guid σ rq

/-- As `Awake`, and the server gives out the registration `item` for the device `guid` at the time of the request. -/
structure Holds (guid : Bytes) (item : RvServer.Item R) (σ : Http.St Srv) (rq : Http.Request Srv) : Prop extends Awake rq where
  holds : (B.load rq.oracle.now σ.world (guidText guid)).2 = .ok (some item)

variable (c B rcfg idOf A encode) in
/-- A store that takes registrations for a device for which it is free, up to the year 9999, and keeps them during their lifetime (up to
rounding to whole seconds), whatever happens that does not name the device. -/
structure Keeping (free : Bytes → B.W → Prop) : Prop where
  takes : ∀ (p h : RvServer.Hist R c B rcfg idOf A encode) (g : Bytes) (rq : Http.Request Srv), g.length = 16 →
    free g (RvServer.reached R c B rcfg idOf A encode p).world → (∀ e ∈ h, ¬ RvServer.Names R c B rcfg idOf A encode g e) →
    rq.oracle.now / second + rcfg.maxWait ≤ 253402300799 → Takes g (RvServer.reached R c B rcfg idOf A encode (p ++ h)) rq
  keeps : ∀ (h1 : RvServer.Hist R c B rcfg idOf A encode) (rq : Http.Request Srv) (b : Bytes) (tok : Option (List Char)),
    (Http.step (RvServer.reached R c B rcfg idOf A encode h1) rq).2 = .ok .to0AcceptOwner b tok →
    ∃ g t item, RvServer.Registered R c B rcfg idOf A encode h1 rq g t item ∧
      ∀ h2 : RvServer.Hist R c B rcfg idOf A encode, (∀ e ∈ h2, ¬ RvServer.Names R c B rcfg idOf A encode g e ∧
          ∀ T, RvServer.timeOf R c B rcfg idOf A encode e = some T → T + second ≤ rq.oracle.now + min t.wait rcfg.maxWait * second) →
        ∀ now, now + second ≤ rq.oracle.now + min t.wait rcfg.maxWait * second →
          (B.load now (RvServer.reached R c B rcfg idOf A encode (h1 ++ .request rq :: h2)).world (guidText g)).2 = .ok (some item)

end

/-- Every message of `t` is answered, and small enough for the server (16 KiB). -/
def Delivered {X : Sig} (t : Trace (Http.netSig X)) : Prop :=
  ∀ s (o : Option Http.NetReply), (⟨.net s, o⟩ : (Http.netSig X).Deed) ∈ t → (∃ q, o = some q) ∧ s.body.length ≤ 16384

/-- What one side writes, the other side reads in TO1. The server writes the signature type back which it was sent (handlers_to1.rs:
68-72); the client always sends P-384 (main.rs:163-168). -/
structure Wire1 (R : Device.DevEnv) (encode : RvServer.Resp → Bytes) : Prop where
  hello : ∀ g : Bytes, g.length = 16 → R.decHelloRv (R.encHelloRv g) = some (g, true, [])
  ack : ∀ n : Bytes, n.length = 16 → R.decHelloAck (encode (.helloRvAck n)) = some (n, .es384, [])
  redirect : ∀ t, encode (.redirect t) = t
  claims : ∀ n u : Bytes, n.length = 16 → u.length = 17 →
    R.decClaims (R.encClaims n u none) = some (some n, some u, none) ∧ (R.encClaims n u none).length < 2 ^ 63

/-- The device's key signs in `t`, such that `dev` verifies it. -/
def DeviceSigns (R : Device.DevEnv) (dev : R.E.Pub) (t : Trace (Device.sig R)) : Prop :=
  ∀ (pl : Bytes) (o : Option (Bytes × Bytes)), (⟨.app (.sign pl), o⟩ : (Device.sig R).Deed) ∈ t → ∃ prot s, o = some (prot, s) ∧
    prot.length < 2 ^ 63 ∧ s.length < 2 ^ 63 ∧ R.E.verify dev prot pl s = true ∧ R.E.coseOk prot emptyMap = true

end Verif.To0

import Verif.Model.MfgServer
import Verif.Spec.RvServer
/-!
What the manufacturing server should guarantee: which key a voucher may certify, and where its parts come
from.
-/
namespace Verif.MfgServer
open Verif Verif.Voucher Verif.Store Verif.Types

/-- Assumptions: codecs, certificates and signing keys work, and what is written fits in memory. -/
structure Laws (R : MfgEnv) (cfg : Config R) : Prop where
  codec : CodecLaws R.E
  leaf : LeafLaws R.E
  chain_certs : ∀ f x, R.build f cfg.caKey = some x →
    R.certs (R.mkChain (x :: R.certs cfg.caChain)) = x :: R.certs cfg.caChain
  built : ∀ f k x, R.build f k = some x → R.C.publicKey x = some f.key
  signing : ∀ k, cfg.mfgKey = some k → GoodKey R.E k
  payload : ∀ o, cfg.owner = some o → SmallPayload R.E none o

/-- What the properties need of a store: nothing is found in it but what was put there. `Holds` says what the
store holds. -/
structure SoundStore (B : MStore) (Holds : B.W → Name → Bytes → Prop) : Prop where
  held : ∀ now w k b, (B.load now w k).2 = .ok (some b) → Holds w k b
  empty : ∀ k b, ¬ Holds B.empty k b
  load : ∀ now w k k' b, Holds (B.load now w k).1 k' b → Holds w k' b
  put : ∀ w k k' b b', Good k → Good k' → Holds (B.put w k b).1 k' b' → Holds w k' b' ∨ (k' = k ∧ b' = b)
  maintain : ∀ now ls w k b, Holds (B.maintain now ls w) k b → Holds w k b

/-- What is needed in addition for vouchers to stay: `Inv` is an invariant of the store as used by the server, and
`Has` says that it has a voucher for good. -/
structure KeepStore (B : MStore) (Inv : B.W → Prop) (Has : B.W → Name → Bytes → Prop) : Prop where
  inv_empty : Inv B.empty
  inv_load : ∀ now w k, Inv w → Inv (B.load now w k).1
  inv_put : ∀ w k b, Good k → Inv w → Inv (B.put w k b).1
  inv_maintain : ∀ now ls w, Inv w → Inv (B.maintain now ls w)
  put : ∀ w k b, Inv w → Good k → (B.put w k b).2 = .ok () → Has (B.put w k b).1 k b
  other : ∀ w k k' b b', Inv w → Good k → Good k' → k' ≠ k → Has w k' b' → Has (B.put w k b).1 k' b'
  load : ∀ now w k k' b, Has w k' b → Has (B.load now w k).1 k' b
  maintain : ∀ now ls w k b, Has w k b → Has (B.maintain now ls w) k b
  found : ∀ now w k b, Has w k b → (B.load now w k).2 = .ok (some b)
  nopanic : ∀ w k b, Good k → (B.put w k b).2 ≠ .panic

/-- The directory's file for a voucher. -/
def DirHolds (d : Dir) (k : Name) (b : Bytes) : Prop := ∃ f, d (escape k) = some f ∧ f.content = b

/-- The database's row for a voucher. -/
def DbHolds (t : Table) (k : Name) (b : Bytes) : Prop := ∃ r ∈ t, r.guid = k ∧ r.contents = b

/-- No file has a time to live (the manufacturing server sets none). -/
def DirInv (d : Dir) : Prop := ∀ n f, d n = some f → f.xattrs (xattrName ttlKey) = none

/-- The directory's file for a voucher, which has no time to live. -/
def DirHas (d : Dir) (k : Name) (b : Bytes) : Prop :=
  ∃ f, d (escape k) = some f ∧ f.content = b ∧ f.xattrs (xattrName ttlKey) = none

/-- The database's row for a voucher, which has no time to live. -/
def DbHas (t : Table) (k : Name) (b : Bytes) : Prop :=
  ∃ r, t.find? (fun r => r.guid = k) = some r ∧ r.contents = b ∧ r.ttl = none

section
variable (R : MfgEnv) (c : Bool) (B : MStore) (cfg : Config R)
  {Id : Type} [DecidableEq Id] (idOf : List Char → Option Id) (aead : Http.Aead) (encode : Resp → Bytes)

/-- A manufacturing server with its history. -/
abbrev Hist := List (Http.Event (server R c B cfg Id idOf aead encode) Move)

/-- The state reached from a server without vouchers. -/
def reached (h : Hist R c B cfg idOf aead encode) : Http.St (server R c B cfg Id idOf aead encode) :=
  Http.replay (move B) (Http.start B.empty) h

/-- The DIUN key exchange: in the history `h`, a Connect was answered in session `i`, and the keys `ks` derive
from the server's part of it and the value sent by the device. The session has not expired since. -/
def Connected (h : Hist R c B cfg idOf aead encode) (i : Id) (ks : Http.Keys) : Prop :=
  ∃ h1 rq h2 m key random flag token tok, h = h1 ++ .request rq :: h2 ∧ rq.type = .diunConnect ∧
    Http.InSession (reached R c B cfg idOf aead encode h1) rq i ∧
    R.decConnect rq.body = some m ∧ rq.oracle.kex = some (key, random) ∧ ks.suite = m.cipher ∧
    (OwnerServer.newKex m.kex key random).deriveKey .owner m.cipher flag m.keyExchange = .ok ks.sevk ∧
    (Http.step (reached R c B cfg idOf aead encode h1) rq).2 = .ok .diunAccept (encode (.accept token)) tok ∧
    .expire i ∉ h2

/-- After the key exchange, the device asked for the key parameters, so that `ks` protects the session from
then on. -/
def Agreed (h : Hist R c B cfg idOf aead encode) (i : Id) (ks : Http.Keys) : Prop :=
  ∃ h1 rq h2, h = h1 ++ .request rq :: h2 ∧ rq.type = .diunRequestKeyParameters ∧
    Http.InSession (reached R c B cfg idOf aead encode h1) rq i ∧
    Connected R c B cfg idOf aead encode h1 i ks ∧ .expire i ∉ h2

/-- DIUN was completed in session `i`: the device sent the public key `der`, encrypted under the keys `ks` of
the key exchange. -/
def Provided (h : Hist R c B cfg idOf aead encode) (i : Id) (der : Bytes) (ks : Http.Keys) : Prop :=
  ∃ h1 rq h2 plain st, h = h1 ++ .request rq :: h2 ∧ rq.type = .diunProvideKey ∧
    Http.InSession (reached R c B cfg idOf aead encode h1) rq i ∧
    Agreed R c B cfg idOf aead encode h1 i ks ∧
    aead.decrypt ks.sevk rq.body = some plain ∧ R.decProvideKey plain = some (der, st) ∧ .expire i ∉ h2

/-- The keys of session `i`: none, or those of its DIUN key exchange. -/
def Channel (h : Hist R c B cfg idOf aead encode) (i : Id) : Option Http.Keys → Prop
  | none => True
  | some ks => Agreed R c B cfg idOf aead encode h i ks

/-- The device key `der` may be certified for the manufacturing string `info`: it was provided by DIUN in the
session, which is protected by the keys of that DIUN, or it is in the key store under `info` and plain DI is
enabled. -/
def KeySource (h : Hist R c B cfg idOf aead encode) (i : Id) (ks : Option Http.Keys) (o : Oracle R)
    (info : String) (der : Bytes) : Prop :=
  (∃ k, ks = some k ∧ Provided R c B cfg idOf aead encode h i der k) ∨
  (cfg.enableDi = true ∧ cfg.keyStore = true ∧ o.keys info.toList = .ok (some der))

/-- In the history `h`, an AppStart with manufacturing string `info` was handled in session `i`, with the
keys `ks`; the GUID `g` was drawn for it, the key `der` comes from an admitted source, and the header `hb` is the
answer to it. -/
def Started (h : Hist R c B cfg idOf aead encode) (i : Id) (ks : Option Http.Keys) (info : String)
    (der g hb : Bytes) : Prop :=
  ∃ h1 rq h2 plain raw tok, h = h1 ++ .request rq :: h2 ∧ rq.type = .diAppStart ∧
    Http.InSession (reached R c B cfg idOf aead encode h1) rq i ∧ Channel R c B cfg idOf aead encode h1 i ks ∧
    Http.decryptWith aead ks rq.body = some plain ∧ R.decAppStart plain = some raw ∧
    R.decMfgInfo raw = some (some info) ∧ rq.oracle.guid = some g ∧
    KeySource R c B cfg idOf aead encode h1 i ks rq.oracle info der ∧
    (Http.step (reached R c B cfg idOf aead encode h1) rq).2 =
      Http.respond (Sv := server R c B cfg Id idOf aead encode) .diSetCredentials (.setCredentials hb) tok ks rq.iv ∧
    .expire i ∉ h2

/-- The GUID drawn in the course of an event. -/
def drawn : Http.Event (server R c B cfg Id idOf aead encode) Move → Option Bytes
  | .request rq => if rq.type = .diAppStart then rq.oracle.guid else none
  | _ => none

/-- A request without (valid) token never gets the session id of a session that exists (ids are random). -/
def FreshIds (h : Hist R c B cfg idOf aead encode) : Prop :=
  ∀ h1 rq h2 a, h = h1 ++ .request rq :: h2 → Http.accept (reached R c B cfg idOf aead encode h1) rq = some a →
    a.cookie ≠ none → (reached R c B cfg idOf aead encode h1).sessions a.id = none

/-- All headers sent to devices fit in memory. -/
def SmallHeaders (h : Hist R c B cfg idOf aead encode) : Prop :=
  ∀ h' i ks info der g hb, h' <+: h → Started R c B cfg idOf aead encode h' i ks info der g hb → hb.length < 2 ^ 63

/-- A SetHMAC with the value `hmac` was handled in session `i` after the history `h1`, with the keys `ks`. -/
def Answered (h1 : Hist R c B cfg idOf aead encode) (rq : Http.Request (server R c B cfg Id idOf aead encode))
    (i : Id) (ks : Option Http.Keys) (hmac : Hash) : Prop :=
  rq.type = .diSetHmac ∧ Http.InSession (reached R c B cfg idOf aead encode h1) rq i ∧
    ∃ plain, Http.decryptWith aead ks rq.body = some plain ∧ R.decSetHmac plain = some hmac

/-- The chain of the voucher `v` consists of a device certificate for `info` and the key in `der`, made with the
CA's key in the name of its first certificate, and of the CA's chain; the header has the hash of the certificates. -/
def Certifies (v : Voucher R.E) (info : String) (der : Bytes) : Prop :=
  ∃ ch ca dev f key ds, v.chain = some ch ∧ (R.certs cfg.caChain).head? = some ca ∧
    R.certs ch = dev :: R.certs cfg.caChain ∧
    R.build f cfg.caKey = some dev ∧ f.issuer = ca ∧ f.subject = info ∧
    R.keyFromDer der = some key ∧ R.C.publicKey dev = some key ∧
    (R.certs ch).mapM R.der = some ds ∧
    v.header.chainHash = some ⟨.sha384, R.E.digest .sha384 ds.flatten⟩

/-- The owner of `v`: that of the configuration, by one entry, or else still the manufacturer. -/
def OwnedAsConfigured (v : Voucher R.E) : Prop :=
  R.certPub cfg.mfgCert = some v.header.mfgKey ∧
  match cfg.owner with
  | none => v.entries.contents = []
  | some o => ∃ p, verifyAll c v = .ok [p] ∧ lastOwner v.header.mfgKey [p] = o

end

end Verif.MfgServer

import Verif.Spec.MfgClient
import Verif.Spec.MfgServer
import Verif.Spec.Talk
import Verif.Props.Types
/-!
The manufacturing client and the manufacturing server together: assumptions about them, and what it means that a device
credential and an ownership voucher match.
-/
namespace Verif.MfgClient
open Verif Verif.Voucher Verif.Types Verif.MfgServer Verif.Fs
variable {R : ClientEnv}

/-- What is written by one side, the other side does not read as something else. Some messages are passed on as they are. -/
structure Wire (R : ClientEnv) (cfg : Config R.toMfgEnv) (encode : Resp → Bytes) : Prop where
  connect : ∀ m m', R.decConnect (R.encConnect m) = some m' → m' = m
  accept : ∀ b b', R.decAccept (R.encAccept b) = some b' → b' = b
  token : ∀ b, encode (.accept b) = b
  header : ∀ b, encode (.setCredentials b) = b
  provideKey : ∀ d s x, R.decProvideKey (R.encProvideKey d s) = some x → x = (d, s)
  appStart : ∀ i i' raw, R.decAppStart (R.encAppStart i) = some raw → R.decMfgInfo raw = some (some i') → i' = i
  setHmac : ∀ h h', R.decSetHmac (R.encSetHmac h) = some h' → h' = h
  keyUnprot : ∀ d, cfg.diun = some d → Cbor.Spec.IsItem (R.encKeyUnprot d.pub)
  payload : ∀ b, b.length < 2 ^ 32 → (R.encAccept b).length < 2 ^ 63
  sizes : ∀ d n p prot sig, cfg.diun = some d → R.signNonce d.key n (R.encAccept p) = some (prot, sig) →
    prot.length < 2 ^ 63 ∧ sig.length < 2 ^ 63

/-- Random values for key exchange have the size for the suite, on both sides. -/
structure Sized {c : Bool} {B : MStore} {cfg : Config R.toMfgEnv} {Id : Type} [DecidableEq Id]
    {idOf : List Char → Option Id} {aead : Http.Aead} {encode : Resp → Bytes} (t : Trace (sig R))
    (h : Hist R.toMfgEnv c B cfg idOf aead encode) : Prop where
  client : ∀ k r, (⟨.app .kex, some (k, r)⟩ : (sig R).Deed) ∈ t → r.length = KexSuite.ecdh384.randomSize
  server : ∀ rq m k r, .request rq ∈ h → rq.type = .diunConnect → R.decConnect rq.body = some m → rq.oracle.kex = some (k, r) →
    r.length = m.kex.randomSize

/-- A TPM computes what `H.tpm` says. -/
def TpmFits (t : Trace (sig R)) : Prop :=
  ∀ pub priv data r, (⟨.app (.tpmHmac pub priv data), r⟩ : (sig R).Deed) ∈ t → r = R.H.tpm pub priv data

/-- An operation on files. -/
def fileDeed : (sig R).Deed → Option Fs.sig.Deed
  | ⟨.app (.fs o), a⟩ => some ⟨o, a⟩
  | _ => none

/-- The operations on files in a trace. -/
def fileDeeds (t : Trace (sig R)) : Trace Fs.sig := t.filterMap fileDeed

/-- `der` is the public key of a credential's signing key. -/
def PublicOf (cr : Credential.Cred) (der : Bytes) : Prop :=
  match cr.keys with
  | .plain _ priv => ∃ k, R.signPriv k = some priv ∧ R.signPub k = some der
  | .tpm pub _ _ _ => R.tpmPub pub = some der

/-- An active credential (of version 1.1) and a voucher match: GUID, device information, rendezvous information and the manufacturer's key, and the
device accepts the voucher's header with its HMAC. -/
structure Matches (cr : Credential.Cred) (v : Voucher R.E) : Prop where
  active : cr.active = true
  version : cr.version = 101
  guid : cr.guid = v.header.guid
  info : cr.info = v.header.deviceInfo.toList
  rv : cr.rvinfo = R.E.encRv v.header.rv
  key : cr.keyHash = ⟨.sha384, R.E.digest .sha384 (R.E.encPub v.header.mfgKey)⟩
  hmac : ∃ hb, getLeaf R.E.decBytes v.contents 1 = .ok hb ∧ cr.verifyHmac R.H hb v.hmac = .ok ()

end Verif.MfgClient

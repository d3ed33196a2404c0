import Verif.Spec.MfgRun
import Verif.Spec.To0
import Verif.Spec.Canonical
/-!
A device's life from the factory to its owner: manufacturing, transfers of the voucher, registration by the owner, and onboarding.
Here: what is assumed of the parties, besides what is assumed in each of the protocols.
-/
namespace Verif.Life
open Verif Verif.Voucher Verif.Store Verif.Types

/-- The external functions used by all programs together: those of the client and the servers for onboarding, and in addition those of
the manufacturing server and the manufacturing client. -/
structure Whole extends Device.DevEnv where
  mkChain : List C.Cert → E.Chain
  der : C.Cert → Option Bytes
  keyFromDer : Bytes → Option C.Key
  build : MfgServer.CertFields C → E.Priv → Option C.Cert
  trim : String → String
  decAppStart : Bytes → Option Bytes
  decMfgInfo : Bytes → Option (Option String)
  decSetHmac : Bytes → Option Hash
  decConnect : Bytes → Option MfgServer.Connect
  encAccept : Bytes → Bytes
  decRequestKey : Bytes → Bool
  decProvideKey : Bytes → Option (Bytes × MfgServer.KeyStorage)
  signNonce : E.Priv → Bytes → Bytes → Option (Bytes × Bytes)
  encKeyUnprot : E.Pub → Bytes
  SignKey : Type
  signPub : SignKey → Option Bytes
  signPriv : SignKey → Option Bytes
  signFromDer : Bytes → Option SignKey
  tpmPub : Bytes → Option Bytes
  pubChain : E.Pub → Option E.Chain
  hashCert : HashType → C.Cert → Bytes
  pemCerts : Bytes → Option (List C.Cert)
  protNonce : Bytes → Option (Option Bytes)
  encConnect : MfgServer.Connect → Bytes
  decAccept : Bytes → Option Bytes
  encRequestKey : Bytes
  decKeyParams : Bytes → Option (MfgServer.KeyType × Option (List MfgServer.KeyStorage))
  encProvideKey : Bytes → MfgServer.KeyStorage → Bytes
  decDiunDone : Bytes → Option MfgServer.MfgString
  encAppStart : String → Bytes
  encSetHmac : Hash → Bytes
  decDiDone : Bytes → Option Unit

/-- The functions used by the manufacturing server. -/
abbrev Whole.mfg (R : Whole) : MfgServer.MfgEnv where
  toOwnerEnv := R.toOwnerEnv
  mkChain := R.mkChain
  der := R.der
  keyFromDer := R.keyFromDer
  build := R.build
  trim := R.trim
  decAppStart := R.decAppStart
  decMfgInfo := R.decMfgInfo
  decSetHmac := R.decSetHmac
  decConnect := R.decConnect
  encAccept := R.encAccept
  decRequestKey := R.decRequestKey
  decProvideKey := R.decProvideKey
  signNonce := R.signNonce
  encKeyUnprot := R.encKeyUnprot

/-- The functions used by the manufacturing client. -/
abbrev Whole.cli (R : Whole) : MfgClient.ClientEnv where
  toMfgEnv := R.mfg
  SignKey := R.SignKey
  signPub := R.signPub
  signPriv := R.signPriv
  signFromDer := R.signFromDer
  tpmPub := R.tpmPub
  H := R.H
  codec := R.codec
  pubChain := R.pubChain
  hashCert := R.hashCert
  pemCerts := R.pemCerts
  protNonce := R.protNonce
  encConnect := R.encConnect
  decAccept := R.decAccept
  encRequestKey := R.encRequestKey
  decKeyParams := R.decKeyParams
  encProvideKey := R.encProvideKey
  decDiunDone := R.decDiunDone
  encAppStart := R.encAppStart
  encSetHmac := R.encSetHmac
  decDiDone := R.decDiDone

variable {R : Whole}

/-- Certificates: those made with the CA's key are found to be issued by the CA; the owner and the rendezvous server trust the CA, where
they have a list of trusted certificates at all, and the rendezvous server the manufacturer. -/
structure Trust (mcfg : MfgServer.Config R.mfg) (cfg : OwnerServer.Config R.toOwnerEnv) (rcfg : RvServer.Config R.toRvEnv) : Prop where
  issues : ∀ f x, R.build f mcfg.caKey = some x → (R.certs mcfg.caChain).head? = some f.issuer →
    R.C.issued f.issuer x = true ∧ ∃ k, R.C.publicKey f.issuer = some k ∧ R.C.verify x k = some true
  owner : ∀ bag ca, cfg.deviceKeys = some bag → (R.certs mcfg.caChain).head? = some ca → ca ∈ bag
  rendezvous : ∀ bag ca, rcfg.deviceKeys = some bag → (R.certs mcfg.caChain).head? = some ca → ca ∈ bag
  manufacturer : ∀ bag, rcfg.mfgKeys = some bag → mcfg.mfgCert ∈ bag ∧ ∀ cert ∈ bag, ∃ k, R.C.publicKey cert = some k
  same : ∀ pub k, R.certPub mcfg.mfgCert = some pub → R.C.publicKey mcfg.mfgCert = some k → R.sameKey pub k = true

/-- `dev` is the public key `der`, as it is read from a certificate for it. -/
def KeyOf (mcfg : MfgServer.Config R.mfg) (der : Bytes) (dev : R.E.Pub) : Prop :=
  ∀ f x, R.build f mcfg.caKey = some x → R.keyFromDer der = some f.key → R.certPub x = some dev ∧ R.leafKey x = some dev

/-- The owner named in a new voucher: the configured one, or else the manufacturer. -/
def FirstOwner (mcfg : MfgServer.Config R.mfg) (o : R.E.Pub) : Prop :=
  match mcfg.owner with
  | some x => x = o
  | none => R.certPub mcfg.mfgCert = some o

/-- The owner after the transfers `steps`. -/
def ownerAfter {E : Env} (o : E.Pub) (steps : List (Step E)) : E.Pub := ((steps.getLast?).map (·.2.2)).getD o

/-- The last conversation of a client ends when it turns to something else: another server, sleep or a reboot. -/
def Turns : (Device.sig R.toDevEnv).Eff → Prop
  | .app (.connect _) | .app (.sleep _) | .app .reboot => True
  | _ => False

/-- In its run `T` the device has the conversation `t` with the server at `u`. -/
def Leg (T : Trace (Device.sig R.toDevEnv)) (u : String) (t : Trace (Device.sig R.toDevEnv)) : Prop :=
  ∃ pre post, T = pre ++ Device.connected u :: (t ++ post) ∧ (∀ d ∈ t, ¬ Turns d.1) ∧ ∀ d ∈ post.head?, Turns d.1

/-- A credential as its Rust type has it: the version is one there is, the GUID has 16 bytes, and the rendezvous information is the form of
some. -/
structure Proper (R : Whole) (cr : Credential.Cred) : Prop where
  version : cr.version = 100 ∨ cr.version = 101
  guid : cr.guid.length = 16
  rv : ∃ rv, cr.rvinfo = R.E.encRv rv ∧ cr.rvinfo.length < 2 ^ 63

/-- All parties understand each other, and cryptography works, for all of them; a credential is read as it was written. -/
structure Laws (mcfg : MfgServer.Config R.mfg) (cfg : OwnerServer.Config R.toOwnerEnv) (rcfg : RvServer.Config R.toRvEnv)
    (N : To0.Msgs) (A : Http.Aead) (encM : MfgServer.Resp → Bytes) (encR : RvServer.Resp → Bytes) (encO : OwnerServer.Resp → Bytes) :
    Prop where
  mfg : MfgServer.Laws R.mfg mcfg
  wireM : MfgClient.Wire R.cli mcfg encM
  kex : KexLaws R.K
  agree : Device.Agree R.K
  secures : Device.Secures A
  digests : Device.Digests R.toDevEnv
  credential : ∀ cr, Proper R cr → (R.codec.enc cr).length < 2 ^ 63 → R.codec.dec (R.codec.enc cr) = some cr
  trust : Trust mcfg cfg rcfg
  wire0 : To0.Wire R.toOwnerEnv N encR
  wire1 : To0.Wire1 R.toDevEnv encR
  wire2 : Device.Wire R.toDevEnv encO
  keys : Device.OwnerKeys R.toDevEnv cfg
  redirects : Device.Signs R.E cfg.ownerKey cfg.ownerPub emptyMap
  period : cfg.period < 2 ^ 32
  rv : (R.E.encRv mcfg.rv).length < 2 ^ 63

section
variable (c : Bool) (A : Http.Aead)

/-! ### Manufacturing -/

section
variable (Bm : MfgServer.MStore) (mcfg : MfgServer.Config R.mfg) {Id : Type} [DecidableEq Id] (idOf : List Char → Option Id)
    (encM : MfgServer.Resp → Bytes)

local notation "Mfg" => MfgServer.server R.mfg c Bm mcfg Id idOf A encM

/-- The client for manufacturing runs to its end at a device (`t`, with the history `h` of the manufacturing server; see C44). The device
had no credential yet, and now has `cr`; its key, with the public key `dev`, was registered by DIUN. The server then has stored the
voucher `v` for it. -/
structure Manufactured (w : Credential.Surroundings) (args : MfgClient.Args) (t : Trace (MfgClient.sig R.cli))
    (h : MfgServer.Hist R.mfg c Bm mcfg idOf A encM) (s s' : Fs.Files) (path : Fs.Path) (cr : Credential.Cred) (dev : R.E.Pub)
    (v : Voucher R.E) : Prop where
  store : ∃ Inv Has, MfgServer.KeepStore Bm Inv Has
  started : ∃ st, MfgServer.startup R.mfg st = some mcfg
  run : Prog.Ends (MfgClient.main c A w args) t (.ok ())
  talk : Http.Talk (MfgServer.move Bm) (Http.start Bm.empty) (fun rq : Http.Request Mfg => rq.oracle.nonInterop) none [] h t
  sized : MfgClient.Sized t h
  tpm : MfgClient.TpmFits t
  headers : MfgServer.SmallHeaders R.mfg c Bm mcfg idOf A encM h
  ids : MfgServer.FreshIds R.mfg c Bm mcfg idOf A encM h
  guids : (h.filterMap (MfgServer.drawn R.mfg c Bm mcfg idOf A encM)).Nodup
  files : Fs.Run s (MfgClient.fileDeeds t) s'
  new : ∃ d ∈ t, ∃ q, d.1 = .net q
  given : (MfgClient.given w args).isSome
  place : MfgClient.credPath w = .ok path
  credential : ∃ b, s' path = some b ∧ b.length < 2 ^ 63 ∧ R.codec.dec b = some cr
  key : ∀ der, MfgClient.PublicOf (R := R.cli) cr der → KeyOf mcfg der dev
  voucher : ∃ b now, (Bm.load now (MfgServer.reached R.mfg c Bm mcfg idOf A encM h).world (guidText cr.guid)).2 = .ok (some b) ∧
    b.length < 2 ^ 63 ∧ deserialize c b = .ok (v, [])
  header : ∀ hb, getLeaf R.E.decBytes v.contents 1 = .ok hb → hb.length < 2 ^ 32

end

/-- The voucher `v` is transferred, first by the manufacturer or the owner configured there, from owner to owner (`steps`), until it
belongs to the owner with the configuration `cfg`; the outcome is `v'` and `r`. It is transferred at least once, at most 254 times. -/
structure Transferred (mcfg : MfgServer.Config R.mfg) (cfg : OwnerServer.Config R.toOwnerEnv) (steps : List (Step R.E)) (v v' : Voucher R.E)
    (r : Res Err Unit) : Prop where
  owners : ∃ o, FirstOwner mcfg o ∧ OwnerSteps o steps ∧ ownerAfter o steps = cfg.ownerPub
  keys : ∀ st ∈ steps, GoodKey R.E st.1 ∧ SmallPayload R.E st.2.1 st.2.2
  once : mcfg.owner.isSome ∨ steps ≠ []
  few : steps.length ≤ 254
  result : extendMany c v steps = (v', r)
  small : ∀ n b, n.length = 16 → OwnerServer.buildTo0d R.toOwnerEnv v' cfg.period n = .ok b → b.length < 2 ^ 63

/-! ### Registration -/

section
variable (Br : RvServer.Backend (RvServer.Item R.toRvEnv)) (rcfg : RvServer.Config R.toRvEnv)
    {Id : Type} [DecidableEq Id] (idOf : List Char → Option Id) (encR : RvServer.Resp → Bytes)
    (kdf : Http.Request (RvServer.server R.toRvEnv c Br rcfg Id idOf A encR) → Bool)

local notation "Rv" => RvServer.server R.toRvEnv c Br rcfg Id idOf A encR

/-- The owner registers the voucher `v'` with the rendezvous server (`t`, with the history `hist` of that server after `p`), with the
result `r`. No message is lost, the server does not fail, and the end of the registration is before the year 10000. -/
structure Registered (cfg : OwnerServer.Config R.toOwnerEnv) (N : To0.Msgs) (v' : Voucher R.E)
    (p hist : RvServer.Hist R.toRvEnv c Br rcfg idOf A encR) (t : Trace To0.sig) (r : Res To0.To0Err Nat) : Prop where
  run : Prog.Ends (To0.report R.toOwnerEnv cfg N A v') t r
  talk : Http.Talk (Sv := Rv) (RvServer.move R.toRvEnv Br) (Http.start Br.empty) kdf none p hist t
  delivered : To0.Delivered t
  awake : ∀ rq, .request rq ∈ hist →
    To0.Awake (Id := Id) (idOf := idOf) (c := c) (B := Br) (rcfg := rcfg) (A := A) (encode := encR) rq ∧
      rq.oracle.stopped = false ∧ rq.oracle.now / second + rcfg.maxWait ≤ 253402300799

/-- In its run `T` the device talks at `u` to the rendezvous server, where `hist'` happens after `p`. No message is lost, and the server
does not fail. -/
structure Asks (u : String) (p hist' : RvServer.Hist R.toRvEnv c Br rcfg idOf A encR)
    (T : Trace (Device.sig R.toDevEnv)) : Prop where
  talk : ∀ a, Leg T u a →
    Http.Talk (Sv := Rv) (RvServer.move R.toRvEnv Br) (Http.start Br.empty) kdf none p hist' a
  awake : ∀ rq, .request rq ∈ hist' →
    To0.Awake (Id := Id) (idOf := idOf) (c := c) (B := Br) (rcfg := rcfg) (A := A) (encode := encR) rq

/-- After the registration for `guid` (in `hist`), there is no other one for it until the device has asked (in `rest`), and what happens
until then is at least a second before the end of the registration's lifetime. -/
def Lasts (cfg : OwnerServer.Config R.toOwnerEnv) (guid : Bytes)
    (hist rest : RvServer.Hist R.toRvEnv c Br rcfg idOf A encR) : Prop :=
  ∀ h1 rq h2, hist = h1 ++ .request rq :: h2 →
    RvServer.Names R.toRvEnv c Br rcfg idOf A encR guid (.request rq) → ∀ e ∈ h2 ++ rest,
      ¬ RvServer.Names R.toRvEnv c Br rcfg idOf A encR guid e ∧
      ∀ T, RvServer.timeOf R.toRvEnv c Br rcfg idOf A encR e = some T →
        T + second ≤ rq.oracle.now + min cfg.period rcfg.maxWait * second

end

/-! ### Onboarding -/

/-- The device's client runs to its end (`T`, with the result `r`), in its first round. No re-encryption is under way; the credential is
the one written in manufacturing; no message is lost; the device's surroundings answer as they should; reboot works if it is asked for. -/
structure Runs (dev : R.E.Pub) (s' : Fs.Files) (w : Credential.Surroundings) (h : SiClient.Host) (l : Credential.Location) (n : Nat)
    (T : Trace (Device.sig R.toDevEnv)) (r : Res Device.DevErr Unit) : Prop where
  run : Prog.Ends (Device.main c A w h n) T r
  rounds : n ≠ 0
  marker : w.exists? (Device.markerPath w) = false
  location : Credential.find w = some (.ok l)
  kept : ∀ (x : Option Bytes) t, T = ⟨.app (.fs (.read l.path)), x⟩ :: t → x = s' l.path
  delivered : Device.Delivered R.toDevEnv T
  fortunate : Device.Fortunate R.toDevEnv dev T
  signs : To0.DeviceSigns R.toDevEnv dev T
  announces : Device.Announces R.toDevEnv h T
  reboots : ∀ x : Option Bool, (⟨.app .reboot, x⟩ : (Device.sig R.toDevEnv).Deed) ∈ T → x = some true

section
variable (Bo : OwnerServer.VStore (Voucher R.E)) (cfg : OwnerServer.Config R.toOwnerEnv) {Id : Type} [DecidableEq Id]
    (idOf : List Char → Option Id) (encO : OwnerServer.Resp → Bytes) {M : Type} (mv : M → Bo.W → Bo.W)
    (σ0 : Http.St (OwnerServer.server R.toOwnerEnv c Bo cfg Id idOf A encO))
    (kdf : Http.Request (OwnerServer.server R.toOwnerEnv c Bo cfg Id idOf A encO) → Bool)

local notation "Own" => OwnerServer.server R.toOwnerEnv c Bo cfg Id idOf A encO

/-- In its run `T` the device talks at `ou` to the owner's server, where `hist` happens. The server holds the voucher `v'` for the device,
and its surroundings do not fail; the device can follow its instructions. -/
structure Meets (ou : String) (guid : Bytes) (v' : Voucher R.E) (h : SiClient.Host) (hist : List (Http.Event Own M))
    (T : Trace (Device.sig R.toDevEnv)) : Prop where
  talk : ∀ b, Leg T ou b → Http.Talk (Sv := Own) mv σ0 kdf none [] hist b
  serves : ∃ flag, ∀ h1 rq h2, hist = h1 ++ .request rq :: h2 →
    Device.Serves (R := R.toDevEnv) (c := c) (B := Bo) (cfg := cfg) (idOf := idOf) (A := A) (encode := encO) kdf flag guid v' h T
      (Http.replay (Sv := Own) mv σ0 h1) rq

end

end

end Verif.Life

import Verif.Spec.Device
import Verif.Spec.Talk
import Verif.Props.Types
/-!
When a device and the server of its owner are expected to complete TO2: what it means that they understand each other, that the
voucher is the one of this device and owner, and that their surroundings do not fail. And what completion is.
-/
namespace Verif.Device
open Verif Verif.Voucher Verif.Store Verif.Types Verif.ServiceInfo Verif.Cbor.Spec

/-- What one side writes, the other side reads: serde's codecs for messages and parts of messages, as far as they are used in TO2.
Restricted to the sizes that occur. -/
structure Wire (R : DevEnv) (encode : OwnerServer.Resp → Bytes) : Prop where
  hello : ∀ g n : Bytes, g.length = 16 → n.length = 16 →
    R.decHello (R.encHello ⟨g, n, .ecdh384, .a256gcm, .es384, []⟩) = some ⟨g, n, .ecdh384, .a256gcm, .es384, []⟩
  getEntry : ∀ n, n < 256 → R.decGetEntry (R.encGetEntry n) = some n
  ready : R.decReady R.encReady = true
  deviceSi : ∀ si, (R.encDeviceSi si).length ≤ 16384 → R.decDeviceSi (R.encDeviceSi si) = some si
  done : ∀ n : Bytes, n.length = 16 → R.decDone (R.encDone n) = some n
  proveOvHdr : ∀ t, encode (.proveOvHdr t) = t
  ovEntry : ∀ n e, n < 256 → Cbor.serialize ⟨none, [R.encU16 n, e]⟩ = .ok (encode (.ovEntry n e))
  setupDevice : ∀ t, encode (.setupDevice t) = t
  ownerReady : R.decOwnerReady (encode .ownerReady) = some ()
  ownerSi : ∀ m, (encode (.ownerSi m)).length < 2 ^ 63 → R.decOwnerSi (encode (.ownerSi m)) = some m
  lastSi : R.decOwnerSi (encode (.ownerSi ⟨false, true, []⟩)) = some ⟨false, true, []⟩
  done2 : ∀ n : Bytes, n.length = 16 → R.decDone2 (encode (.done2 n)) = some n
  u16 : ∀ n, n < 65536 → R.decU16 (R.encU16 n) = some n ∧ IsItem (R.encU16 n)
  nonce : ∀ n : Bytes, n.length = 16 → R.decNonce (R.encNonce n) = some n ∧ IsItem (R.encNonce n)
  sig : R.decSigInfo (R.encSig .es384) = some (.es384, []) ∧ IsItem (R.encSig .es384)
  hash : ∀ h : Hash, h.value.length ≤ 64 → R.E.decHash (R.E.encHash h) = some h ∧ IsItem (R.E.encHash h)
  cuph : ∀ (n : Bytes) k, n.length = 16 → R.cuphNonce (R.encUnprot n k) = some (some n) ∧ IsItem (R.encUnprot n k)
  euph : ∀ n : Bytes, n.length = 16 → R.euphNonce (R.encEuph n) = some (some n) ∧ IsItem (R.encEuph n)
  prove : ∀ b : Bytes, b.length < 2 ^ 32 → R.decProve (R.encProve b) = some b ∧ (R.encProve b).length < 2 ^ 33
  claims : ∀ n u b : Bytes, n.length = 16 → u.length = 17 → b.length < 2 ^ 32 →
    R.decClaims (R.encClaims n u (some (R.encProve b))) = some (some n, some u, some (R.encProve b)) ∧
    (R.encClaims n u (some (R.encProve b))).length < 2 ^ 63
  proof : ∀ p b, p.header.length < 2 ^ 32 → p.hmac.value.length ≤ 64 → p.nonce5.length = 16 → p.kexA.length < 2 ^ 32 →
    p.helloHash.value.length ≤ 64 → OwnerServer.encProveHdr R.toOwnerEnv p = .ok b → b.length < 2 ^ 63

/-- Digests and HMACs have the sizes they should have. -/
structure Digests (R : DevEnv) : Prop where
  plain : ∀ t d, t.isPlain = true → (R.E.digest t d).length = t.digestSize
  hmac : ∀ t s d, (R.H.hmac t s d).length = t.digestSize
  tpm : ∀ pub priv d long v, R.H.tpm pub priv d = some (long, v) → v.length = if long then 48 else 32

/-- The key exchange works: both sides get the same secret, and the secret and the derived key exist. -/
structure Agree (K : KexEnv) : Prop where
  comm : ∀ s a b, K.ecShared s a (K.ecPublic s b) = K.ecShared s b (K.ecPublic s a)
  size : ∀ s a, (K.ecPublic s a).1.length < 65536 ∧ (K.ecPublic s a).2.length < 65536
  shared : ∀ s a b, (K.ecShared s a (K.ecPublic s b)).isSome = true
  kdf : ∀ n l i k len, ∃ out, K.kdf n l i k len = some out ∧ out.length = len

/-- Encryption of messages works, and does not make them shorter. -/
structure Secures (A : Http.Aead) : Prop where
  opens : Http.Opens A
  total : ∀ k iv p : Bytes, k.length = 32 → (A.encrypt k iv p).isSome = true
  grows : ∀ k iv p b, A.encrypt k iv p = some b → p.length ≤ b.length

/-- With the key `k` messages can be signed under the unprotected header `unprot`, such that `pub` verifies them. -/
def Signs (E : Env) (k : E.Priv) (pub : E.Pub) (unprot : Bytes) : Prop :=
  ∀ payload : Bytes, payload.length < 2 ^ 63 → ∃ prot sig, E.sign k payload = some (prot, sig) ∧
    prot.length < 2 ^ 63 ∧ sig.length < 2 ^ 63 ∧ E.coseOk prot unprot = true ∧ E.verify pub prot payload sig = true

/-- The owner's keys work. -/
structure OwnerKeys (R : DevEnv) (cfg : OwnerServer.Config R.toOwnerEnv) : Prop where
  proves : ∀ n : Bytes, n.length = 16 → Signs R.E cfg.ownerKey cfg.ownerPub (R.encUnprot n cfg.ownerPub)
  setsUp : Signs R.E cfg.owner2Key cfg.owner2Pub emptyMap
  size : ∀ g n : Bytes, g.length = 16 → n.length = 16 → (R.encSetup g n cfg.owner2Pub).length < 2 ^ 63

/-- The voucher `v` is valid, for the device with the credential `cr` and the key `dev`, and the owner with the key `owner`: its
header has the device's HMAC and the manufacturer's key of the credential; its entries, between 1 and 255, are a chain of
signatures from the manufacturer to the owner. They are in shortest form (as they are when written by `extend`). -/
structure VoucherFor (R : DevEnv) (c : Bool) (cr : Credential.Cred) (dev owner : R.E.Pub) (v : Voucher R.E) : Prop where
  valid : ∃ (hdr : Bytes) (hh : Header R.E) (key : Bytes) (ps : List (Payload R.E)),
    OwnerServer.headerRaw R.toOwnerEnv v = .ok hdr ∧ hdr.length < 2 ^ 32 ∧ Header.deserialize R.E c hdr = .ok hh ∧
    MadeWith R.H cr.keys hdr v.hmac ∧ hh.contents.contents[4]? = some key ∧ Commits R.E cr.keyHash key ∧
    SignChain R.E c (hh.guid ++ hh.deviceInfo.toUTF8.toList) hh.mfgKey (hdr ++ R.E.encHash v.hmac) v.entries.contents ps ∧
    lastOwner hh.mfgKey ps = owner
  nonempty : v.entries.contents ≠ []
  few : v.entries.contents.length ≤ 255
  form : ∀ e ∈ v.entries.contents, ∃ l : List Bytes, l.length = 4 ∧ (∀ i ∈ l, IsItem i) ∧ e = [0xd2, 0x84] ++ l.flatten
  key : OwnerServer.voucherKey R.toOwnerEnv v = some dev

/-- The device's surroundings answer as they should in `t`: there is randomness, its key signs, files can be read and written. -/
structure Fortunate (R : DevEnv) (dev : R.E.Pub) (t : Trace (sig R)) : Prop where
  nonce : ∀ o : Option Bytes, (⟨.app .nonce, o⟩ : (sig R).Deed) ∈ t → ∃ n, o = some n ∧ n.length = 16
  kex : ∀ o : Option (R.K.Key × Bytes), (⟨.app .kex, o⟩ : (sig R).Deed) ∈ t → ∃ k r, o = some (k, r) ∧ r.length = 48
  sign : ∀ (pl : Bytes) (o : Option (Bytes × Bytes)), (⟨.app (.sign pl), o⟩ : (sig R).Deed) ∈ t → ∃ prot s, o = some (prot, s) ∧
    prot.length < 2 ^ 63 ∧ s.length < 2 ^ 63 ∧ R.E.verify dev prot pl s = true ∧
    ∀ n : Bytes, n.length = 16 → R.E.coseOk prot (R.encEuph n) = true
  create : ∀ p (b : Bool), (⟨.app (.fs (.create p)), b⟩ : (sig R).Deed) ∈ t → b = true
  append : ∀ p x (b : Bool), (⟨.app (.fs (.append p x)), b⟩ : (sig R).Deed) ∈ t → b = true
  remove : ∀ p (b : Bool), (⟨.app (.fs (.remove p)), b⟩ : (sig R).Deed) ∈ t → b = true
  read : ∀ p (o : Option Bytes), (⟨.app (.fs (.read p)), o⟩ : (sig R).Deed) ∈ t → ∃ b cr, o = some b ∧ R.codec.dec b = some cr
  os : ∀ (m : SiModule) (o : Option (Option (List Char))), (⟨.app (.host m .osRelease), o⟩ : (sig R).Deed) ∈ t → ∃ v, o = some (some v)

/-- Every message of `t` is answered, and small enough for the server (16 KiB). -/
def Delivered (R : DevEnv) (t : Trace (sig R)) : Prop :=
  ∀ s (o : Option Http.NetReply), (⟨.net s, o⟩ : (sig R).Deed) ∈ t → (∃ q, o = some q) ∧ s.body.length ≤ 16384

/-- A deed on the host, as one of the whole client. -/
def whole {R : DevEnv} : SiClient.sig.Deed → Option ((sig R).Deed)
  | ⟨.host m op, a⟩ => some ⟨.app (.host m op), a⟩
  | ⟨.exchange _, _⟩ => none

/-- The device can follow the instructions `l`, if its host answers as in `t`. -/
def Follows {R : DevEnv} (h : SiClient.Host) (t : Trace (sig R)) (l : List Item) : Prop :=
  ∀ u res, Prog.Ends (SiClient.process h l) u res → (∀ d ∈ u, ∀ d' ∈ whole d, d' ∈ t) → ∃ x, res = .ok x

/-- The modules a device announces, depending on whether it has a subscription manager and clevis. -/
def announced (sub clevis : Bool) : List SiModule :=
  [.devMod, .sshKey, .binaryFile, .command, .reboot] ++
    (if sub then [.subscriptionManager] else []) ++ (if clevis then [.diskEncryptionClevis] else [])

/-- What is announced to the owner can be read by it. -/
def Announces (R : DevEnv) (h : SiClient.Host) (t : Trace (sig R)) : Prop :=
  ∀ (sub clevis : Bool) (v : List Char),
    (⟨.app (.host .devMod .osRelease), (some (some v) : Option (Option (List Char)))⟩ : (sig R).Deed) ∈ t →
    ∀ x ∈ SiClient.devmod h v (announced sub clevis), R.decVal (R.encVal x.2.2) = some x.2.2

/-- Device and owner understand each other and are made for each other; cryptography works; and the device's surroundings answer as
they should in `t`. The owner's key has signed the redirect blob `to1d`. -/
structure Honest (R : DevEnv) (c : Bool) (A : Http.Aead) (encode : OwnerServer.Resp → Bytes) (cfg : OwnerServer.Config R.toOwnerEnv)
    (cr : Credential.Cred) (dev : R.E.Pub) (v : Voucher R.E) (to1d : Sign1) (h : SiClient.Host) (t : Trace (sig R)) : Prop where
  codec : CodecLaws R.E
  wire : Wire R encode
  digests : Digests R
  agree : Agree R.K
  secures : Secures A
  keys : OwnerKeys R cfg
  guid : cr.guid.length = 16
  voucher : VoucherFor R c cr dev cfg.ownerPub v
  redirect : R.E.verify cfg.ownerPub to1d.prot to1d.payload to1d.sig = true
  fortunate : Fortunate R dev t
  announces : Announces R h t

/-- The service info API answers with the instructions `l`, which can be read by the device. -/
def Instructs (R : DevEnv) (encode : OwnerServer.Resp → Bytes) (api : List Char → Option ApiReply) (guid : Bytes) (sub clevis : Bool)
    (l : List Item) : Prop :=
  ∃ rep, api (apiQuery (guidText guid) ((announced sub clevis).map SiModule.display)) = some rep ∧ replyItems rep = some l ∧
    (∀ x ∈ l, R.decVal (R.encVal x.2.2) = some x.2.2) ∧ (∀ x ∈ l, x.1.plain) ∧
    (encode (.ownerSi ⟨false, false, toSi R.encVal l⟩)).length < 2 ^ 63

section
variable {R : DevEnv} {c : Bool} {B : OwnerServer.VStore (Voucher R.E)} {cfg : OwnerServer.Config R.toOwnerEnv} {Id : Type}
  [DecidableEq Id] {idOf : List Char → Option Id} {A : Http.Aead} {encode : OwnerServer.Resp → Bytes} {M : Type}

local notation "Srv" => OwnerServer.server R.toOwnerEnv c B cfg Id idOf A encode

/-- The server's surroundings do not fail when the request `rq` arrives: its stores work and give the voucher `v` for the device,
there is randomness, and the service info API gives instructions which the device can follow. The key derivation `flag` is the
same in all messages. -/
structure Serves (kdf : Http.Request Srv → Bool) (flag : Bool) (guid : Bytes) (v : Voucher R.E)
    (h : SiClient.Host) (t : Trace (sig R)) (σ : Http.St Srv) (rq : Http.Request Srv) : Prop where
  session : rq.storeOk = true
  cookie : (idOf rq.freshCookie).isSome = true
  nonce : ∃ n, rq.oracle.nonce6 = some n ∧ n.length = 16
  kex : ∃ k r, rq.oracle.kex = some (k, r) ∧ r.length = 48
  renamed : ∃ g, rq.oracle.newGuid = some g ∧ g.length = 16
  sends : kdf rq = flag
  derives : rq.oracle.nonInterop = flag
  holds : (B.load rq.oracle.now σ.world (guidText guid)).2 = .ok (some v)
  records : (B.setTo2 rq.oracle.now σ.world (guidText guid)).2 = .ok ()
  instructs : ∀ sub clevis, ∃ l, Instructs R encode rq.oracle.api guid sub clevis l ∧ Follows h t l

/-- In the history `hist` a Done for the device was handled, by which its onboarding was recorded. -/
def Recorded (mv : M → B.W → B.W) (σ0 : Http.St Srv) (guid : Bytes) (hist : List (Http.Event Srv M)) : Prop :=
  ∃ h1 rq h2, hist = h1 ++ .request rq :: h2 ∧ rq.type = .to2Done ∧
    B.setTo2 rq.oracle.now (Http.replay (Sv := Srv) mv σ0 h1).world (guidText guid) =
      ((Http.replay (Sv := Srv) mv σ0 (h1 ++ [.request rq])).world, .ok ())

/-- The deeds of service info on the host. -/
def onHost (t : Trace (sig R)) : Trace SiClient.sig :=
  t.filterMap fun d =>
    match d with
    | ⟨.app (.host m op), a⟩ => some ⟨.host m op, a⟩
    | _ => none

/-- The device has told the owner's server `out`: in the history `hist` there is a request with service info of the device, short
enough for the server, whose contents are `out`, encrypted with some key. -/
def Reported (hist : List (Http.Event Srv M)) (out : List Item) : Prop :=
  ∃ (rq : Http.Request Srv) (k iv : Bytes), .request rq ∈ hist ∧ rq.type = .to2DeviceServiceInfo ∧ rq.body.length ≤ 16384 ∧
    A.encrypt k iv (R.encDeviceSi (toSi R.encVal out)) = some rq.body

/-- What the device did on its host is precisely that it looked what to announce, and followed the instructions of the owner, which
the service info API has given for this device and these modules in the history `hist`; and what is to be reported about it, the device has told the server.
`reboot` says whether it was asked to. -/
def Followed (guid : Bytes) (h : SiClient.Host) (t : Trace (sig R)) (hist : List (Http.Event Srv M))
    (reboot : Bool) : Prop :=
  ∃ (sub clevis : Bool) (os : List Char) (rq : Http.Request Srv) (l : List Item) (ts : Trace SiClient.sig) (out : List Item),
    .request rq ∈ hist ∧ rq.type = .to2DeviceServiceInfo ∧ Instructs R encode rq.oracle.api guid sub clevis l ∧
    Prog.Ends (SiClient.process h l) ts (.ok (reboot, out)) ∧
    Reported (c := c) (B := B) (cfg := cfg) (idOf := idOf) (A := A) (encode := encode) hist out ∧
    onHost t = ⟨.host .devMod (.exists? "/usr/sbin/subscription-manager".toList), sub⟩ ::
      ⟨.host .devMod (.exists? "/usr/bin/clevis".toList), clevis⟩ ::
      ⟨.host .devMod .osRelease, (some (some os) : Option (Option (List Char)))⟩ :: ts

end

end Verif.Device

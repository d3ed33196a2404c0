import Verif.Model.Device
import Verif.Spec.Voucher
/-!
What the device's onboarding client should do, in terms of its deeds: when an owner is vetted, and which deeds need that.
-/
namespace Verif.Device
open Verif Verif.Voucher Verif.Types Verif.Fs
variable {R : DevEnv}

/-- The HMAC `h` of `d` was made with the device's key. -/
def MadeWith (K : Credential.Keys) : Credential.KeyStorage → Bytes → Hash → Prop
  | .plain secret _, d, h => h.value = K.hmac h.type secret d
  | .tpm _ _ pub priv, d, h => ∃ long, K.tpm pub priv d = some (long, h.value)

/-- The beginning of an attempt: a nonce is chosen and sent with the device's GUID; the owner's server replies. -/
def hello (cr : Credential.Cred) (nonce5 iv : Bytes) (reply : Http.NetReply) : Trace (sig R) :=
  [⟨.app .nonce, (some nonce5 : Option Bytes)⟩, ⟨.iv, iv⟩,
   ⟨.net ⟨.to2HelloDevice, none, R.encHello ⟨cr.guid, nonce5, .ecdh384, .a256gcm, .es384, []⟩⟩, some reply⟩]

/-- In `t` the server gave `e` as entry number `i` of the voucher. -/
def Gave (c : Bool) (t : Trace (sig R)) (i : Nat) (e : Bytes) : Prop :=
  ∃ tok body r, (⟨.net ⟨.to2GetOVNextEntry, tok, body⟩, some r⟩ : (sig R).Deed) ∈ t ∧ decEntry R c r.body = some (i, e)

/-- In `t` every request for an entry of the voucher is answered with the entry asked for; `es` are the voucher's entries. The number
in a request is a byte. -/
def HonestEntries (c : Bool) (es : List Bytes) (t : Trace (sig R)) : Prop :=
  ∀ j tok o, j < 256 → (⟨.net ⟨.to2GetOVNextEntry, tok, R.encGetEntry j⟩, o⟩ : (sig R).Deed) ∈ t → ∃ r e, o = some r ∧ es[j]? = some e ∧
    r.success = true ∧ r.type = .code MsgType.to2OVNextEntry.code ∧ r.auth ≠ some none ∧ decEntry R c r.body = some (j, e)

/-- The server is the owner of the device, and the redirect blob `to1d` is the owner's: its reply is a message with payload `p`
which contains the device's nonce and a voucher header with the device's HMAC; the manufacturer's key in the header is the one
in the device's credential; the entries received in `t` (as many as announced, at least one) are a chain of signatures from the
manufacturer; the last owner has signed the reply and the redirect blob. -/
def Vetted (c : Bool) (cr : Credential.Cred) (to1d : Sign1) (nonce5 : Bytes) (reply : Http.NetReply) (t : Trace (sig R))
    (p : OwnerServer.ProveHdr) : Prop :=
  ∃ (s : Sign1) (h : Header R.E) (key : Bytes) (es : List Bytes) (ps : List (Payload R.E)),
    parseSign1 R.E c reply.body = .ok s ∧ parseProveHdr R c s.payload = .ok (p, []) ∧ p.nonce5 = nonce5 ∧
    MadeWith R.H cr.keys p.header p.hmac ∧
    Header.deserialize R.E c p.header = .ok h ∧ h.contents.contents[4]? = some key ∧ R.E.decPub key = some h.mfgKey ∧
    Commits R.E cr.keyHash key ∧
    es.length = p.num ∧ (∀ i e, es[i]? = some e → Gave c t i e) ∧
    SignChain R.E c (h.guid ++ h.deviceInfo.toUTF8.toList) h.mfgKey (p.header ++ R.E.encHash p.hmac) es ps ∧ ps ≠ [] ∧
    R.E.verify (lastOwner h.mfgKey ps) s.prot s.payload s.sig = true ∧
    R.E.verify (lastOwner h.mfgKey ps) to1d.prot to1d.payload to1d.sig = true

/-- The deeds for which the owner has to be vetted: what service info asks of the host, changes to files, and messages in which
the device proves its identity, asks for service info or confirms. -/
def Weighty : (sig R).Eff → Prop
  | .app (.host _ _) => True
  | .app (.fs (.read _)) => False
  | .app (.fs _) => True
  | .net s => s.type = .to2ProveDevice ∨ s.type = .to2DeviceServiceInfoReady ∨ s.type = .to2DeviceServiceInfo ∨ s.type = .to2Done
  | _ => False

/-- In `t` a rendezvous server gave the redirect blob `s`. -/
def Redirected (c : Bool) (t : Trace (sig R)) (s : Sign1) : Prop :=
  ∃ tok body r, (⟨.net ⟨.to1ProveToRV, tok, body⟩, some r⟩ : (sig R).Deed) ∈ t ∧ parseSign1 R.E c r.body = .ok s

/-- The URL is one of an owner's address. -/
def Names (a : Addr) (u : String) : Prop :=
  ∃ scheme host, (a.protocol = .http ∧ scheme = "http" ∨ a.protocol = .https ∧ scheme = "https") ∧
    (a.dns = some host ∨ ∃ ip, a.ip = some ip ∧ R.showIp ip = host) ∧
    u = scheme ++ "://" ++ host ++ ":" ++ toString a.port

/-- The connection to a server, which is used for what follows. -/
abbrev connected (u : String) : (sig R).Deed := ⟨.app (.connect u), ()⟩

/-- The credential `cr` read from the place `l` in `t`. -/
def ReadFrom (l : Credential.Location) (t : Trace (sig R)) (cr : Credential.Cred) : Prop :=
  ∃ b : Bytes, (⟨.app (.fs (.read l.path)), (some b : Option Bytes)⟩ : (sig R).Deed) ∈ t ∧ R.codec.dec b = some cr

/-- `t` ends in an attempt `mid` to be onboarded by the owner at `u`: the credential was read from its place (and no marker
exists), it is active, and the owner's address comes from the redirect blob `to1d` of a rendezvous server. -/
def Attempt (c : Bool) (w : Credential.Surroundings) (l : Credential.Location) (cr : Credential.Cred) (to1d : Sign1)
    (t mid : Trace (sig R)) : Prop :=
  ∃ pre u as a, t = pre ++ connected u :: mid ∧ (∀ v, connected v ∉ mid) ∧ w.exists? (markerPath w) = false ∧
    Credential.find w = some (.ok l) ∧ ReadFrom l pre cr ∧ cr.active = true ∧ cr.version = 101 ∧
    Redirected c pre to1d ∧ R.decAddrs to1d.payload = some as ∧ a ∈ as ∧ Names (R := R) a u

/-- The session's key is the one derived from the device's key exchange value, chosen in `t`, and the owner's. -/
def SessionKey (t : Trace (sig R)) (kexA : Bytes) (ks : Http.Keys) : Prop :=
  ∃ (k : R.K.Key × Bytes) (flag : Bool) (key : Bytes), (⟨.app .kex, (some k : Option (R.K.Key × Bytes))⟩ : (sig R).Deed) ∈ t ∧
    (OwnerServer.newKex .ecdh384 k.1 k.2).deriveKey .device .a256gcm flag kexA = .ok key ∧ ks = ⟨.a256gcm, key⟩

/-- The device's messages and its deeds on the host in terms of a run of its service info alone (`ts`): each message was sent
under the session's key, and each reply is what that key decrypts it to. An exchange without an answer may have sent a
message. -/
inductive Conveyed (A : Http.Aead) (ks : Http.Keys) : Trace SiClient.sig → Trace (sig R) → Prop
  | nil : Conveyed A ks [] []
  | host {m : SiModule} {op : SiClient.Op} {a : op.Ans} {ts : Trace SiClient.sig} {t : Trace (sig R)} (h : Conveyed A ks ts t) :
    Conveyed A ks (⟨.host m op, a⟩ :: ts) (⟨.app (.host m op), a⟩ :: t)
  | message {si : Types.ServiceInfo} {iv body plain : Bytes} {tok : Option (List Char)} {r : Http.NetReply}
    {m : ServiceInfo.OwnerSi} {ts : Trace SiClient.sig} {t : Trace (sig R)}
    (sent : Http.encryptWith A (some ks) iv (R.encDeviceSi si) = some body) (success : r.success = true)
    (type : r.type = .code MsgType.to2OwnerServiceInfo.code) (opened : Http.decryptWith A (some ks) r.body = some plain)
    (reads : R.decOwnerSi plain = some m) (h : Conveyed A ks ts t) :
    Conveyed A ks (⟨.exchange si, (some m : Option ServiceInfo.OwnerSi)⟩ :: ts)
      (⟨.iv, iv⟩ :: ⟨.net ⟨.to2DeviceServiceInfo, tok, body⟩, some r⟩ :: t)
  | failure {si : Types.ServiceInfo} {ts : Trace SiClient.sig} {u t : Trace (sig R)}
    (only : ∀ d ∈ u, d.1 = .iv ∨ ∃ s, d.1 = .net s ∧ s.type = .to2DeviceServiceInfo) (h : Conveyed A ks ts t) :
    Conveyed A ks (⟨.exchange si, (none : Option ServiceInfo.OwnerSi)⟩ :: ts) (u ++ t)

/-- In `t` the owner's server said, under the session's key, that service info is complete. -/
def Complete (A : Http.Aead) (ks : Http.Keys) (t : Trace (sig R)) : Prop :=
  ∃ tok body r plain m, (⟨.net ⟨.to2DeviceServiceInfo, tok, body⟩, some r⟩ : (sig R).Deed) ∈ t ∧ r.success = true ∧
    Http.decryptWith A (some ks) r.body = some plain ∧ R.decOwnerSi plain = some m ∧ m.isDone = true

/-- In `t` the owner's server acknowledged the end of onboarding, under the session's key, with the nonce the device has chosen. -/
def Acknowledged (A : Http.Aead) (ks : Http.Keys) (t : Trace (sig R)) : Prop :=
  ∃ n7 tok body r plain, (⟨.app .nonce, (some n7 : Option Bytes)⟩ : (sig R).Deed) ∈ t ∧
    (⟨.net ⟨.to2Done, tok, body⟩, some r⟩ : (sig R).Deed) ∈ t ∧ r.success = true ∧
    Http.decryptWith A (some ks) r.body = some plain ∧ R.decDone2 plain = some n7

/-- The message was encrypted under the session's key. -/
def Sealed (A : Http.Aead) (ks : Http.Keys) (s : Http.Sent) : Prop :=
  ∃ iv plain, Http.encryptWith A (some ks) iv plain = some s.body

/-- The operation is one of marking the device or of deactivating its credential. -/
def Marks (w : Credential.Surroundings) (l : Credential.Location) (o : Fs.Op) : Prop :=
  o = .create (markerPath w) ∨ o = .append (markerPath w) executed ∨ o = .remove l.path ∨ o = .read l.path ∨ o = .create l.path ∨
    ∃ b, o = .append l.path b

/-- Operations on files as deeds of the client. -/
def onFiles (t : Trace Fs.sig) : Trace (sig R) := t.map fun d => ⟨.app (.fs d.1), d.2⟩

/-- In `t` the device is marked as onboarded, and its credential is deactivated. -/
def Settled (w : Credential.Surroundings) (l : Credential.Location) (t : Trace (sig R)) : Prop :=
  ∃ u, t = onFiles (⟨.create (markerPath w), true⟩ :: ⟨.append (markerPath w) executed, true⟩ :: u) ∧
    Prog.Ends (Credential.deactivate R.codec l) u (.ok ())

/-- The rest of an attempt that succeeded, after the reply to the first message: the owner is vetted, service info is done under
the session's key and asked for a reboot or not, the device is marked and its credential deactivated, and the owner's server
has acknowledged. -/
def Onboarded (c : Bool) (A : Http.Aead) (w : Credential.Surroundings) (h : SiClient.Host) (l : Credential.Location)
    (cr : Credential.Cred) (to1d : Sign1) (n5 : Bytes) (reply : Http.NetReply) (rest : Trace (sig R)) (b : Bool) : Prop :=
  ∃ p ks x ts si fs y, rest = x ++ si ++ fs ++ y ∧ Vetted c cr to1d n5 reply x p ∧ SessionKey x p.kexA ks ∧
    Conveyed A ks ts si ∧ Prog.Ends (SiClient.perform h R.encVal R.decVal) ts (.ok b) ∧ Settled w l fs ∧
    Acknowledged A ks rest

end Verif.Device

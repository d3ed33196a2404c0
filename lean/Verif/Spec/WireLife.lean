import Verif.Spec.Life
import Verif.Spec.Wire
/-!
What is assumed for a device's life besides the forms of messages.
-/
namespace Verif.Wire
open Verif Verif.Types Verif.Voucher

/-- Device credentials are written and read as by data-formats (devicecredential/file.rs). -/
def credentialCodec : Credential.Codec := ⟨credential.write, credential.read⟩

/-- Certificates, keys, key exchange and encryption work, for all parties; sizes are as they are in practice. Nothing is said about the
forms of messages, vouchers and credentials. -/
structure Works {R : Life.Whole} (mcfg : MfgServer.Config R.mfg) (cfg : OwnerServer.Config R.toOwnerEnv) (rcfg : RvServer.Config R.toRvEnv)
    (A : Http.Aead) : Prop where
  chain : ∀ f x, R.build f mcfg.caKey = some x → R.certs (R.mkChain (x :: R.certs mcfg.caChain)) = x :: R.certs mcfg.caChain
  built : ∀ f k x, R.build f k = some x → R.C.publicKey x = some f.key
  signing : ∀ k, mcfg.mfgKey = some k → GoodKey R.E k
  trust : Life.Trust mcfg cfg rcfg
  nonces : ∀ d n p prot sig, mcfg.diun = some d → R.signNonce d.key n (R.encAccept p) = some (prot, sig) →
    prot.length < 2 ^ 63 ∧ sig.length < 2 ^ 63
  kex : KexLaws R.K
  agree : Device.Agree R.K
  secures : Device.Secures A
  digests : Device.Digests R.toDevEnv
  short : ∀ t d, (R.E.digest t d).length ≤ 64
  keys : Device.OwnerKeys R.toDevEnv cfg
  redirects : Device.Signs R.E cfg.ownerKey cfg.ownerPub emptyMap
  period : cfg.period < 2 ^ 32
  rv : (R.E.encRv mcfg.rv).length < 2 ^ 63

/-- The codecs of all parties are those of data-formats. -/
structure Speaks (R : Life.Whole) (F : Forms R.E) (N : To0.Msgs) (encM : MfgServer.Resp → Bytes) (encR : RvServer.Resp → Bytes)
    (encO : OwnerServer.Resp → Bytes) : Prop where
  voucher : SpeaksVoucher R.E F
  mfg : SpeaksMfg R.cli F encM
  to0 : SpeaksTo0 R.toOwnerEnv N encR
  to1 : SpeaksTo1 R.toDevEnv encR
  to2 : SpeaksTo2 R.toDevEnv F encO
  credential : R.codec = credentialCodec

end Verif.Wire

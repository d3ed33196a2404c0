import Verif.Model.PublicKey
import Verif.Spec.Wire
/-!
What public keys are to be.
-/
namespace Verif.PublicKey
open Verif

/-- OpenSSL reads keys and certificates as it wrote them. -/
structure Ssl.Laws (S : Ssl) : Prop where
  key : ∀ k, S.keyOfDer (S.derOfKey k) = some k
  cert : ∀ c, S.certOfDer (S.derOfCert c) = some c

/-- The public keys a program can come by: `PublicKey` has no other constructor. -/
inductive Obtained (S : Ssl) : PublicKey S → Prop
  | read {b k} : read S b = some k → Obtained S k
  | chain {c k} : ofChain c = .ok k → Obtained S k
  | cert {c k} : ofCert c = .ok k → Obtained S k

/-- The types of keys: two curves, RSA with 2048 and 3072 bits. -/
inductive IsType : MfgServer.KeyType → Kind → Prop
  | p256 : IsType .ecdsa256 .p256
  | p384 : IsType .ecdsa384 .p384
  | rsa2048 : IsType .rsa2048 (.rsa 2048)
  | rsa3072 : IsType .rsaPkcs (.rsa 3072)

/-- The parts of a key which are not written are those of the data: the key of a key in X.509 form; chain and key of its first
certificate for a key in form of a chain. -/
inductive Coherent (S : Ssl) : PublicKey S → Prop
  | x509 {t d k} : S.keyOfDer d = some k → Coherent S ⟨t, .x509, d, k, none⟩
  | chain {t d k leaf more} : chainFromSlice S d = some (leaf :: more) → S.certKey leaf = some k →
      Coherent S ⟨t, .x5chain, d, k, some (leaf :: more)⟩

end Verif.PublicKey

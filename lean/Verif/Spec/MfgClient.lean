import Verif.Model.MfgClient
import Verif.Props.Rendezvous
/-!
What the manufacturing client should do, in terms of its deeds: where a key may be made, and when the server counts as
authenticated.
-/
namespace Verif.MfgClient
open Verif Verif.Voucher Verif.Types Verif.MfgServer Verif.Fs
variable {R : ClientEnv}

/-! ### Choice of a storage -/

/-- The key types a device can have. -/
def Elliptic (t : KeyType) : Prop := t = .ecdsa256 ∨ t = .ecdsa384

instance (t : KeyType) : Decidable (Elliptic t) := inferInstanceAs (Decidable (_ ∨ _))

/-- `tr` is the making of the key `k` of type `t` in a storage. -/
inductive MadeIn (t : KeyType) : KeyStorage → Trace (sig R) → KeyRef R → Prop
  | fileSystem (hmac : Bytes) (sign : R.SignKey) : Elliptic t →
    MadeIn t .fileSystem [⟨.app .random, some hmac⟩, ⟨.app (.ecKey t), some sign⟩] (.fs sign hmac)
  | tpm (a b c d : Bytes) : Elliptic t → MadeIn t .tpm [⟨.app (.tpmKeys t), some (a, b, c, d)⟩] (.tpm a b c d)

/-- In `tr` a storage turned out not to be usable for a key of type `t`. -/
inductive Unusable (t : KeyType) : KeyStorage → Trace (sig R) → Prop
  | noRandom : Unusable t .fileSystem [⟨.app .random, none⟩]
  | noKey (hmac : Bytes) : Unusable t .fileSystem [⟨.app .random, some hmac⟩, ⟨.app (.ecKey t), none⟩]
  | type (hmac : Bytes) : ¬ Elliptic t → Unusable t .fileSystem [⟨.app .random, some hmac⟩]
  | noTpm : Unusable t .tpm [⟨.app (.tpmKeys t), none⟩]
  | tpmType : ¬ Elliptic t → Unusable t .tpm []

/-- What happened fits a device which can make keys in the storages `can`. -/
structure Fits (can : KeyStorage → Bool) (tr : Trace (sig R)) : Prop where
  tpm : ∀ t r, (⟨.app (.tpmKeys t), r⟩ : (sig R).Deed) ∈ tr → Option.isSome r = can .tpm
  random : ∀ r, (⟨.app .random, r⟩ : (sig R).Deed) ∈ tr → can .fileSystem = true → Option.isSome r = true
  ecKey : ∀ t r, (⟨.app (.ecKey t), r⟩ : (sig R).Deed) ∈ tr → Option.isSome r = can .fileSystem

/-! ### Authentication of the server -/

/-- What is given for verification: a file of certificates, a digest, and whether it may be left out. From the command line, or
from the environment. With plain DI there is no key exchange. -/
def given (w : Credential.Surroundings) : Args → Option (Option Path × Option (List Char) × Bool)
  | .plain _ _ _ => none
  | .noPlain roots hash insecure _ => some (roots, hash, insecure)
  | .fromEnv =>
    if w.var "USE_PLAIN_DI".toList = some (some "true".toList) then none
    else some ((w.var "DIUN_PUB_KEY_ROOTCERTS".toList).join, (w.var "DIUN_PUB_KEY_HASH".toList).join,
      (w.var "DIUN_PUB_KEY_INSECURE".toList).join.isSome)

/-- How the server is to be verified according to what is given, and to the files as they were read in `tr`. -/
inductive Configured (tr : Trace (sig R)) : Option Path × Option (List Char) × Bool → Verification R → Prop
  | certs (p : Path) (hash : Option (List Char)) (insecure : Bool) (b : Bytes) (l : List R.C.Cert) :
    (⟨.app (.fs (.read p)), some b⟩ : (sig R).Deed) ∈ tr → R.pemCerts b = some l →
    Configured tr (some p, hash, insecure) (.certs l)
  | hash (s : List Char) (insecure : Bool) (h : Hash) : hashFromStr s = .ok h → Configured tr (none, some s, insecure) (.hash h)
  | insecure : Configured tr (none, none, true) .insecure

/-- The certificate `root` is trusted. -/
def Trusts : Verification R → R.C.Cert → Prop
  | .hash h, root => h.value = R.hashCert h.type root
  | .certs bag, root => ∃ t ∈ bag, R.certDigest root = R.certDigest t
  | .insecure, _ => True

/-- `leaf` is the first certificate of a chain whose certificates are signed by the next one each up to a trusted one. -/
def Verified (how : Verification R) (chain : List R.C.Cert) (leaf : R.C.Cert) : Prop :=
  ∃ seg root rest, chain = seg ++ root :: rest ∧ chain.head? = some leaf ∧ Trusts how root ∧
    List.IsChain (fun a b => Rendezvous.Signs R.C b a) (seg ++ [root]) ∧ (2 ≤ chain.length → seg ≠ [])

/-- `b` is an Accept message whose sender has the private key of a verified certificate, since it has signed `nonce` and the key
exchange value `other` with it. -/
def Authenticated (c : Bool) (how : Verification R) (nonce other b : Bytes) : Prop :=
  ∃ s pub ch leaf key, parseSign1 R.E c b = .ok s ∧ R.cuphOwner s.unprot = some (some pub) ∧ R.pubChain pub = some ch ∧
    Verified how (R.certs ch) leaf ∧ R.leafKey leaf = some key ∧ R.E.verify key s.prot s.payload s.sig = true ∧
    R.protNonce s.prot = some (some nonce) ∧ R.decAccept s.payload = some other

end Verif.MfgClient

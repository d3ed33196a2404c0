import Verif.Model.Wire
/-!
Public keys and certificate chains: `data-formats/src/publickey.rs`. What OpenSSL does is left open (`Ssl`); the verification of chains
is in `Model/Rendezvous`.
-/
namespace Verif.PublicKey
open Verif

/-- `pkey.id()` with the curve (`group().curve_name()`) or the size in bits, as far as the code tells them apart. -/
inductive Kind where
  | p256
  | p384
  | otherCurve
  | rsa (bits : Nat)
  | other
  deriving DecidableEq, Repr

/-- OpenSSL. Writing does not fail (it does if there is no memory left), nor does `ec_key()` for a key on a curve. -/
structure Ssl where
  Key : Type
  Cert : Type
  /-- `PKey::public_key_from_der` -/
  keyOfDer : Bytes → Option Key
  /-- `public_key_to_der` -/
  derOfKey : Key → Bytes
  /-- `X509::from_der` -/
  certOfDer : Bytes → Option Cert
  /-- `X509::to_der` -/
  derOfCert : Cert → Bytes
  /-- `X509::public_key` -/
  certKey : Cert → Option Key
  kind : Key → Kind

/-- `PublicKeyEncoding` (constants/mod.rs:134-142). -/
inductive Encoding where
  | crypto
  | x509
  | x5chain
  | cosekey
  deriving DecidableEq, Repr

/-- Its numbers. -/
def Encoding.num : Encoding → Int
  | .crypto => 0
  | .x509 => 1
  | .x5chain => 2
  | .cosekey => 3

/-- See `num`. -/
def Encoding.of (n : Int) : Option Encoding := [Encoding.crypto, .x509, .x5chain, .cosekey].find? fun e => e.num == n

/-- Numbers of `PublicKeyType` (constants/mod.rs:123-132). -/
def typeNum : MfgServer.KeyType → Int
  | .rsa2048 => 1
  | .rsaPkcs => 5
  | .rsaPss => 6
  | .ecdsa256 => 10
  | .ecdsa384 => 11

/-- See `typeNum`. -/
def typeOf (n : Int) : Option MfgServer.KeyType :=
  [MfgServer.KeyType.rsa2048, .rsaPkcs, .rsaPss, .ecdsa256, .ecdsa384].find? fun t => typeNum t == n

/-- The errors of the functions below. -/
inductive KeyErr where
  | ssl
  | cbor
  | inconsistent
  | unsupported
  deriving DecidableEq, Repr

variable {S : Ssl}

/-- `PublicKey` (publickey.rs:25-37). -/
structure PublicKey (S : Ssl) where
  type : MfgServer.KeyType
  encoding : Encoding
  data : Bytes
  pkey : S.Key
  certs : Option (List S.Cert)

/-- `X5Chain::deserialize` (publickey.rs:213-247): each element a byte string with a certificate in DER form. -/
def certsDe (S : Ssl) : Wire.Item → Option (List S.Cert)
  | .arr l => Wire.Codec.deAll (fun
      | .bytes b => S.certOfDer b
      | _ => none) l
  | _ => none

/-- `X5Chain::from_slice` (publickey.rs:349-351). -/
def chainFromSlice (S : Ssl) (b : Bytes) : Option (List S.Cert) := (Wire.fromSlice b).bind (certsDe S)

/-- `X5Chain::serialize` and `to_vec` (publickey.rs:249-264, 353-355). -/
def chainToVec (c : List S.Cert) : Bytes := Wire.enc (.arr (c.map fun x => .bytes (S.derOfCert x)))

/-- `X5Chain::new` (publickey.rs:267-273). -/
def chainNew (c : List S.Cert) : Res KeyErr (List S.Cert) := if c.isEmpty then .err .inconsistent else .ok c

/-- `parse_data` (publickey.rs:104-133). The type of the key is not looked at. -/
def parseData (S : Ssl) (_type : MfgServer.KeyType) (encoding : Encoding) (data : Bytes) : Res KeyErr (Option (List S.Cert) × S.Key) :=
  match encoding with
  | .x509 =>
    match S.keyOfDer data with
    | none => .err .ssl
    | some k => .ok (none, k)
  | .x5chain =>
    if data.isEmpty then .err .inconsistent
    else
      match chainFromSlice S data with
      | none => .err .cbor
      | some [] => .err .inconsistent
      | some (c :: r) =>
        match S.certKey c with
        | none => .err .ssl
        | some k => .ok (some (c :: r), k)
  | .crypto => .err .unsupported
  | .cosekey => .err .unsupported

/-- `PublicKey::new` (publickey.rs:76-94). -/
def new (S : Ssl) (type : MfgServer.KeyType) (encoding : Encoding) (data : Bytes) : Res KeyErr (PublicKey S) :=
  match parseData S type encoding data with
  | .ok (certs, pkey) => .ok ⟨type, encoding, data, pkey, certs⟩
  | .err e => .err e
  | .panic => .panic

/-- `key_type_from_pkey` (publickey.rs:135-149). -/
def typeFromKey (k : S.Key) : Res KeyErr MfgServer.KeyType :=
  match S.kind k with
  | .p256 => .ok .ecdsa256
  | .p384 => .ok .ecdsa384
  | .rsa 2048 => .ok .rsa2048
  | .rsa 3072 => .ok .rsaPkcs
  | _ => .err .unsupported

/-- `TryFrom<X5Chain> for PublicKey` (publickey.rs:160-180). -/
def ofChain (c : List S.Cert) : Res KeyErr (PublicKey S) :=
  match c with
  | [] => .err .inconsistent
  | leaf :: _ =>
    match S.certKey leaf with
    | none => .err .ssl
    | some k =>
      match typeFromKey k with
      | .ok t => .ok ⟨t, .x5chain, chainToVec c, k, some c⟩
      | .err e => .err e
      | .panic => .panic

/-- `TryFrom<X509> for PublicKey` (publickey.rs:182-199). -/
def ofCert (c : S.Cert) : Res KeyErr (PublicKey S) :=
  match S.certKey c with
  | none => .err .ssl
  | some k =>
    match typeFromKey k with
    | .ok t => .ok ⟨t, .x509, S.derOfKey k, k, none⟩
    | .err e => .err e
    | .panic => .panic

/-- The numbers and data which are written (`Serialize_tuple`, publickey.rs:25-37). -/
def PublicKey.form (k : PublicKey S) : Int × Int × Bytes := (typeNum k.type, k.encoding.num, k.data)

/-- A key of the numbers and data read (publickey.rs:39-73). -/
def ofForm (S : Ssl) (x : Int × Int × Bytes) : Option (PublicKey S) :=
  match typeOf x.1, Encoding.of x.2.1 with
  | some t, some e =>
    match new S t e x.2.2 with
    | .ok k => some k
    | _ => none
  | _, _ => none

/-- `serialize_data` of a public key (publickey.rs:25-37). -/
def PublicKey.write (k : PublicKey S) : Bytes := Wire.publicKey.write k.form

/-- `deserialize_data` for a public key (publickey.rs:39-73). -/
def read (S : Ssl) (b : Bytes) : Option (PublicKey S) := (Wire.publicKey.read b).bind (ofForm S)

end Verif.PublicKey

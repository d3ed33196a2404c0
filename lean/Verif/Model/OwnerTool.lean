import Verif.Model.Credential
import Verif.Model.Voucher
/-!
The owner tool (`owner-tool/src/main.rs`): extending a voucher file and initialising a device; reading vouchers in PEM or
raw form (`data-formats/src/ownershipvoucher.rs`).
-/
namespace Verif.OwnerTool
open Verif Verif.Voucher Verif.Fs

/-- External functions: the `pem` crate, OpenSSL's readers and `str::trim`, the credential codec and HMAC. -/
structure Tool where
  E : Env
  /-- `pem::parse`: label and contents -/
  pemParse : Bytes → Option (List Char × Bytes)
  /-- `pem::encode` -/
  pemEncode : List Char → Bytes → Bytes
  /-- `PKey::private_key_from_der` -/
  privateKey : Bytes → Option E.Priv
  /-- `X509::from_pem` and `PublicKey::try_from` -/
  certKey : Bytes → Option E.Pub
  /-- `str::trim` -/
  trim : String → String
  codec : Credential.Codec
  keys : Credential.Keys

variable (T : Tool) (c : Bool)

/-- `VOUCHER_PEM_TAG` (ownershipvoucher.rs:21). -/
def pemTag : List Char := "OWNERSHIP VOUCHER".toList

/-- `OwnershipVoucher::deserialize_data`: the rest of the data is not looked at. -/
def fromRaw (b : Bytes) : Res Err (Voucher T.E) := do
  let (v, _) ← Voucher.deserialize c b
  pure v

/-- `from_pem` (ownershipvoucher.rs:177-186). -/
def fromPem (b : Bytes) : Res Err (Voucher T.E) :=
  if b.isEmpty then .err .emptyData
  else match T.pemParse b with
    | none => .err .serde
    | some (tag, contents) => if tag ≠ pemTag then .err .invalidPemTag else fromRaw T c contents

/-- `from_pem_or_raw` (ownershipvoucher.rs:204-213): `data[1]` is looked at whenever there is a first byte. -/
def fromPemOrRaw (b : Bytes) : Res Err (Voucher T.E) :=
  match b with
  | [] => .err .emptyData
  | [_] => .panic
  | x :: y :: _ => if x = y ∧ x = 45 then fromPem T c b else fromRaw T c b

/-- `to_pem` (ownershipvoucher.rs:215-218). -/
def toPem (v : Voucher T.E) : Res Err Bytes := do
  let b ← Voucher.serialize v
  pure (T.pemEncode pemTag b)

/-- Failures of the tool. -/
inductive ToolErr where
  | io
  | parse
  | version
  | voucher (e : Err)
  | exists
  deriving DecidableEq, Repr

/-- Failures of the library. -/
def liftE {α : Type} : Res Err α → Res ToolErr α
  | .ok a => .ok a
  | .err e => .err (.voucher e)
  | .panic => .panic

/-- The name under which the extended voucher is written first (owner-tool/src/main.rs:617). -/
def newName (p : Path) : Path := p ++ ".new".toList

/-- What `extend` gives: the voucher, or its failure. -/
def extended (v : Voucher T.E) (k : T.E.Priv) (n : T.E.Pub) : Res Err (Voucher T.E) :=
  match Voucher.extend c v k none n with
  | (v', .ok _) => .ok v'
  | (_, .err e) => .err e
  | (_, .panic) => .panic

/-- `extend_voucher` (owner-tool/src/main.rs:582-628). -/
def extendVoucher (path keyPath certPath : Path) : Proc sig ToolErr Unit := do
  let b ← readFile .io path
  let v ← Proc.lift (liftE (fromPemOrRaw T c b))
  Proc.check .version (v.header.version == 101)
  let kb ← readFile .io keyPath
  let k ← Proc.some? .parse (T.privateKey kb)
  let cb ← readFile .io certPath
  let n ← Proc.some? .parse (T.certKey cb)
  let v' ← Proc.lift (liftE (extended T c v k n))
  let pem ← Proc.lift (liftE (toPem T v'))
  writeFile .io (newName path) pem
  renameFile .io (newName path) path

/-! ### Initialising a device -/

/-- What is read, generated and built before anything is written (owner-tool/src/main.rs:308-397): the manufacturer's key,
the rendezvous information, the new certificate chain with its hash, the HMAC secret, the device key and the GUID. -/
structure InitInput where
  id : String
  mfgKey : T.E.Pub
  rv : T.E.Rv
  chain : T.E.Chain
  chainHash : Hash
  secret : Bytes
  privateKey : Bytes
  guid : Bytes

/-- `manufacturer_public_key_hash` (ownershipvoucher.rs:518-523): digest of the encoded key in the header. -/
def mfgKeyHash (h : Header T.E) (t : HashType) : Res Err Hash := do
  let raw ← getRaw h.contents 4
  T.E.hashData t raw

/-- The voucher and the credential of a new device (owner-tool/src/main.rs:399-448). -/
def initPair (i : InitInput T) : Res Err (Voucher T.E × Credential.Cred) := do
  let h := Header.new T.E 101 i.guid i.rv (T.trim i.id) i.mfgKey (some i.chainHash)
  let hb ← h.serialize T.E
  let kh ← mfgKeyHash T h .sha384
  let hmac ← Hash.fromDigest .hmacSha384 (T.keys.hmac .hmacSha384 i.secret hb)
  let v ← Voucher.new h hmac (some i.chain)
  pure (v, { active := true, version := 101, info := i.id.toList, guid := i.guid, rvinfo := T.E.encRv i.rv, keyHash := kh,
             keys := .plain i.secret i.privateKey })

/-- `initialize_device` (owner-tool/src/main.rs:308-452) after reading its inputs; the checks for existing files come before
the pair is made. -/
def initDevice (i : InitInput T) (ovPath credPath : Path) : Proc sig ToolErr Unit := do
  let x ← Proc.ask (S := sig) (.exists? credPath)
  Proc.check .exists (!(x : Bool))
  let y ← Proc.ask (S := sig) (.exists? ovPath)
  Proc.check .exists (!(y : Bool))
  let (v, cr) ← Proc.lift (liftE (initPair T i))
  let pem ← Proc.lift (liftE (toPem T v))
  writeFile .io ovPath pem
  writeFile .io credPath (T.codec.enc cr)

end Verif.OwnerTool

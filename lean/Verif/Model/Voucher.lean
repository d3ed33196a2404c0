import Verif.Model.Crypto
/-!
Model of `data-formats/src/ownershipvoucher.rs`. `c` is the build profile of the CBOR reader
(see `Model/Cbor`); `E` holds the external functions.
-/
namespace Verif.Voucher
open Verif Verif.Cbor

variable (E : Env) (c : Bool)

/-- `OwnershipVoucherEntryPayload` (ownershipvoucher.rs:647-653). -/
abbrev Payload := EntryPayload E.Pub E.Extra

/-- `ParsedArray::get` for a serde leaf type (cborparser.rs:481-487): out of range panics. -/
def getLeaf {α : Type} (dec : Bytes → Option α) (a : ParsedArray) (n : Nat) : Res Err α :=
  match a.contents[n]? with
  | none => .panic
  | some raw => ofOpt .serde (dec raw)

/-- `ParsedArray::get_raw` (cborparser.rs:489-492). -/
def getRaw (a : ParsedArray) (n : Nat) : Res Err Bytes :=
  match a.contents[n]? with
  | none => .panic
  | some raw => .ok raw

/-- `OwnershipVoucherHeader` (ownershipvoucher.rs:441-451). -/
structure Header where
  contents : ParsedArray
  version : Nat
  guid : Bytes
  rv : E.Rv
  deviceInfo : String
  mfgKey : E.Pub
  chainHash : Option Hash

/-- `check_device_info` (ownershipvoucher.rs:549-557): `f as u8` truncates the code point;
the accepted range is 32..127 (ACCEPTABLE_ASCII_RANGE, line 22). -/
def deviceInfoOk (s : String) : Bool :=
  s.toList.all (fun ch => 32 ≤ ch.toNat % 256 && ch.toNat % 256 < 127)

/-- `OwnershipVoucherHeader::deserialize_from_reader` (ownershipvoucher.rs:574-603);
`deserialize_data` of a header uses it on a slice and ignores trailing bytes. -/
def Header.deserialize (inp : Bytes) : Res Err (Header E) := do
  let (a, _) ← liftP (Cbor.deserialize c (some 6) inp)
  let version ← getLeaf E.decVersion a 0
  let guid ← getLeaf E.decGuid a 1
  let rv ← getLeaf E.decRv a 2
  let info ← getLeaf E.decText a 3
  if !deviceInfoOk info then .err .inconsistentValue
  else
    let key ← getLeaf E.decPub a 4
    let ch ← getLeaf E.decHashOpt a 5
    pure ⟨a, version, guid, rv, info, key, ch⟩

/-- `OwnershipVoucherHeader::serialize_to_writer` (ownershipvoucher.rs:605-611). -/
def Header.serialize (h : Header E) : Res Err Bytes :=
  if !deviceInfoOk h.deviceInfo then .err .inconsistentValue else liftP (Cbor.serialize h.contents)

/-- `OwnershipVoucherHeader::new` (ownershipvoucher.rs:453-496). `device_info.trim()` (463) is
applied by the caller of this model function: `info` is the trimmed string. -/
def Header.new (version : Nat) (guid : Bytes) (rv : E.Rv) (info : String) (key : E.Pub)
    (ch : Option Hash) : Header E :=
  { contents := ⟨none, [E.encVersion version, E.encGuid guid, E.encRv rv, E.encText info,
      E.encPub key, E.encHashOpt ch]⟩
    version := version, guid := guid, rv := rv, deviceInfo := info, mfgKey := key, chainHash := ch }

/-- The bytes hashed by `get_hdr_info_hash` (ownershipvoucher.rs:529-545): GUID and device info,
without CBOR prefixes. -/
def Header.infoBytes (h : Header E) : Res Err Bytes := do
  let guid ← getLeaf E.decGuid h.contents 1
  let info ← getLeaf E.decText h.contents 3
  pure (guid ++ info.toUTF8.toList)

/-- `OwnershipVoucherHeader::get_hdr_info_hash` (ownershipvoucher.rs:529-546). -/
def Header.infoHash (h : Header E) (t : HashType) : Res Err Hash := do
  let d ← h.infoBytes
  E.hashData t d

/-- `OwnershipVoucher` (ownershipvoucher.rs:36-46). -/
structure Voucher where
  contents : ParsedArray
  version : Nat
  header : Header E
  hmac : Hash
  chain : Option E.Chain
  entries : ParsedArray

variable {E}

/-- `OwnershipVoucher::from_parsed_array` (ownershipvoucher.rs:49-68). -/
def fromParsedArray (a : ParsedArray) : Res Err (Voucher E) := do
  let version ← getLeaf E.decVersion a 0
  let hb ← getLeaf E.decBytes a 1
  let header ← Header.deserialize E c hb
  let hmac ← getLeaf E.decHash a 2
  let chain ← getLeaf E.decChainOpt a 3
  let eraw ← getRaw a 4
  let (entries, _) ← liftP (Cbor.deserialize c none eraw)
  pure ⟨a, version, header, hmac, chain, entries⟩

/-- `OwnershipVoucher::deserialize_from_reader` (ownershipvoucher.rs:72-85): the voucher and the unread rest. -/
def deserialize (inp : Bytes) : Res Err (Voucher E × Bytes) :=
  match Cbor.deserialize c (some 5) inp with
  | .err (.invalidNumberOfElements 4 5) => .err .unsupportedVersion
  | .err e => .err (.parse e)
  | .panic => .panic
  | .ok (a, rest) => do
    let v ← fromParsedArray c a
    pure (v, rest)

/-- `OwnershipVoucher::serialize_to_writer` (ownershipvoucher.rs:87-92). -/
def serialize (v : Voucher E) : Res Err Bytes := liftP (Cbor.serialize v.contents)

/-- `OwnershipVoucher::new` (ownershipvoucher.rs:143-175): version 1.1 (101), no entries. The header
bytes are taken from `header.contents` directly, without the device info check. -/
def new (header : Header E) (hmac : Hash) (chain : Option E.Chain) : Res Err (Voucher E) := do
  let hb ← liftP (Cbor.serialize header.contents)
  let eb ← liftP (Cbor.serialize ⟨none, []⟩)
  pure { contents := ⟨none, [E.encVersion 101, E.encBytes hb, E.encHash hmac, E.encChainOpt chain, eb]⟩
         version := 101, header := header, hmac := hmac, chain := chain, entries := ⟨none, []⟩ }

/-- `OwnershipVoucher::from_parts` (ownershipvoucher.rs:107-141). -/
def fromParts (version : Nat) (header : Bytes) (hmac : Hash) (entries : ParsedArray) :
    Res Err (Voucher E) := do
  let eb ← liftP (Cbor.serialize entries)
  let h ← Header.deserialize E c header
  pure { contents := ⟨none, [E.encVersion version, E.encBytes header, E.encHash hmac,
           E.encChainOpt none, eb]⟩
         version := version, header := h, hmac := hmac, chain := none, entries := entries }

/-- `OwnershipVoucher::hash_type` (ownershipvoucher.rs:220-222). -/
def hashType (v : Voucher E) : HashType := v.hmac.type.innerHash

/-- `OwnershipVoucher::num_entries` (ownershipvoucher.rs:243-245): `as u16` truncates. -/
def numEntries (v : Voucher E) : Nat := v.entries.contents.length % 65536

/-- The bytes hashed by `hdr_hash` (ownershipvoucher.rs:251-261): header bytes followed by the raw HMAC element. -/
def hdrBytes (v : Voucher E) : Res Err Bytes := do
  let h ← getLeaf E.decBytes v.contents 1
  let m ← getRaw v.contents 2
  pure (h ++ m)

/-- `OwnershipVoucher::hdr_hash` (ownershipvoucher.rs:251-263). -/
def hdrHash (v : Voucher E) (t : HashType) : Res Err Hash := do
  let d ← hdrBytes v
  E.hashData t d

/-- A parsed COSE_Sign1 (types.rs:1732-1737; payload and signature already unwrapped from their
byte strings). -/
structure Sign1 where
  prot : Bytes
  unprot : Bytes
  payload : Bytes
  sig : Bytes
  deriving DecidableEq, Repr

variable (E) in
/-- `COSESign::deserialize_from_reader` (types.rs:1739-1765) on a slice. The COSE library re-parses
the whole array; here its four elements are decoded one by one. -/
def parseSign1 (raw : Bytes) : Res Err Sign1 := do
  let (a, _) ← liftP (Cbor.deserialize c (some 4) raw)
  if a.tag ≠ some 18 then .err .inconsistentValue
  else
    let prot ← getLeaf E.decBytes a 0
    let unprot ← getRaw a 1
    let payload ← getLeaf E.decBytes a 2
    let sig ← getLeaf E.decBytes a 3
    if E.coseOk prot unprot then pure ⟨prot, unprot, payload, sig⟩ else .err .crypto

/-- CBOR empty map, the unprotected header of a voucher entry. -/
def emptyMap : Bytes := [0xa0]

variable (E) in
/-- `COSESign::new` with no unprotected headers (types.rs:1796-1815) followed by `serialize_data`
(types.rs:1767-1783): the raw bytes of the signed array, tag 18. -/
def signRaw (k : E.Priv) (payload : Bytes) : Res Err Bytes := do
  let (prot, sig) ← ofOpt .crypto (E.sign k payload)
  liftP (Cbor.serialize ⟨some 18, [E.encBytes prot, emptyMap, E.encBytes payload, E.encBytes sig]⟩)

/-- The public key of the party that may extend (ownershipvoucher.rs:277-295): manufacturer key, or
the key named by the last entry (payload not verified), together with the hash of what precedes. -/
def currentOwner (v : Voucher E) : Res Err (Hash × E.Pub) :=
  match v.entries.contents.getLast? with
  | none => do
    let h ← hdrHash v (hashType v)
    pure (h, v.header.mfgKey)
  | some raw => do
    let h ← E.hashData (hashType v) raw
    let s ← parseSign1 E c raw
    let p ← ofOpt .serde (E.decPayload s.payload)
    pure (h, p.publicKey)

/-- The entry that `extend` appends, or why it cannot (ownershipvoucher.rs:271-306). -/
def newEntry (v : Voucher E) (k : E.Priv) (extra : Option E.Extra) (next : E.Pub) : Res Err Bytes :=
  if extra.isSome ∧ v.version < 101 then .err .invalidProtocolVersion
  else do
    let hi ← v.header.infoHash E (hashType v)
    let (last, owner) ← currentOwner c v
    if !E.keyMatches owner k then .err .nonOwnerKey
    else signRaw E k (E.encPayload ⟨last, hi, extra, next⟩)

/-- `OwnershipVoucher::extend` (ownershipvoucher.rs:265-316): new voucher state and result. The
entry is pushed before the serialized entries element is replaced. -/
def extend (v : Voucher E) (k : E.Priv) (extra : Option E.Extra) (next : E.Pub) :
    Voucher E × Res Err Unit :=
  match newEntry c v k extra next with
  | .err e => (v, .err e)
  | .panic => (v, .panic)
  | .ok raw =>
    let entries : ParsedArray := { v.entries with contents := v.entries.contents ++ [raw] }
    match Cbor.serialize entries with
    | .ok eb =>
      ({ v with entries := entries, contents := { v.contents with contents := v.contents.contents.set 4 eb } },
        .ok ())
    | .err e => ({ v with entries := entries }, .err (.parse e))
    | .panic => ({ v with entries := entries }, .panic)

/-- State of `EntryIter` (ownershipvoucher.rs:342-349). -/
structure IterSt (E : Env) where
  index : Nat
  errored : Bool
  lastKey : E.Pub

/-- What one call of `EntryIter::next` reports. -/
inductive Poll (E : Env) where
  | done
  | item (p : Payload E)
  | error (e : Err)
  | panic

/-- `OwnershipVoucher::iter_entries` (ownershipvoucher.rs:330-338). -/
def iterStart (v : Voucher E) : IterSt E := ⟨0, false, v.header.mfgKey⟩

/-- What precedes entry `i`: header and HMAC, or the previous raw entry (ownershipvoucher.rs:390-397). -/
def prevHash (v : Voucher E) (i : Nat) (t : HashType) : Res Err Hash :=
  if i = 0 then hdrHash v t
  else do
    let raw ← getRaw v.entries (i - 1)
    E.hashData t raw

/-- `entry.get_payload(key)` (types.rs:1849-1855): verify, then decode. -/
def getPayload {E : Env} (key : E.Pub) (s : Sign1) : Res Err (Payload E) :=
  if E.verify key s.prot s.payload s.sig then ofOpt .serde (E.decPayload s.payload) else .err .crypto

/-- `EntryIter::process_element` (ownershipvoucher.rs:381-427), for entry number `i` with raw bytes
`raw` under key `key`; includes the decoding of the entry done by `next` (line 366). -/
def checkEntry (v : Voucher E) (key : E.Pub) (i : Nat) (raw : Bytes) : Res Err (Payload E) := do
  let s ← parseSign1 E c raw
  let p ← getPayload key s
  let hp ← prevHash v i p.hashPrev.type
  let _ ← p.hashPrev.compare hp
  let hh ← v.header.infoHash E p.hashHdrInfo.type
  let _ ← p.hashHdrInfo.compare hh
  pure p

/-- `EntryIter::next` (ownershipvoucher.rs:354-378). An entry that cannot be decoded latches the
error without advancing the index; the difference to a failed check is not observable. -/
def next (v : Voucher E) (st : IterSt E) : Poll E × IterSt E :=
  if st.errored then (.done, st)
  else match v.entries.contents[st.index]? with
    | none => (.done, st)
    | some raw =>
      match checkEntry c v st.lastKey st.index raw with
      | .ok p => (.item p, { st with index := st.index + 1, lastKey := p.publicKey })
      | .err e => (.error e, { st with index := st.index + 1, errored := true })
      | .panic => (.panic, { st with errored := true })

/-- `n` successive calls of `next`; a panic ends the caller. -/
def polls (v : Voucher E) : Nat → IterSt E → List (Poll E)
  | 0, _ => []
  | n + 1, st =>
    match next c v st with
    | (.panic, _) => [.panic]
    | (p, st') => p :: polls v n st'

/-- `for entry in voucher.iter_entries()? { let entry = entry?; .. }`: collect all payloads or stop
at the first error (the callers: rendezvous server, owner server, client). -/
def verifyFrom (v : Voucher E) (key : E.Pub) (i : Nat) : List Bytes → Res Err (List (Payload E))
  | [] => .ok []
  | raw :: raws => do
    let p ← checkEntry c v key i raw
    let ps ← verifyFrom v p.publicKey (i + 1) raws
    pure (p :: ps)

/-- See `verifyFrom`. -/
def verifyAll (v : Voucher E) : Res Err (List (Payload E)) :=
  verifyFrom c v v.header.mfgKey 0 v.entries.contents

end Verif.Voucher

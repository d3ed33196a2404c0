import Verif.Basic
import Verif.Model.Types
/-!
Model of the stores: the directory store (`store/src/directory.rs`) on a directory of regular files with
extended attributes, and the database stores (`store/src/sqlite.rs`, `store/src/pg.rs`, which are the
same code up to names, over `db/src/sqlite.rs` / `db/src/postgres.rs`) on tables with `guid` as primary
key (`migrations/*/up.sql`).

Not modelled: failing system calls (other than stopping during a store operation), subdirectories,
concurrent operations on the same entry, power loss (there is no `fsync`), connection pool failures.
Times are nanoseconds since 1970; stored time stamps are whole seconds.
-/
namespace Verif.Store
open Verif

/-- File names, keys (`K::to_string`) and metadata keys. -/
abbrev Name := List Char

/-- Errors of the stores (store/src/lib.rs:9-19). -/
inductive SErr where
  | unspecified
  | methodNotAvailable
  | database
  deriving DecidableEq, Repr

/-- `str::replace('/', "_slash_")` (directory.rs:66). -/
def escape : Name → Name
  | [] => []
  | c :: r => if c = '/' then "_slash_".toList ++ escape r else c :: escape r

/-- Name of the temporary file (directory.rs:336-340). -/
def tmpName (n : Name) : Name := ('.' :: n) ++ ".tmp".toList

/-- A regular file: content and extended attributes. -/
structure File where
  content : Bytes
  xattrs : Name → Option Bytes

/-- A directory. -/
abbrev Dir := Name → Option File

/-- `format_xattr` (directory.rs:88-90). -/
def xattrName (k : Name) : Name := "user.".toList ++ k

/-- `MetadataKey::Ttl.to_key()` (store/src/lib.rs:81-86). -/
def ttlKey : Name := "store_ttl".toList

/-- Little-endian bytes. -/
def leBytes : Nat → Nat → Bytes
  | 0, _ => []
  | k + 1, n => UInt8.ofNat (n % 256) :: leBytes k (n / 256)

/-- Value of little-endian bytes. -/
def leNat : Bytes → Nat
  | [] => 0
  | b :: r => b.toNat + 256 * leNat r

/-- One second in the unit of the clock. -/
def second : Nat := 1000000000

/-- `ttl_from_disk` (directory.rs:71-80), in seconds. `UNIX_EPOCH + Duration::from_secs` panics when the
sum does not fit the `i64` seconds of `SystemTime`. -/
def ttlFromDisk (b : Bytes) : Res SErr Nat :=
  if b.length ≠ 8 then .err .unspecified
  else if leNat b ≥ 2 ^ 63 then .panic
  else .ok (leNat b)

/-- Metadata values (store/src/lib.rs:47-69): booleans, and durations (in clock units) counted from now. -/
inductive MValue where
  | flag (b : Bool)
  | after (d : Int)
  deriving DecidableEq, Repr

/-- Seconds since 1970 of now plus a duration; `OffsetDateTime + Duration` panics outside the years
-9999 to 9999 (store/src/lib.rs:60-64). -/
def MValue.timestamp (now : Nat) (d : Int) : Res SErr Int :=
  let t := ((now : Int) + d) / (second : Int)
  if t < -377705116800 ∨ t > 253402300799 then .panic else .ok t

/-- `MetadataValue::to_stored` (store/src/lib.rs:51-65). -/
def MValue.toStored (now : Nat) : MValue → Res SErr Bytes
  | .flag true => .ok "true".toUTF8.toList
  | .flag false => .ok "false".toUTF8.toList
  | .after d =>
    match MValue.timestamp now d with
    | .ok t => .ok (leBytes 8 (t % 2 ^ 64).toNat)
    | .err e => .err e
    | .panic => .panic

/-- Removing a file. -/
def Dir.erase (d : Dir) (n : Name) : Dir := fun m => if m = n then none else d m

/-- Replacing a file. -/
def Dir.put (d : Dir) (n : Name) (f : File) : Dir := fun m => if m = n then some f else d m

/-- Setting or removing one extended attribute. -/
def File.setAttr (f : File) (a : Name) (v : Option Bytes) : File :=
  { f with xattrs := fun b => if b = a then v else f.xattrs b }

/-- Is a file expired for `load_data` (directory.rs:240-251: `now > ttl`)? -/
def fileExpired (now : Nat) (f : File) : Res SErr Bool :=
  match f.xattrs (xattrName ttlKey) with
  | none => .ok false
  | some b =>
    match ttlFromDisk b with
    | .ok s => .ok (decide (now > s * second))
    | .err e => .err e
    | .panic => .panic

/-- `V::deserialize_from_reader` as used here. -/
def decodeFile {V : Type} (de : Bytes → Option V) (f : File) : Res SErr V :=
  match de f.content with
  | some v => .ok v
  | none => .err .unspecified

/-- `load_data` (directory.rs:231-258). -/
def load {V : Type} (de : Bytes → Option V) (now : Nat) (d : Dir) (key : Name) : Dir × Res SErr (Option V) :=
  match d (escape key) with
  | none => (d, .ok none)
  | some f =>
    match fileExpired now f with
    | .err e => (d, .err e)
    | .panic => (d, .panic)
    | .ok true => (d.erase (escape key), .ok none)
    | .ok false =>
      match decodeFile de f with
      | .ok v => (d, .ok (some v))
      | .err e => (d, .err e)
      | .panic => (d, .panic)

/-- `store_metadata` (directory.rs:260-287). -/
def setMeta (now : Nat) (d : Dir) (key mk : Name) (v : MValue) : Dir × Res SErr Unit :=
  match d (escape key) with
  | none => (d, .ok ())
  | some f =>
    match v.toStored now with
    | .ok b => (d.put (escape key) (f.setAttr (xattrName mk) (some b)), .ok ())
    | .err e => (d, .err e)
    | .panic => (d, .panic)

/-- `destroy_metadata` (directory.rs:289-313): removing an attribute that is not there is an error. -/
def clearMeta (d : Dir) (key mk : Name) : Dir × Res SErr Unit :=
  match d (escape key) with
  | none => (d, .ok ())
  | some f =>
    match f.xattrs (xattrName mk) with
    | none => (d, .err .unspecified)
    | some _ => (d.put (escape key) (f.setAttr (xattrName mk) none), .ok ())

/-- The system calls of `store_data`. -/
inductive FsOp where
  | create (n : Name)
  | append (n : Name) (b : Bytes)
  | rename (a b : Name)

/-- Their effect: creating truncates an existing file and keeps its attributes; renaming replaces the
target with its attributes. -/
def Dir.apply (d : Dir) : FsOp → Dir
  | .create n =>
    match d n with
    | none => d.put n ⟨[], fun _ => none⟩
    | some f => d.put n { f with content := [] }
  | .append n b =>
    match d n with
    | none => d
    | some f => d.put n { f with content := f.content ++ b }
  | .rename a b =>
    match d a with
    | none => d
    | some f => (d.erase a).put b f

/-- The system calls of `store_data` (directory.rs:334-362): the serialized value is written to the
temporary file in pieces, then the file is renamed. -/
def storeOps (key : Name) (pieces : List Bytes) : List FsOp :=
  .create (tmpName (escape key)) :: pieces.map (FsOp.append (tmpName (escape key)))
    ++ [.rename (tmpName (escape key)) (escape key)]

/-- The directory when the process stops after `n` of the system calls. -/
def storeUpTo (d : Dir) (key : Name) (pieces : List Bytes) (n : Nat) : Dir :=
  ((storeOps key pieces).take n).foldl Dir.apply d

/-- `store_data` (directory.rs:334-362). A key whose name is `..` has no file name (`unwrap` panics); for
the empty name and `.` the target is the directory itself and renaming fails. -/
def store (d : Dir) (key : Name) (pieces : List Bytes) : Dir × Res SErr Unit :=
  if escape key = "..".toList then (d, .panic)
  else if escape key = [] ∨ escape key = ".".toList then (d, .err .unspecified)
  else ((storeOps key pieces).foldl Dir.apply d, .ok ())

/-- `destroy_data` (directory.rs:364-371). -/
def destroy (d : Dir) (key : Name) : Dir × Res SErr Unit :=
  match d (escape key) with
  | none => (d, .err .unspecified)
  | some _ => (d.erase (escape key), .ok ())

/-- The loop of `perform_maintenance` (directory.rs:385-423) over the names listed; removes entries with
`now ≥ ttl`, and returns early at a TTL that cannot be read. -/
def maintain (now : Nat) (d : Dir) : List Name → Dir × Res SErr Unit
  | [] => (d, .ok ())
  | n :: r =>
    match d n with
    | none => maintain now d r
    | some f =>
      match f.xattrs (xattrName ttlKey) with
      | none => maintain now d r
      | some b =>
        match ttlFromDisk b with
        | .err e => (d, .err e)
        | .panic => (d, .panic)
        | .ok s => if now < s * second then maintain now d r else maintain now (d.erase n) r

/-- `i64::from_le_bytes`. -/
def leInt (b : Bytes) : Int :=
  if leNat b < 2 ^ 63 then (leNat b : Int) else (leNat b : Int) - 2 ^ 64

/-- The comparison of `neq` (directory.rs:141-146): not equal when fewer positions agree than the
expected value has. -/
def attrDiffers (expected v : Bytes) : Bool :=
  decide (expected.length ≠ ((expected.zip v).filter (fun p => p.1 == p.2)).length)

/-- Does a file pass one of the `neq` filters (directory.rs:136-158)? -/
def passesNeq (f : File) (neqs : List (Name × Bytes)) : Bool :=
  neqs.any fun q =>
    match f.xattrs (xattrName q.1) with
    | some v => attrDiffers q.2 v
    | none => true

/-- Does a file pass one of the `lt` filters (directory.rs:159-179)? `try_into().unwrap()` panics on a
value that is not of eight bytes. -/
def passesLt (f : File) : List (Name × Int) → Res SErr Bool
  | [] => .ok false
  | q :: r =>
    match f.xattrs (xattrName q.1) with
    | none =>
      match passesLt f r with
      | .ok _ => .ok true
      | .err e => .err e
      | .panic => .panic
    | some v =>
      if v.length ≠ 8 then .panic
      else match passesLt f r with
        | .ok b => .ok (decide (leInt v < q.2) || b)
        | .err e => .err e
        | .panic => .panic

/-- `DirectoryStoreFilterType::query` (directory.rs:105-199) over the names listed: files which pass a
`neq` and a `lt` filter, as far as they can be decoded. The order of the result is that of the listing
(the code collects paths in a hash set first). -/
def query {V : Type} (de : Bytes → Option V) (d : Dir) (neqs : List (Name × Bytes)) (lts : List (Name × Int)) :
    List Name → Res SErr (List V)
  | [] => .ok []
  | n :: r =>
    match d n with
    | none => query de d neqs lts r
    | some f =>
      if passesNeq f neqs then
        match passesLt f lts with
        | .err e => .err e
        | .panic => .panic
        | .ok true =>
          match query de d neqs lts r with
          | .ok l =>
            match de f.content with
            | some v => .ok (v :: l)
            | none => .ok l
          | .err e => .err e
          | .panic => .panic
        | .ok false => query de d neqs lts r
      else query de d neqs lts r

/-- Metadata keys of the owner's voucher store (util/src/servers/mod.rs:20-35). -/
def to2Key : Name := "fdo.to2_performed".toList
/-- See `to2Key`. -/
def to0Key : Name := "fdo.to0_accept_owner_wait_seconds".toList

/-- The query of `report_to_rendezvous` with the directory store (owner-onboarding-server/src/main.rs:121-139). -/
def pendingDir {V : Type} (de : Bytes → Option V) (now : Nat) (d : Dir) (ls : List Name) : Res SErr (List V) :=
  query de d [(to2Key, "true".toUTF8.toList)] [(to0Key, ((now / second : Nat) : Int))] ls

/-! ### Database stores -/

/-- Which of the three database stores (store/src/lib.rs:239-244). -/
inductive Kind where
  | manufacturer
  | owner
  | rendezvous
  deriving DecidableEq, Repr

/-- A row of one of the three tables (db/src/models.rs; the owner's table has no `ttl`, the others have
only `ttl`). -/
structure Row where
  guid : Name
  contents : Bytes
  to2 : Option Bool
  to0 : Option Int
  ttl : Option Int
  deriving DecidableEq, Repr

/-- A table. -/
abbrev Table := List Row

/-- `update … filter(guid.eq(guid)) set …`: no row is no error. -/
def Table.update (t : Table) (guid : Name) (g : Row → Row) : Table :=
  t.map fun r => if r.guid = guid then g r else r

/-- `store_data` → `insert_ov` (sqlite.rs:146-158, 372-384, 519-532; db/src/sqlite.rs:33-43): an insert;
the primary key makes a second insert fail. `guid` is the voucher's own GUID for the manufacturer and
owner stores, and the key for the rendezvous store. -/
def dbStore (t : Table) (guid : Name) (contents : Bytes) : Table × Res SErr Unit :=
  if t.any (fun r => r.guid = guid) then (t, .err .database)
  else (t ++ [⟨guid, contents, none, none, none⟩], .ok ())

/-- `load_data` (sqlite.rs:81-92, 221-232, 446-457): `.expect("Error selecting OV")` panics when there is
no row; the expiry is not looked at. -/
def dbLoad {V : Type} (de : Bytes → Option V) (t : Table) (guid : Name) : Res SErr (Option V) :=
  match t.find? (fun r => r.guid = guid) with
  | none => .panic
  | some r =>
    match de r.contents with
    | some v => .ok (some v)
    | none => .err .unspecified

/-- `store_metadata` (sqlite.rs:94-115, 234-280, 459-480). The manufacturer and rendezvous stores write
the TTL whatever key is given; values of the wrong kind panic (`parse().expect`). -/
def dbSetMeta (k : Kind) (now : Nat) (t : Table) (guid mk : Name) (v : MValue) : Table × Res SErr Unit :=
  match k with
  | .owner =>
    if mk = to2Key then
      match v with
      | .flag b => (t.update guid (fun r => { r with to2 := some b }), .ok ())
      | .after _ => (t, .panic)
    else if mk = to0Key then
      match v with
      | .flag _ => (t, .panic)
      | .after d =>
        match MValue.timestamp now d with
        | .ok s => (t.update guid (fun r => { r with to0 := some s }), .ok ())
        | .err e => (t, .err e)
        | .panic => (t, .panic)
    else (t, .err .unspecified)
  | _ =>
    match v with
    | .flag _ => (t, .panic)
    | .after d =>
      match MValue.timestamp now d with
      | .ok s => (t.update guid (fun r => { r with ttl := some s }), .ok ())
      | .err e => (t, .err e)
      | .panic => (t, .panic)

/-- `destroy_metadata` (sqlite.rs:117-134, 282-309, 482-499): the key is ignored; the owner store clears
both of its columns. -/
def dbClearMeta (k : Kind) (t : Table) (guid : Name) : Table :=
  match k with
  | .owner => t.update guid (fun r => { r with to0 := none, to2 := none })
  | _ => t.update guid (fun r => { r with ttl := none })

/-- `destroy_data` (sqlite.rs:160-171, 386-397, 534-545): deleting nothing is no error. -/
def dbDestroy (t : Table) (guid : Name) : Table :=
  t.filter fun r => !(r.guid = guid)

/-- `perform_maintenance` (sqlite.rs:173-183, 399-404, 547-557): `ttl <= now` in whole seconds; a null
column does not match. Nothing for the owner. -/
def dbMaintain (k : Kind) (now : Nat) (t : Table) : Table :=
  match k with
  | .owner => t
  | _ => t.filter fun r =>
    match r.ttl with
    | none => true
    | some s => !(decide (s ≤ ((now / second : Nat) : Int)))

/-- `select_ov_to2_performed_and_ov_to0_less_than` (db/src/sqlite.rs:152-174). -/
def dbSelect (t : Table) (to2 : Bool) (max : Int) : Table :=
  t.filter fun r =>
    (match r.to0 with
      | none => true
      | some s => decide (s < max)) &&
    (match r.to2 with
      | none => true
      | some b => b == to2)

/-- Decoding the selected rows; the first failure is returned (sqlite.rs:332-337). -/
def decodeRows {V : Type} (de : Bytes → Option V) : Table → Res SErr (List V)
  | [] => .ok []
  | r :: rs =>
    match de r.contents with
    | none => .err .unspecified
    | some v =>
      match decodeRows de rs with
      | .ok l => .ok (v :: l)
      | .err e => .err e
      | .panic => .panic

/-- `query_ovs_db` of the owner store (sqlite.rs:315-338). -/
def pendingDb {V : Type} (de : Bytes → Option V) (now : Nat) (t : Table) : Res SErr (List V) :=
  decodeRows de (dbSelect t false ((now / second : Nat) : Int))

/-- `query_ovs_db_to2_performed_to0_less_than` of the owner store (sqlite.rs:340-364): the first
parameter is not used. -/
def dbQueryTo2To0 {V : Type} (de : Bytes → Option V) (t : Table) (_to2 : Bool) (max : Int) : Res SErr (List V) :=
  decodeRows de (dbSelect t false max)

/-! ### Keys in use -/

/-- `Guid::to_string`, the hyphenated lower-case form of a UUID (types.rs:343-347, crate `uuid`). -/
def guidText (g : Bytes) : Name :=
  let h := Types.hexEncode g
  h.take 8 ++ ['-'] ++ (h.drop 8).take 4 ++ ['-'] ++ (h.drop 12).take 4 ++ ['-'] ++ (h.drop 16).take 4 ++ ['-'] ++ h.drop 20

end Verif.Store

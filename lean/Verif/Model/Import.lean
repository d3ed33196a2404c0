import Verif.Model.OwnerTool
import Verif.Model.Store
/-!
The owner tool's commands for fetching vouchers from a manufacturer's server and putting them into the owner's database
(`owner-tool/src/main.rs:638-776`).
-/
namespace Verif.Import
open Verif Verif.Voucher Verif.Fs Verif.OwnerTool

/-- What comes of asking for a connection to the database: `get_conn_pool` (db/src/sqlite.rs:85-91,
db/src/postgres.rs) panics when there is no pool, `pool.get()` may fail. -/
inductive Conn where
  | opened
  | refused
  | noPool
  deriving DecidableEq, Repr

/-- What is asked of the surroundings. `append` writes to a file which is open. -/
inductive Op where
  | cwd
  | isDir (p : Path)
  | list (p : Path)
  | read (p : Path)
  | connect
  | insert (guid : Store.Name) (contents : Bytes)
  | create (p : Path)
  | append (p : Path) (b : Bytes)
  | get (url : List Char)
  | post (url : List Char)

/-- Answers. `list`: the entries of a directory, some of which may be errors. `insert`, `create`, `append`: success. `get`,
`post`: the status and the body of the reply, if it was received. -/
def Op.Ans : Op → Type
  | .cwd => Option Path
  | .isDir _ => Bool
  | .list _ => Option (List (Option Path))
  | .read _ => Option Bytes
  | .connect => Conn
  | .insert _ _ => Bool
  | .create _ => Bool
  | .append _ _ => Bool
  | .get _ => Option (Nat × Bytes)
  | .post _ => Option (Nat × Bytes)

/-- Programs of this kind. -/
abbrev sig : Sig := ⟨Op, Op.Ans⟩

/-- Failures: of the host (files, network, database) or of the library. -/
inductive Fail where
  | path
  | host
  | database
  | voucher (e : Verif.Err)
  deriving DecidableEq

/-- Why an entry was not imported, as told in the report. -/
inductive Reason where
  | entry
  | read
  | parse (e : Verif.Err)
  | connect
  | insert
  deriving DecidableEq

variable (T : Tool) (c : Bool)

/-- `insert_ov(&ov, None, None, conn)` (db/src/sqlite.rs:93-109; the same in db/src/postgres.rs): whether there was no error. -/
def insertOv (v : Voucher T.E) : Proc sig Fail Bool :=
  match Voucher.serialize v with
  | .ok b => do
    let a ← Proc.ask (S := sig) (.insert (Store.guidText v.header.guid) b)
    pure (a : Bool)
  | .err _ => pure false
  | .panic => Prog.ret .panic

/-- A voucher is put into the database (main.rs:704-735): what the report says about it, if anything. -/
def putOne (v : Voucher T.E) : Proc sig Fail (Option Reason) := do
  let a ← Proc.ask (S := sig) .connect
  match (a : Conn) with
  | .noPool => Prog.ret .panic
  | .refused => pure (some .connect)
  | .opened => do
    let ok ← insertOv T v
    pure (if ok then none else some .insert)

/-- What was read from a file, if anything, is looked at (main.rs:690-744). -/
def importRead : Option Bytes → Proc sig Fail (Option Reason)
  | none => pure (some .read)
  | some b =>
    match fromPemOrRaw T c b with
    | .ok v => putOne T v
    | .err e => pure (some (.parse e))
    | .panic => Prog.ret .panic

/-- The body of the loop (main.rs:682-744) for an entry that is no error. -/
def importOne (p : Path) : Proc sig Fail (Option Reason) := do
  let a ← Proc.ask (S := sig) (.read p)
  importRead T c (a : Option Bytes)

/-- A report: entries which were not imported (an entry without a path is one which could not be read). -/
abbrev Report := List (Option Path × Reason)

/-- What the report says about an entry. -/
def report (e : Option Path) : Option Reason → Report
  | none => []
  | some r => [(e, r)]

/-- The loop of `import_ownership_vouchers` (main.rs:681-744). -/
def importEach : List (Option Path) → Proc sig Fail Report
  | [] => pure []
  | none :: l => do
    let r ← importEach l
    pure (report none (some .entry) ++ r)
  | some p :: l => do
    let o ← importOne T c p
    let r ← importEach l
    pure (report (some p) o ++ r)

/-- Importing a directory (main.rs:677-756). -/
def importDir (source : Path) : Proc sig Fail Report := do
  let a ← Proc.ask (S := sig) (.list source)
  let l ← Proc.some? .host (a : Option (List (Option Path)))
  importEach T c l

/-- Importing a single file (main.rs:757-774). -/
def importFile (source : Path) : Proc sig Fail Report := do
  let a ← Proc.ask (S := sig) (.read source)
  let b ← Proc.some? .host (a : Option Bytes)
  match fromPemOrRaw T c b with
  | .ok v => do
    let o ← putOne T v
    Proc.check .database (o == none)
    pure []
  | .err e => Proc.fail (.voucher e)
  | .panic => Prog.ret .panic

/-- `import_ownership_vouchers` (main.rs:674-776). The result `ok` (exit status 0) carries what is printed: the report. -/
def importVouchers (source : Path) : Proc sig Fail Report := do
  let d : Bool ← Proc.ask (S := sig) (.isDir source)
  if d then importDir T c source else importFile T c source

/-- `Path::join`: an absolute name replaces the directory. (A directory ending with a slash gets a second one here.) -/
def join (dir name : Path) : Path :=
  if name.head? = some '/' then name else dir ++ '/' :: name

/-- The request for the voucher(s) to be written to `target` (main.rs:644-671): the file is made first, then the request is
sent, and what comes back is written. `decode` is what `Response::text` (or `bytes`) makes of the body. -/
def fetch (decode : Bytes → Bytes) (request : Op) (reply : request.Ans = Option (Nat × Bytes)) (target : Path) :
    Proc sig Fail Unit := do
  let c ← Proc.ask (S := sig) (.create target)
  Proc.check .host (c : Bool)
  let a ← Proc.ask (S := sig) request
  let r ← Proc.some? .host (cast reply a)
  let ok ← Proc.ask (S := sig) (.append target (decode r.2))
  Proc.check .host (ok : Bool)

/-- `export_manufacturer_vouchers` (main.rs:638-672). `text` is what `Response::text` makes of a body. `current_dir` is asked
for even if a directory is given. The copy of an archive is modelled as one write. -/
def exportVouchers (text : Bytes → Bytes) (url : List Char) (guid : Option (List Char)) (dir : Option Path) :
    Proc sig Fail Unit := do
  let a ← Proc.ask (S := sig) .cwd
  let cwd ← Proc.some? .host (a : Option Path)
  let dir := dir.getD cwd
  let d ← Proc.ask (S := sig) (.isDir dir)
  Proc.check .path (d : Bool)
  match guid with
  | some g => fetch text (.get (url ++ "/ov/".toList ++ g)) rfl (join dir g)
  | none => fetch id (.post (url ++ "/export".toList)) rfl (join dir "export.tar".toList)

end Verif.Import

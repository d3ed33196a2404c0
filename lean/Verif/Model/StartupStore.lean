import Verif.Model.StartupSi
/-!
The stores of the servers, from their settings: `StoreConfig` and `StoreConfig::initialize` (store/src/lib.rs:247-287),
`directory::initialize` (store/src/directory.rs:19-51), `sqlite::initialize` (store/src/sqlite.rs:16-43), `pg::initialize`
(store/src/pg.rs:16-43), and which of the queries for vouchers a store can answer.
-/
namespace Verif.Startup
open Verif Verif.Settings

/-- `ServerType` (lib.rs:248-252). -/
inductive ServerType where
  | manufacturer
  | owner
  | rendezvous
  deriving DecidableEq

/-- The two databases. -/
inductive DbKind where
  | sqlite
  | postgres
  deriving DecidableEq

/-- `StoreConfig` (lib.rs:254-262), with both features. -/
inductive Driver where
  | directory (path : List Char)
  | db (kind : DbKind) (server : ServerType) (url : List Char)
  deriving DecidableEq

/-- The names of the variants of `StoreConfig` (lib.rs:255-262). -/
def driverNames : List String := ["Directory", "Sqlite", "Postgres"]

/-- The names of the variants of `ServerType` (lib.rs:248-252). -/
def serverTypes : List (String × ServerType) := [("Manufacturer", .manufacturer), ("Owner", .owner), ("Rendezvous", .rendezvous)]

section
variable (S : Reads)

/-- The field of `Directory` (lib.rs:257). -/
def directoryOf (v : Val) : Res Fail Driver := do
  let p ← required (textOf S) v "path"
  pure (.directory p)

/-- The fields of `Sqlite` and `Postgres` (lib.rs:259, 261). -/
def dbOf (kind : DbKind) (v : Val) : Res Fail Driver := do
  let t ← required (oneOf S serverTypes) v "server"
  let u ← required (textOf S) v "url"
  pure (.db kind t u)

/-- Reading `StoreConfig` by `serde_yaml::with::singleton_map` (e.g. rendezvous_server.rs:9-14): a map of one entry. -/
def driverOf : Val → Res Fail Driver
  | .leaf _ => .err .type
  | .table [(k, w)] =>
    match S.variant driverNames (.leaf k) with
    | some n =>
      if n = "Directory" then structOf (directoryOf S) w
      else if n = "Sqlite" then structOf (dbOf S .sqlite) w
      else if n = "Postgres" then structOf (dbOf S .postgres) w
      else .err .type
    | none => .err .type
  | .table _ => .err .type

end

/-- `create_dir_all` (directory.rs:33), `canonicalize` (directory.rs:39), and whether a pool of connections can be made
(`get_conn_pool`, db/src/sqlite.rs:25-31 and so on). -/
structure StoreWorld where
  createDirs : List Char → Bool
  canonical : List Char → Option (List Char)
  pool : DbKind → List Char → Bool

/-- A store: the directory or the database it works on. For databases, `server` says which tables it uses
(sqlite.rs:26-42, pg.rs:26-42). -/
inductive Opened where
  | directory (path : List Char)
  | db (kind : DbKind) (server : ServerType) (url : List Char)
  deriving DecidableEq

section
variable (W : StoreWorld)

/-- `StoreConfig::initialize` (lib.rs:269-287). Without a pool of connections it panics. On Unix, a path is absolute if it begins with a
slash. -/
def openStore : Driver → Res Fail Opened
  | .directory p =>
    if p.head? = some '/' then
      if W.createDirs p then
        match W.canonical p with
        | some q => .ok (.directory q)
        | none => .err .rest
      else .err .rest
    else .err .rest
  | .db kind t u => if W.pool kind u then .ok (.db kind t u) else .panic

/-- Several drivers are read. -/
def drivers (S : Reads) (v : Val) : List String → Res Fail (List Driver)
  | [] => .ok []
  | n :: l => do
    let d ← required (driverOf S) v n
    let r ← drivers S v l
    pure (d :: r)

/-- Several stores are initialised. -/
def initializeAll : List Driver → Res Fail (List Opened)
  | [] => .ok []
  | d :: l => do
    let s ← openStore W d
    let r ← initializeAll l
    pure (s :: r)

/-- The stores of a server: the settings are read as a whole, and then the stores are initialised. -/
def stores (S : Reads) (names : List String) (v : Val) : Res Fail (List Opened) := do
  let l ← drivers S v names
  initializeAll W l

end

/-- The stores of the rendezvous server, in the order in which they are initialised (rendezvous-server/src/main.rs:80-88). -/
def rendezvousStores : List String := ["storage_driver", "session_store_driver"]

/-- Those of the owner server (owner-onboarding-server/src/main.rs:477-484). -/
def ownerStores : List String := ["ownership_voucher_store_driver", "session_store_driver"]

/-- Those of the manufacturing server (manufacturing-server/src/main.rs:187-195), but for the one for public keys. -/
def manufacturingStores : List String := ["session_store_driver", "ownership_voucher_store_driver"]

/-- Whether `query_data` is available (directory.rs:314-320; sqlite.rs:134-139, 312-314, 491-496, and likewise in pg.rs). -/
def Opened.filters : Opened → Bool
  | .directory _ => true
  | .db .. => false

/-- Whether `query_ovs_db` is available (directory.rs:322-324; sqlite.rs:141-143, 316-338, 498-500, and likewise in pg.rs). -/
def Opened.lists : Opened → Bool
  | .directory _ => false
  | .db _ t _ => t = .owner

/-- Whether `report_to_rendezvous` gets any vouchers out of the store at all (owner-onboarding-server/src/main.rs:119-159): if neither of
the queries is available it ends with the error "Unreachable". -/
def Opened.reports (s : Opened) : Bool := s.filters || s.lists

end Verif.Startup

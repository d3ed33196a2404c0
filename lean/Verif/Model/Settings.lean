import Verif.Basic
/-!
Where servers find their settings (`util/src/servers/mod.rs:37-62, 107-121`), with the merging of sources by the `config` crate
(version 0.13.4). Not modelled: parsing of files, reading the merged settings into the server's types (serde).
-/
namespace Verif.Settings
open Verif

/-- `config::Value`: tables, and everything else (numbers, texts, arrays), which is replaced as a whole. -/
inductive Val where
  | leaf (s : String)
  | table (l : List (String × Val))

/-- Entry of a map. -/
def field : List (String × Val) → String → Option Val
  | [], _ => none
  | (k, v) :: r, i => if k = i then some v else field r i

/-- Insertion into a map; the order of entries does not matter. -/
def put : List (String × Val) → String → Val → List (String × Val)
  | [], i, x => [(i, x)]
  | (k, v) :: r, i, x => if k = i then (k, x) :: r else (k, v) :: put r i x

/-- `path::Expression::set` makes a table of what is none. -/
def Val.fields : Val → List (String × Val)
  | .leaf _ => []
  | .table l => l

mutual
/-- `path::Expression::set` of the `config` crate, for an identifier: tables are merged, other values are replaced.
(Keys that are path expressions themselves, such as `a.b`, are not modelled: no setting has such a name.) -/
def setV (root : Val) (id : String) : Val → Val
  | .leaf s => .table (put root.fields id (.leaf s))
  | .table l => .table (put root.fields id (setAll ((field root.fields id).getD (.table [])) l))

/-- The entries of a map one after another (`Source::collect_to`). -/
def setAll (t : Val) : List (String × Val) → Val
  | [] => t
  | (k, v) :: r => setAll (setV t k v) r
end

/-- What is found at a path: nothing that can be read (there is no such file, it cannot be opened, or its name does not tell
a known format), something that cannot be parsed, or settings. -/
inductive File where
  | missing
  | malformed
  | holds (l : List (String × Val))

/-- The surroundings of a server: environment variables (`none` also if not Unicode), files, and the `glob` crate. `none` is a
bad pattern, an element `none` a path that cannot be read. -/
structure Sys where
  env : String → Option String
  file : String → File
  glob : String → Option (List (Option String))

inductive Fail where
  | pattern
  | notFound
  | parse
  deriving DecidableEq

/-- `File::collect`: files that are not required may be missing. -/
def collect (y : Sys) (required : Bool) (p : String) : Res Fail (List (String × Val)) :=
  match y.file p with
  | .missing => if required then .err .notFound else .ok []
  | .malformed => .err .parse
  | .holds l => .ok l

/-- `collect_to` for one file after another. -/
def collectAll (y : Sys) (required : Bool) (cache : Val) : List String → Res Fail Val
  | [] => .ok cache
  | p :: r =>
    match collect y required p with
    | .ok l => collectAll y required (setAll cache l) r
    | .err e => .err e
    | .panic => .panic

/-- `component_env_prefix` (mod.rs:115-117); names of components are ASCII. -/
def prefix_ (component : String) : String := String.ofList (component.toList.map fun c => (if c = '-' then '_' else c).toUpper)

/-- `format_conf_env`, `format_conf_dir_env` (mod.rs:107-113). -/
def confEnv (component : String) : String := prefix_ component ++ "_CONF"
def confDirEnv (component : String) : String := prefix_ component ++ "_CONF_DIR"

/-- The pattern and the paths that are looked at (mod.rs:41-58). -/
def pattern (y : Sys) (component : String) : String :=
  (y.env (confDirEnv component)).getD ("/etc/fdo/" ++ component ++ ".conf.d/*.yml")
def etcPath (y : Sys) (component : String) : String := (y.env (confEnv component)).getD ("/etc/fdo/" ++ component ++ ".yml")
def sharePath (component : String) : String := "/usr/share/fdo/" ++ component ++ ".yml"

/-- `settings_for` (mod.rs:37-62): the files of the directory are collected into a map of their own first. A path that cannot be
read is unwrapped. -/
def settingsFor (y : Sys) (component : String) : Res Fail Val :=
  match y.glob (pattern y component) with
  | none => .err .pattern
  | some ps =>
    match ps.mapM id with
    | none => .panic
    | some ps => do
      let dir ← collectAll y true (.table []) ps
      collectAll y false (setAll (.table []) dir.fields) [etcPath y component, sharePath component]

end Verif.Settings

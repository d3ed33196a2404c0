import Verif.Model.Settings
/-!
Specification for C82: what a configuration file says about a setting.
-/
namespace Verif.Settings
open Verif

/-- The setting at a path of keys. -/
def Val.at : Val → List String → Option String
  | .leaf s, [] => some s
  | .leaf _, _ :: _ => none
  | .table _, [] => none
  | .table l, k :: p =>
    match field l k with
    | some v => v.at p
    | none => none

/-- What is said about a setting: nothing; a value; or something that excludes it (there is a value where the path only begins,
or there are settings where the path ends). -/
inductive Says where
  | silent
  | gives (s : String)
  | excludes
  deriving DecidableEq

def Val.says : Val → List String → Says
  | .leaf s, [] => .gives s
  | .leaf _, _ :: _ => .excludes
  | .table [], [] => .silent
  | .table (_ :: _), [] => .excludes
  | .table l, k :: p =>
    match field l k with
    | some v => v.says p
    | none => .silent

/-- The last of the files that is not silent. -/
def lastWord (p : List String) : List Val → Says
  | [] => .silent
  | f :: r =>
    match lastWord p r with
    | .silent => f.says p
    | x => x

mutual
/-- In all maps, each key is there once. -/
def Val.Wf : Val → Prop
  | .leaf _ => True
  | .table l => (l.map (·.1)).Nodup ∧ WfAll l
def WfAll : List (String × Val) → Prop
  | [] => True
  | (_, v) :: r => v.Wf ∧ WfAll r
end

end Verif.Settings

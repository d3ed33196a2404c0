import Verif.Model.Import
/-!
Files and the owner's database as the owner tool finds them, and what the requests of the tool do to them. Every request may
fail at any time. Nobody else changes the files or the database meanwhile. Nothing is assumed about what is listed in a
directory, nor about replies from the network.
-/
namespace Verif.Import
open Verif Verif.Fs Verif.Voucher

/-- Files and the table of the owner's vouchers. -/
structure World where
  files : Path → Option Bytes
  table : Store.Table

/-- A row for a voucher for which nothing was done yet. -/
def fresh (guid : Store.Name) (contents : Bytes) : Store.Row := ⟨guid, contents, none, none, none⟩

/-- What a request with its answer does. The GUID is the primary key of the table (db/migrations). Creating a file empties
it. A failing write may have written a part. -/
def Step (w : World) : sig.Deed → World → Prop
  | ⟨.read p, a⟩, w' => w' = w ∧ ∀ b, a = some b → w.files p = some b
  | ⟨.insert g b, a⟩, w' =>
    (a = true ∧ (∀ r ∈ w.table, r.guid ≠ g) ∧ w' = { w with table := w.table ++ [fresh g b] }) ∨ (a = false ∧ w' = w)
  | ⟨.create p, a⟩, w' =>
    (a = true ∧ w' = { w with files := fun q => if q = p then some [] else w.files q }) ∨ (a = false ∧ w' = w)
  | ⟨.append p b, a⟩, w' => ∃ old part, w.files p = some old ∧ part <+: b ∧ (a = true → part = b) ∧
    w' = { w with files := fun q => if q = p then some (old ++ part) else w.files q }
  | ⟨.cwd, _⟩, w' => w' = w
  | ⟨.isDir _, _⟩, w' => w' = w
  | ⟨.list _, _⟩, w' => w' = w
  | ⟨.connect, _⟩, w' => w' = w
  | ⟨.get _, _⟩, w' => w' = w
  | ⟨.post _, _⟩, w' => w' = w

/-- The file holds this voucher, and this is its raw form. -/
def Holds (T : OwnerTool.Tool) (c : Bool) (files : Path → Option Bytes) (p : Path) (v : Voucher T.E) (raw : Bytes) : Prop :=
  ∃ b, files p = some b ∧ OwnerTool.fromPemOrRaw T c b = .ok v ∧ Voucher.serialize v = .ok raw

/-- Surroundings in which nothing fails that need not fail: files are there or not, the directory lists `entries`, the
database is up and refuses only what is there already; replies are `reply`. -/
def willing (entries : List (Option Path)) (reply : Nat × Bytes) (w : World) : (e : Op) → World × e.Ans
  | .cwd => (w, some [])
  | .isDir _ => (w, true)
  | .list _ => (w, some entries)
  | .read p => (w, w.files p)
  | .connect => (w, Conn.opened)
  | .insert g b =>
    if w.table.any (fun r => r.guid = g) then (w, false) else ({ w with table := w.table ++ [fresh g b] }, true)
  | .create p => ({ w with files := fun q => if q = p then some [] else w.files q }, true)
  | .append p b => ({ w with files := fun q => if q = p then some ((w.files p).getD [] ++ b) else w.files q }, true)
  | .get _ => (w, some reply)
  | .post _ => (w, some reply)

end Verif.Import

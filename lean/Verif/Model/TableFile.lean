import Verif.Model.TableInit

/-!
# Writing a table to a file and reading it

Model of the mapper of `DynamicTable` (common/io/table.py:17-21) with `Data.__bool__` (container.py:962-968), of the order of the columns in a
file, and of the constructor called with what is in the file.

Simplifications.
* The columns that are read are the columns that were written, as objects with the same identity.
* All columns are specified by the specification of columns of any name: no predefined columns.
* A file lists the names of the members of a group in the order of their characters (h5py without `track_order`).
-/

namespace Verif.TableFile
open Verif TableInit

/-- the identity of a column (container.py:962) -/
def ident : Obj → Nat
  | .data i _ _ => i
  | .index i _ _ _ => i
  | .enum i _ _ _ => i

/-- `bool(col)`: lists, tuples and arrays have elements; data in a file and iterators are true (container.py:962-968). `stored`: the columns whose data
are in a file -/
def truthy (stored : List Nat) (c : Obj) : Bool := decide (ident c ∈ stored) || decide (c.len ≠ some 0)

/-- `attr_columns` (common/io/table.py:17-21) -/
def colnamesAttr (stored : List Nat) (t : Table) : List String := if t.columns.all fun c => !truthy stored c then [] else t.colnames

/-- put a column before those with larger names (backends/hdf5/h5tools.py:620-622) -/
def insertCol (c : Obj) : List Obj → List Obj
  | [] => [c]
  | d :: ds => if c.name ≤ d.name then c :: d :: ds else d :: insertCol c ds

/-- the datasets of the group in the order in which they are read (backends/hdf5/h5tools.py:620-622) -/
def fileOrder : List Obj → List Obj
  | [] => []
  | c :: cs => insertCol c (fileOrder cs)

/-- the group of a table: the ids, the attribute `colnames`, the datasets (common/io/table.py:17-21) -/
structure File where
  ids : List Int
  colnames : List String
  columns : List Obj

/-- build and write a table (common/io/table.py:11-21) -/
def write (stored : List Nat) (t : Table) : File := ⟨t.ids, colnamesAttr stored t, fileOrder t.columns⟩

/-- read the table: without a dataset there is no argument `columns` (build/objectmapper.py:1325-1353; common/table.py:321-499) -/
def read (r : List String) (f : File) : Except Err Table :=
  init r (some f.ids) (match f.columns with | [] => none | c :: cs => some (c :: cs)) f.colnames

end Verif.TableFile

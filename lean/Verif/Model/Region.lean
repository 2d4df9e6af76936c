import Verif.Model.Table

/-!
# Model of `DynamicTableRegion` (common/table.py:1348-1541), of row selections of `DynamicTable` (1037-1088) and of
`DynamicTable.create_region` (943-964)

The region's data is a list; the selected rows are kept column-wise (an id list and a list per column), which is what the
pandas frame of the `df=True` result is built from.  Not modelled: table region columns inside the target table, boolean
masks, `exclude`.
-/

namespace Verif.Region
open Verif Verif.Ragged Verif.Table

/-- The rows selected from a table: ids, and for each column its name and values. (common/table.py:1037-1135) -/
structure Frame where
  ids : List Int
  cols : List (String × List Value)
  deriving DecidableEq, Repr

/-- `col.get(arg)` for a list of row numbers: container.py:955-957 for a plain column; for a `VectorIndex` common/table.py:197,
where `arg[0]` of an empty list raises IndexError. -/
def colSel (c : Column) (is : List Int) : Except Err (List Value) :=
  if c.depth ≠ 0 ∧ is = [] then .error .indexError else collect c.get is

/-- the loop over the columns, common/table.py:1054-1063 -/
def colsSel (is : List Int) : List Column → Except Err (List (String × List Value))
  | [] => .ok []
  | c :: cs => match colSel c is with
    | .error e => .error e
    | .ok v => match colsSel is cs with
      | .error e => .error e
      | .ok vs => .ok ((c.name, v) :: vs)

/-- `table.get([i, ...])`, common/table.py:1022-1033, 1037-1064 -/
def selRows (s : State) (is : List Int) : Except Err Frame :=
  match collect (pyGet s.ids) is with
  | .error e => .error e
  | .ok ids => match colsSel is s.cols with
    | .error e => .error e
    | .ok cols => .ok ⟨ids, cols⟩

/-- insertion into a sorted list without repetition (common/table.py:1403-1469) -/
def insertU (x : Int) : List Int → List Int
  | [] => [x]
  | y :: ys => if x < y then x :: y :: ys else if x = y then y :: ys else y :: insertU x ys

/-- `np.unique`: the values sorted, without repetition (common/table.py:1403-1469) -/
def uniq : List Int → List Int
  | [] => []
  | x :: xs => insertU x (uniq xs)

/-- `values.iloc[pos]` on every column (common/table.py:1403-1469, 1471-1491) -/
def iloc (f : Frame) (pos : List Int) : Except Err Frame :=
  match collect (pyGet f.ids) pos with
  | .error e => .error e
  | .ok ids =>
    let rec go : List (String × List Value) → Except Err (List (String × List Value))
      | [] => .ok []
      | c :: cs => match collect (pyGet c.2) pos with
        | .error e => .error e
        | .ok v => match go cs with
          | .error e => .error e
          | .ok vs => .ok ((c.1, v) :: vs)
    match go f.cols with
    | .error e => .error e
    | .ok cols => .ok ⟨ids, cols⟩

/-- What `DynamicTableRegion.get` accepts beside a single integer. (common/table.py:1403-1469) -/
inductive Sel
  | ints (l : List Int)
  | slice (s : PySlice)

/-- positions of the region selected (common/table.py:1403-1469) -/
def Sel.positions (n : Nat) : Sel → Except Err (List Int)
  | .ints l => .ok l
  | .slice s => s.range n

/-- common/table.py:1440-1466 `DynamicTableRegion.get(arg)` for a list or slice, `df=True, index=False`: the region's values, their
distinct sorted values, the rows of these from the table, and these reordered through the lookup table. -/
def getMany (s : State) (region : List Int) (arg : Sel) : Except Err Frame :=
  match arg.positions region.length with
  | .error e => .error e
  | .ok is => match collect (pyGet region) is with
    | .error e => .error e
    | .ok ret =>
      let u := uniq ret
      match selRows s u with
      | .error e => .error e
      | .ok values => iloc values (ret.map fun v => (u.idxOf v : Int))

/-- common/table.py:1433-1436 `DynamicTableRegion.get(arg, index=True)` for an integer -/
def entry (region : List Int) (arg : Int) : Except Err Int :=
  if arg ≥ region.length then .error .indexError else pyGet region arg

/-- common/table.py:1433-1439 `DynamicTableRegion.get(arg)` for an integer: the row of the table -/
def getOne (s : State) (region : List Int) (arg : Int) : Except Err (Int × List (String × Value)) :=
  match entry region arg with
  | .error e => .error e
  | .ok k => s.row k

/-- argument of `create_region` (common/table.py:943-964) -/
inductive RegionArg
  | slice (s : PySlice)
  | ints (l : List Int)

/-- common/table.py:943-964 `create_region`: the data of the region created -/
def createRegion (s : State) : RegionArg → Except Err (List Int)
  | .slice r =>
    if r.start.any (fun a => decide (a < 0)) || r.stop.any (fun b : Int => decide (b > s.len)) then .error .indexError
    else r.range s.len
  | .ints l => if l.any (fun i => decide (i < 0) || decide (i ≥ s.len)) then .error .indexError else .ok l

end Verif.Region

import Verif.Base.Slice

/-!
# Tables whose columns refer to rows of other tables

Model of selecting rows of a `DynamicTable` (common/table.py:972-1135, 1216-1227) whose columns may be
`DynamicTableRegion`s (1403-1501), plain or ragged, into other tables, which may again have such columns.  With
`index=False` the regions are expanded into data frames inside data frames.

Tables are numbered and kept in an environment.  The recursion from table to table is bounded by a fuel argument;
running out of it is Python's `RecursionError` (`runtimeError`).  All data are lists, values are integers, ragged columns
have one level.  Not modelled: `exclude`, boolean masks, columns stored as arrays or h5py datasets.
-/

namespace Verif.Nested
open Verif

/-- What a cell of a data frame holds: a value, the list of values of a ragged column, or a data frame (its ids, and for
each column its name and cells). (common/table.py:1090-1135) -/
inductive Cell where
  | val (v : Int)
  | vals (vs : List Int)
  | frame (ids : List Int) (cols : List (String × List Cell))

/-- A data frame: the ids (its index) and the columns. (common/table.py:1106, 1133) -/
structure Frame where
  ids : List Int
  cols : List (String × List Cell)

/-- a frame as a cell of another frame (common/table.py:1101-1103, 1127-1130) -/
def Frame.cell (f : Frame) : Cell := .frame f.ids f.cols

/-- A column: values; a `VectorIndex` on values; a `DynamicTableRegion` into a table; a `VectorIndex` on such a region.
(common/table.py:32-206, 1348-1469) -/
inductive Col where
  | plain (data : List Int)
  | ragged (idx : List Nat) (data : List Int)
  | region (data : List Int) (table : Nat)
  | raggedRegion (idx : List Nat) (data : List Int) (table : Nat)
  deriving DecidableEq

/-- the number of rows of a column: `len(col)` (common/table.py:56-90, 1502-1510) -/
def Col.len : Col → Nat
  | .plain d => d.length
  | .ragged i _ => i.length
  | .region d _ => d.length
  | .raggedRegion i _ _ => i.length

/-- A table: ids and named columns. (common/table.py:325-420) -/
structure Tbl where
  ids : List Int
  cols : List (String × Col)
  deriving DecidableEq

/-- The tables the regions point into. (common/table.py:1376-1400) -/
abbrev Env := Nat → Tbl

/-- A row selection: an integer, a list (or array) of integers, a slice. (common/table.py:986-993) -/
inductive Sel where
  | int (i : Int)
  | list (is : List Int)
  | slice (s : PySlice)
  deriving DecidableEq

/-- Run a computation for each element of a list. (the comprehensions of container.py:978 and common/table.py:203-205) -/
def mapE {α β : Type} (f : α → Except Err β) : List α → Except Err (List β)
  | [] => .ok []
  | a :: l => match f a with
    | .error e => .error e
    | .ok b => match mapE f l with
      | .error e => .error e
      | .ok bs => .ok (b :: bs)

/-- What `get` of a column returns: a scalar, a list, a list of lists, a frame, or a list of frames.
(common/table.py:1054-1063) -/
inductive Got where
  | scalar (v : Int)
  | list (vs : List Int)
  | lists (ls : List (List Int))
  | frame (f : Frame)
  | frames (fs : List Frame)

/-- `data[arg]`, or `[data[i] for i in arg]` for a list (container.py:976-982) -/
def dataGet (data : List Int) : Sel → Except Err Got
  | .int i => (pyGet data i).map .scalar
  | .list is => (mapE (pyGet data) is).map .list
  | .slice s => match s.range data.length with
    | .error e => .error e
    | .ok is => (mapE (pyGet data) is).map .list

/-- `VectorIndex.__getitem_helper`: the slice of the target that row `i` stands for (common/table.py:163-174) -/
def startEnd (idx : List Nat) (i : Int) : Except Err PySlice :=
  match (if i = 0 then .ok 0 else pyGet idx (i - 1) : Except Err Nat) with
  | .error e => .error e
  | .ok a => match pyGet idx i with
    | .error e => .error e
    | .ok b => .ok ⟨some a, some b, none⟩

/-- the rows a `VectorIndex` goes through (common/table.py:193-202): `arg[0]` of an empty list raises IndexError -/
def indexRows (idx : List Nat) : Sel → Except Err (List Int)
  | .int i => .ok [i]
  | .list is => if is = [] then .error .indexError else .ok is
  | .slice s => s.range idx.length

/-- the elements `data[s]` for a slice (container.py:982, common/table.py:174) -/
def sliceOf (data : List Int) (s : PySlice) : Except Err (List Int) :=
  match s.range data.length with
  | .error e => .error e
  | .ok is => mapE (pyGet data) is

/-- one row of a ragged column of values (common/table.py:163-174) -/
def raggedRow (idx : List Nat) (data : List Int) (i : Int) : Except Err (List Int) :=
  match startEnd idx i with
  | .error e => .error e
  | .ok s => sliceOf data s

/-- insertion into a sorted list without repetition (common/table.py:1458) -/
def insertU (x : Int) : List Int → List Int
  | [] => [x]
  | y :: ys => if x < y then x :: y :: ys else if x = y then y :: ys else y :: insertU x ys

/-- `np.unique`: the values sorted, without repetition (common/table.py:1458) -/
def uniq : List Int → List Int
  | [] => []
  | x :: xs => insertU x (uniq xs)

/-- the columns of `values.iloc[pos]` (common/table.py:1462) -/
def ilocCols (pos : List Nat) : List (String × List Cell) → Except Err (List (String × List Cell)) :=
  mapE fun c => match mapE (fun p : Nat => pyGet c.2 p) pos with
    | .error e => .error e
    | .ok v => .ok (c.1, v)

/-- `values.iloc[pos]` (common/table.py:1462) -/
def iloc (f : Frame) (pos : List Nat) : Except Err Frame :=
  match mapE (fun p : Nat => pyGet f.ids p) pos with
  | .error e => .error e
  | .ok ids => match ilocCols pos f.cols with
    | .error e => .error e
    | .ok cols => .ok ⟨ids, cols⟩

/-- dereferencing the rows `ret` of the table of a region (common/table.py:1458-1462): the distinct ones are got from the
table and then put into the order asked for -/
def deref (get : Sel → Except Err Frame) (ret : List Int) : Except Err Frame :=
  match get (.list (uniq ret)) with
  | .error e => .error e
  | .ok values => iloc values (ret.map fun v => (uniq ret).idxOf v)

/-- `DynamicTableRegion.get(arg, index=False, df=True)` (common/table.py:1433-1466); `get` is `self.table.get`. -/
def regionGet (get : Sel → Except Err Frame) (data : List Int) : Sel → Except Err Frame
  | .int i =>
    if i ≥ data.length then .error .indexError
    else match pyGet data i with
      | .error e => .error e
      | .ok r => get (.int r)
  | .list is => match mapE (pyGet data) is with
    | .error e => .error e
    | .ok ret => deref get ret
  | .slice s => match sliceOf data s with
    | .error e => .error e
    | .ok ret => deref get ret

/-- one row of a ragged region: the region is asked for a slice (common/table.py:163-174) -/
def raggedRegionRow (get : Sel → Except Err Frame) (idx : List Nat) (data : List Int) (i : Int) : Except Err Frame :=
  match startEnd idx i with
  | .error e => .error e
  | .ok s => regionGet get data (.slice s)

/-- `VectorIndex.get` (common/table.py:185-206), `row` being `__getitem_helper`: one result for an integer, otherwise a
list of results. -/
def indexGet {α : Type} (row : Int → Except Err α) (one : α → Got) (many : List α → Got) (idx : List Nat) (arg : Sel) :
    Except Err Got :=
  match arg with
  | .int i => (row i).map one
  | arg => match indexRows idx arg with
    | .error e => .error e
    | .ok is => (mapE row is).map many

/-- `col.get(arg, df=True, index=False)` (common/table.py:1063); `get` is the `get` of the tables. -/
def colGet (get : Nat → Sel → Except Err Frame) (arg : Sel) : Col → Except Err Got
  | .plain d => dataGet d arg
  | .ragged idx d => indexGet (raggedRow idx d) .list .lists idx arg
  | .region d t => (regionGet (get t) d arg).map .frame
  | .raggedRegion idx d t => indexGet (raggedRegionRow (get t) idx d) .frame .frames idx arg

/-- splitting a frame into frames of one row: `[df.iloc[[i]] for i in range(len(df))]` (common/table.py:1127-1130) -/
def split (f : Frame) : Except Err (List Cell) :=
  (mapE (fun p => iloc f [p]) (List.range f.ids.length)).map fun fs => fs.map Frame.cell

/-- `__get_selection_as_df_single_row`: one cell for the row (common/table.py:1098-1105).  A list of lists does not occur
there (`unsupported`). -/
def single : Got → Except Err (List Cell)
  | .scalar v => .ok [.val v]
  | .list vs => .ok [.vals vs]
  | .frame f => .ok [f.cell]
  | .lists _ => .error .unsupported
  | .frames _ => .error .unsupported

/-- `__get_selection_as_df`: one cell for each row (common/table.py:1121-1132).  A scalar does not occur there
(`unsupported`). -/
def multi : Got → Except Err (List Cell)
  | .scalar _ => .error .unsupported
  | .list vs => .ok (vs.map .val)
  | .lists ls => .ok (ls.map .vals)
  | .frame f => split f
  | .frames fs => .ok (fs.map Frame.cell)

/-- `self.id[arg]` as the index of the frame (common/table.py:1050, 1095-1096, 1119) -/
def idsGet (ids : List Int) : Sel → Except Err (List Int)
  | .int i => (pyGet ids i).map fun v => [v]
  | .list is => mapE (pyGet ids) is
  | .slice s => sliceOf ids s

/-- how the columns are formatted: `__get_selection_as_df_single_row` for an integer, `__get_selection_as_df` otherwise
(common/table.py:1026-1031) -/
def format : Sel → Got → Except Err (List Cell)
  | .int _ => single
  | .list _ => multi
  | .slice _ => multi

/-- `pd.DataFrame(columns, index=ids)`: the columns must be as long as the index (common/table.py:1106, 1133; pandas) -/
def mkFrame (ids : List Int) (cols : List (String × List Cell)) : Except Err Frame :=
  if cols.all (fun c => c.2.length = ids.length) then .ok ⟨ids, cols⟩ else .error .valueError

/-- one column of the selection, formatted (common/table.py:1054-1063, 1098-1105, 1121-1132).  Simplified: the code first
selects from all columns and then formats them; the errors are the same kinds. -/
def colCells (get : Nat → Sel → Except Err Frame) (arg : Sel) (c : String × Col) : Except Err (String × List Cell) :=
  match colGet get arg c.2 with
  | .error e => .error e
  | .ok g => match format arg g with
    | .error e => .error e
    | .ok cells => .ok (c.1, cells)

/-- the selection from one table: `__get_selection_as_dict` and the frame made of it (common/table.py:1022-1033, 1037-1064) -/
def tblGet (get : Nat → Sel → Except Err Frame) (t : Tbl) (arg : Sel) : Except Err Frame :=
  match idsGet t.ids arg with
  | .error e => .error e
  | .ok ids => match mapE (colCells get arg) t.cols with
    | .error e => .error e
    | .ok cols => mkFrame ids cols

/-- `table.get(arg, df=True, index=False)` with at most `n` levels of recursion (common/table.py:972-1035) -/
def get (E : Env) : Nat → Nat → Sel → Except Err Frame
  | 0 => fun _ _ => .error .runtimeError
  | n + 1 => fun t arg => tblGet (get E n) (E t) arg

/-- `table.to_dataframe()` (common/table.py:1216-1227): all rows, regions expanded -/
def toDataframe (E : Env) (n t : Nat) : Except Err Frame := get E n t (.slice ⟨none, none, none⟩)

/-- the position that `iloc` takes a number for, negative ones counting from the end (common/table.py:1501; pandas) -/
def ilocPos (len : Nat) (v : Int) : Except Err Nat :=
  match pyPos len v with
  | none => .error .indexError
  | some k => .ok k

/-- `region.to_dataframe()` for a region with the given data into table `t` (common/table.py:1493-1501):
`self.table.to_dataframe().iloc[self.data[:]]`, negative row numbers counting from the end -/
def regionToDataframe (E : Env) (n t : Nat) (data : List Int) : Except Err Frame :=
  match toDataframe E n t with
  | .error e => .error e
  | .ok f => match mapE (ilocPos f.ids.length) data with
    | .error e => .error e
    | .ok pos => iloc f pos

/-- `region[arg]` (common/table.py:1400-1402) -/
def regionAt (E : Env) (n t : Nat) (data : List Int) (arg : Sel) : Except Err Frame := regionGet (get E n t) data arg

/-- `table[row, name]` for a column name (common/table.py:1007-1013): `column[row]`, regions expanded -/
def cellAt (E : Env) (n t : Nat) (row : Int) (name : String) : Except Err Cell :=
  match ((E t).cols.find? fun c => c.1 = name) with
  | none => .error .keyError
  | some c => match colGet (get E n) (.int row) c.2 with
    | .error e => .error e
    | .ok g => match single g with
      | .ok [x] => .ok x
      | .ok _ => .error .unsupported
      | .error e => .error e

/-- `col.get(arg, df=…, index=True)` (common/table.py:1058-1063): the row numbers of a region, unexpanded -/
def colIndex (arg : Sel) : Col → Except Err Got
  | .plain d => dataGet d arg
  | .ragged idx d => indexGet (raggedRow idx d) .list .lists idx arg
  | .region d _ => match arg with
    | .int i => if i ≥ d.length then .error .indexError else dataGet d arg
    | arg => dataGet d arg
  | .raggedRegion idx d _ => indexGet (raggedRow idx d) .list .lists idx arg

/-- one column of `table[arg]`, formatted (common/table.py:1054-1063, 1098-1105, 1121-1132) -/
def colIndexCells (arg : Sel) (c : String × Col) : Except Err (String × List Cell) :=
  match colIndex arg c.2 with
  | .error e => .error e
  | .ok g => match format arg g with
    | .error e => .error e
    | .ok cells => .ok (c.1, cells)

/-- `table[arg]`, that is `table.get(arg, df=True, index=True)` (common/table.py:965-1033) -/
def getIndex (t : Tbl) (arg : Sel) : Except Err Frame :=
  match idsGet t.ids arg with
  | .error e => .error e
  | .ok ids => match mapE (colIndexCells arg) t.cols with
    | .error e => .error e
    | .ok cols => mkFrame ids cols

end Verif.Nested

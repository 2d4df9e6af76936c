import Verif.Model.Nested
import Verif.Base.Py

/-!
# Selecting from aligned tables

Model of the ways to read an `AlignedDynamicTable` (common/alignedtable.py:103-117, 155-160, 221-251, 253-357): rows, columns,
category tables and cells through `table[...]`, `to_dataframe`, `get_colnames` and `in`.

The main table and the category tables are tables of `Verif.Nested`, kept by number in its environment; `n` bounds the
recursion through regions as there.

Simplifications.
* Index columns under their own name (`table['col_index']`), boolean masks and arrays are not modelled.
* What `pandas.concat` does with frames of different lengths, with two tables of the same name, and with row labels that
  do not match (it fills in NaN or raises) is not modelled: such calls give `unsupported`.
-/

namespace Verif.AlignedGet
open Verif Verif.Nested

/-- An aligned table: its name, its main table and its categories, by number. (common/alignedtable.py:38-101) -/
structure ATbl where
  name : String
  main : Nat
  cats : Dict String Nat
  deriving DecidableEq

/-- A frame with two levels of column names: the table and the column. (common/alignedtable.py:249-251, 313-315) -/
structure Joined where
  ids : List Int
  cols : List ((String × String) × List Cell)

/-- What a selection gives: a cell, a tuple, an array, a frame, a frame over all tables, a column, the ids of a table.
(common/alignedtable.py:301-357) -/
inductive Res where
  | cell (c : Cell)
  | tuple (vs : List Int)
  | array (cs : List Cell)
  | frame (f : Frame)
  | joined (j : Joined)
  | column (c : Col)
  | ids (l : List Int)

/-- `df.reset_index()` (common/alignedtable.py:243-247, 310-311; pandas): the ids become the first column, named `id`;
ValueError if there is one of that name. -/
def resetIndex (f : Frame) : Except Err (List (String × List Cell)) :=
  if f.cols.any (fun c => c.1 = "id") then .error .valueError else .ok (("id", f.ids.map .val) :: f.cols)

/-- the columns of one table under its name (`keys=names`; common/alignedtable.py:248-249, 312-313) -/
def tag (name : String) (cols : List (String × List Cell)) : List ((String × String) × List Cell) :=
  cols.map fun c => ((name, c.1), c.2)

/-- the columns of one category in the frame of all tables (common/alignedtable.py:247, 311); `len` is the number of rows
of the main table's frame -/
def catCols (len : Nat) (p : String × Frame) : Except Err (List ((String × String) × List Cell)) :=
  if p.2.ids.length ≠ len then .error .unsupported
  else match resetIndex p.2 with
    | .error e => .error e
    | .ok cols => .ok (tag p.1 cols)

/-- `pd.concat` of the frames with their ids as columns, then `set_index` with the ids of the main table
(common/alignedtable.py:248-250, 312-314) -/
def concat (name : String) (main : Frame) (cats : List (String × Frame)) : Except Err Joined :=
  if cats.any (fun p => p.1 = name) then .error .unsupported
  else match resetIndex main with
    | .error e => .error e
    | .ok _ => match mapE (catCols main.ids.length) cats with
      | .error e => .error e
      | .ok ls => .ok ⟨main.ids, tag name main.cols ++ ls.flatten⟩

/-- the frames of all categories (common/alignedtable.py:245-247, 311) -/
def catFrames (get : Nat → Except Err Frame) : Dict String Nat → Except Err (List (String × Frame)) :=
  mapE fun p => match get p.2 with
    | .error e => .error e
    | .ok f => .ok (p.1, f)

/-- `table[rows]` for an integer, a list or a slice (common/alignedtable.py:308-315) -/
def rowsAt (E : Env) (a : ATbl) (sel : Sel) : Except Err Joined :=
  match getIndex (E a.main) sel with
  | .error e => .error e
  | .ok m => match catFrames (fun t => getIndex (E t) sel) a.cats with
    | .error e => .error e
    | .ok fs => concat a.name m fs

/-- where the category has the row labelled `r`, after alignment by label (`pd.concat` with `axis=1`;
common/alignedtable.py:245-249) -/
def aligned (len : Nat) (f : Frame) : Except Err Frame :=
  iloc f ((List.range len).map fun r : Nat => f.ids.idxOf (r : Int))

/-- the columns of one category without ids: `pd.concat` puts the row labelled `r` beside row `r` of the main table
(common/alignedtable.py:244-249).  Other labels than `0, …, len - 1` are not modelled. -/
def catColsByLabel (len : Nat) (p : String × Frame) : Except Err (List ((String × String) × List Cell)) :=
  if p.2.ids.length ≠ len ∨ (List.range len).any (fun r => !p.2.ids.contains (r : Int)) then .error .unsupported
  else match aligned len p.2 with
    | .error e => .error e
    | .ok f => .ok (tag p.1 f.cols)

/-- `to_dataframe(ignore_category_ids)` (common/alignedtable.py:239-251) -/
def toDataframeA (E : Env) (n : Nat) (a : ATbl) (ignoreIds : Bool) : Except Err Joined :=
  match toDataframe E n a.main with
  | .error e => .error e
  | .ok m => match catFrames (fun t => toDataframe E n t) a.cats with
    | .error e => .error e
    | .ok fs =>
      if ignoreIds then
        if fs.any (fun p => p.1 = a.name) then .error .unsupported
        else match resetIndex m with
          | .error e => .error e
          | .ok _ => match mapE (catColsByLabel m.ids.length) fs with
            | .error e => .error e
            | .ok ls => .ok ⟨m.ids, tag a.name m.cols ++ ls.flatten⟩
      else concat a.name m fs

/-- `get_category(name)` (common/alignedtable.py:155-160): `none` is the aligned table itself -/
def getCategory (a : ATbl) (name : Option String) : Except Err (Option Nat) :=
  match name with
  | none => .ok none
  | some c =>
    if !Dict.has a.cats c && c == a.name then .ok none
    else match Dict.get? a.cats c with
      | none => .error .keyError
      | some t => .ok (some t)

/-- the column of a table with the given name (common/table.py:1018-1019) -/
def colOf (t : Tbl) (name : String) : Option Col := (t.cols.find? fun c => c.1 = name).map (·.2)

/-- `table[name]` for a name or `None` (common/alignedtable.py:316-322) -/
def getName (E : Env) (n : Nat) (a : ATbl) (name : Option String) : Except Err Res :=
  match name.bind (colOf (E a.main)) with
  | some c => .ok (.column c)
  | none => match getCategory a name with
    | .error e => .error e
    | .ok none => (toDataframeA E n a false).map .joined
    | .ok (some t) => (toDataframe E n t).map .frame

/-- A key for the second place: a name, or a row. (common/alignedtable.py:273-292) -/
inductive Key where
  | name (s : String)
  | row (i : Int)
  deriving DecidableEq

/-- `category[key]` (common/table.py:966-970, 1014-1033): the ids, a column, or a row -/
def tableAt (t : Tbl) : Key → Except Err Res
  | .name s => if s = "id" then .ok (.ids t.ids) else match colOf t s with
    | none => .error .keyError
    | some c => .ok (.column c)
  | .row i => (getIndex t (.int i)).map .frame

/-- `self.get_category(category)[key]` (common/alignedtable.py:348, 351, 353) -/
def categoryAt (E : Env) (n : Nat) (a : ATbl) (cat : Option String) (key : Key) : Except Err Res :=
  match getCategory a cat with
  | .error e => .error e
  | .ok (some t) => tableAt (E t) key
  | .ok none => match key with
    | .name s => getName E n a (some s)
    | .row i => (rowsAt E a (.int i)).map .joined

/-- `column[row]` (container.py:973-974, common/table.py:175-182, 1400-1401): the cell, regions expanded.  Indexing a frame
with a number is a KeyError. -/
def index (E : Env) (n : Nat) (row : Int) : Res → Except Err Res
  | .column c => match colGet (Nested.get E n) (.int row) c with
    | .error e => .error e
    | .ok g => match single g with
      | .ok [x] => .ok (.cell x)
      | .ok _ => .error .unsupported
      | .error e => .error e
  | .ids l => (pyGet l row).map fun v => .cell (.val v)
  | _ => .error .keyError

/-- `re.values[0]` if there is one cell, a list being made a tuple (common/alignedtable.py:336-340) -/
def oneCell : Cell → Res
  | .vals vs => .tuple vs
  | c => .cell c

/-- `self[row][category]` (common/alignedtable.py:333-346): the columns of one table; with a single cell the values of the
frame's first row -/
def rowOfTable (j : Joined) (cat : String) : Except Err Res :=
  match (j.cols.filter fun c => c.1.1 = cat) with
  | [] => .error .keyError
  | [c] => match c.2 with
    | [x] => .ok (.array [x])
    | _ => .ok (.frame ⟨j.ids, [(c.1.2, c.2)]⟩)
  | cs => .ok (.frame ⟨j.ids, cs.map fun c => (c.1.2, c.2)⟩)

/-- `self[row][(category, column)]` (common/alignedtable.py:333-346).  The main table is not found under `None`. -/
def cellOfRow (j : Joined) (cat : Option String) (col : String) : Except Err Res :=
  match cat with
  | none => .error .keyError
  | some cat => match (j.cols.find? fun c => c.1 = (cat, col)) with
    | none => .error .keyError
    | some c => match c.2 with
      | [x] => .ok (oneCell x)
      | _ => .error .unsupported

/-- `table[row, category]` (common/alignedtable.py:330-346) -/
def rowCat (E : Env) (a : ATbl) (row : Int) (cat : Option String) : Except Err Res :=
  match rowsAt E a (.int row) with
  | .error e => .error e
  | .ok j => match cat with
    | none => .error .keyError
    | some c => rowOfTable j c

/-- `table[row, (category, column)]` (common/alignedtable.py:330-346) -/
def rowPair (E : Env) (a : ATbl) (row : Int) (cat : Option String) (col : String) : Except Err Res :=
  match rowsAt E a (.int row) with
  | .error e => .error e
  | .ok j => cellOfRow j cat col

/-- `get_colnames(include_category_tables=True, ignore_category_ids)` (common/alignedtable.py:221-237).  Simplified: the
name of a category table is its key. -/
def colnames (E : Env) (a : ATbl) (ignoreIds : Bool) : List (String × String) :=
  (E a.main).cols.map (fun c => (a.name, c.1)) ++
    a.cats.flatMap fun p => (if ignoreIds then [] else [(p.1, "id")]) ++ (E p.2).cols.map fun c => (p.1, c.1)

/-- `name in table` (common/alignedtable.py:110-111) -/
def containsName (E : Env) (a : ATbl) (name : String) : Bool :=
  Dict.has a.cats name || (colOf (E a.main) name).isSome

/-- `(category, column) in table` (common/alignedtable.py:112-115, common/table.py:1137-1141) -/
def containsPair (E : Env) (a : ATbl) (cat : Option String) (col : String) : Except Err Bool :=
  match getCategory a cat with
  | .error e => .error e
  | .ok (some t) => .ok (colOf (E t) col).isSome
  | .ok none => .ok (containsName E a col)

/-- What can stand between the brackets: rows; a name or `None`; `row, category`; `row, (category, column)`;
`category, column`; `category, row`; `row, category, column`; `category, column, row`.
(common/alignedtable.py:269-299) -/
inductive Item where
  | rows (s : Sel)
  | name (s : Option String)
  | rowCat (row : Int) (cat : Option String)
  | rowPair (row : Int) (cat : Option String) (col : String)
  | catCol (cat : Option String) (col : String)
  | catRow (cat : Option String) (row : Int)
  | rowCatCol (row : Int) (cat : Option String) (col : String)
  | catColRow (cat : Option String) (col : String) (row : Int)
  deriving DecidableEq

/-- `table[item]` (common/alignedtable.py:253-357) -/
def getItem (E : Env) (n : Nat) (a : ATbl) : Item → Except Err Res
  | .rows s => (rowsAt E a s).map .joined
  | .name s => getName E n a s
  | .rowCat row cat => rowCat E a row cat
  | .rowPair row cat col => rowPair E a row cat col
  | .catCol cat col => categoryAt E n a cat (.name col)
  | .catRow cat row => categoryAt E n a cat (.row row)
  | .rowCatCol row cat col => match categoryAt E n a cat (.name col) with
    | .error e => .error e
    | .ok r => index E n row r
  | .catColRow cat col row => match categoryAt E n a cat (.name col) with
    | .error e => .error e
    | .ok r => index E n row r

end Verif.AlignedGet

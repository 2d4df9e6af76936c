import Verif.Base.Py

/-!
# Model of linked tables and hierarchical data frames

`get_linked_tables` (common/table.py:1173-1207, common/alignedtable.py:401-418), `to_hierarchical_dataframe`, `drop_id_columns` and
`flatten_column_index` (common/hierarchicaltable.py:17-266), `from_dataframe` with the columns it builds (common/table.py:584-626, 1282-1335).
A data frame is a list of rows with an index; of pandas only the selection of the rows of an index value (`loc`, which raises a KeyError if there
are none) and the dropping of columns by label are modelled.
-/

namespace Verif.Hier
open Verif

/-! ## Linked tables -/

/-- a column of a table: a `DynamicTableRegion` with its table, or another one (common/table.py:1153-1155) -/
inductive GCol where
  | plain (name : String)
  | region (name : String) (table : Option Nat)
  deriving DecidableEq

/-- `DynamicTableLink`: the table, the column, the target (common/table.py:1186-1189) -/
structure Link where
  source : Nat
  column : String
  target : Option Nat
  deriving DecidableEq

/-- common/table.py:1143-1156 `get_foreign_columns` -/
def foreignColumns : List GCol → List String
  | [] => []
  | .region n _ :: cs => n :: foreignColumns cs
  | .plain _ :: cs => foreignColumns cs

/-- common/table.py:1158-1167 `has_foreign_columns` -/
def hasForeign (cs : List GCol) : Bool := cs.any (fun c => match c with | .region _ _ => true | .plain _ => false)

/-- the columns of one table: the links found and the tables to visit (common/table.py:1197-1205) -/
def visit (src : Nat) : List GCol → List (Option Nat) × List Link → List (Option Nat) × List Link
  | [], s => s
  | .plain _ :: cs, s => visit src cs s
  | .region n t :: cs, s => visit src cs (if t ∈ s.1 then s.1 else s.1 ++ [t], s.2 ++ [⟨src, n, t⟩])

/-- the loop over the tables; a region without a table has been added as `None`, which has no columns (common/table.py:1196-1206).  The loop is
bounded here by the first argument; the bound is shown not to matter -/
def linkLoop (g : Nat → List GCol) : Nat → Nat → List (Option Nat) × List Link → Except Err (List Link)
  | fuel, i, s => match s.1[i]? with
    | none => .ok s.2
    | some none => .error .attributeError
    | some (some t) => match fuel with
      | 0 => .error .runtimeError
      | fuel + 1 => linkLoop g fuel (i + 1) (visit t (g t) s)

/-- common/table.py:1173-1207 `get_linked_tables` -/
def linkedTables (g : Nat → List GCol) (fuel : Nat) (self : Nat) (others : List Nat) : Except Err (List Link) :=
  linkLoop g fuel 0 ((self :: others).map some, [])

/-- common/alignedtable.py:401-418: the category tables are searched too -/
def alignedLinkedTables (g : Nat → List GCol) (categories : Nat → List Nat) (fuel : Nat) (self : Nat) (ignore : Bool) : Except Err (List Link) :=
  linkedTables g fuel self (if ignore then [] else categories self)

/-! ## Hierarchical data frames -/

/-- an id or a value (common/hierarchicaltable.py:82-85) -/
inductive Cell (V : Type) where
  | id (i : Int)
  | val (v : V)
  deriving DecidableEq

/-- a table without regions, or one whose first region column is to be expanded: for each row its id, the values of the other columns and the rows of
the target it refers to (one, or a list if the column is ragged); `nest`: the number of indices on that column.  `AlignedDynamicTable` is not
modelled (common/hierarchicaltable.py:33-64) -/
inductive HTab (V : Type) where
  | leaf (name : String) (colnames : List String) (rows : List (Int × List V))
  | node (name : String) (colnames : List String) (hcol : String) (nest : Nat) (rows : List (Int × List V × List Nat)) (target : HTab V)

/-- a data frame: the index and the values of each row, the names of the index levels and of the columns
(common/hierarchicaltable.py:45-48, 148-149) -/
structure Frame (V : Type) where
  rows : List (List (Cell V) × List (Cell V))
  indexNames : List (List String)
  columns : List (List String)
  deriving DecidableEq

/-- `hcol_target.has_foreign_columns()` (common/hierarchicaltable.py:70) -/
def HTab.isLeaf {V : Type} : HTab V → Bool
  | .leaf _ _ _ => true
  | .node _ _ _ _ _ _ => false

/-- the ids of a table (common/hierarchicaltable.py:82) -/
def HTab.ids {V : Type} : HTab V → List Int
  | .leaf _ _ rows => rows.map (fun r => r.1)
  | .node _ _ _ _ rows _ => rows.map (fun r => r.1)

/-- the name of a table (common/hierarchicaltable.py:92) -/
def HTab.name {V : Type} : HTab V → String
  | .leaf n _ _ => n
  | .node n _ _ _ _ _ => n

/-- `colnames` of a table (common/hierarchicaltable.py:62-64) -/
def HTab.colnames {V : Type} : HTab V → List String
  | .leaf _ cs _ => cs
  | .node _ cs _ _ _ _ => cs

/-- a row of the table at the end with its id, as `itertuples(index=True)` gives it (common/hierarchicaltable.py:75-78) -/
def HTab.tuple {V : Type} (t : HTab V) (j : Nat) : Option (List (Cell V)) := match t with
  | .leaf _ _ rows => match rows[j]? with
    | some r => some (.id r.1 :: r.2.map .val)
    | none => none
  | .node _ _ _ _ _ _ => none

/-- case 1, the rows of the target that one row refers to (common/hierarchicaltable.py:75-85) -/
def leafRefs {V : Type} (t : HTab V) (pre : List (Cell V)) : List Nat → Except Err (List (List (Cell V) × List (Cell V)))
  | [] => .ok []
  | j :: js => match t.tuple j with
    | none => .error .indexError
    | some d => match leafRefs t pre js with
      | .ok rs => .ok ((pre, d) :: rs)
      | .error e => .error e

/-- `hcol_hdf.loc[[id]]`: the rows whose first index level is the id; KeyError if there are none (common/hierarchicaltable.py:118) -/
def loc {V : Type} [DecidableEq V] (rows : List (List (Cell V) × List (Cell V))) (i : Int) : Except Err (List (List (Cell V) × List (Cell V))) :=
  match rows.filter (fun r => decide (r.1.head? = some (.id i))) with
  | [] => .error .keyError
  | r :: rs => .ok (r :: rs)

/-- case 2, the rows of the target that one row refers to (common/hierarchicaltable.py:108-126) -/
def nodeRefs {V : Type} [DecidableEq V] (ids : List Int) (hdf : List (List (Cell V) × List (Cell V))) (pre : List (Cell V)) :
    List Nat → Except Err (List (List (Cell V) × List (Cell V)))
  | [] => .ok []
  | j :: js => match ids[j]? with
    | none => .error .indexError
    | some i => match loc hdf i with
      | .error e => .error e
      | .ok found => match nodeRefs ids hdf pre js with
        | .ok rs => .ok (found.map (fun r => (pre ++ r.1, r.2)) ++ rs)
        | .error e => .error e

/-- all rows (common/hierarchicaltable.py:72-85, 106-126) -/
def allRows {V : Type} (refs : List (Cell V) → List Nat → Except Err (List (List (Cell V) × List (Cell V)))) :
    List (Int × List V × List Nat) → Except Err (List (List (Cell V) × List (Cell V)))
  | [] => .ok []
  | r :: rs => match refs (.id r.1 :: r.2.1.map .val) r.2.2 with
    | .error e => .error e
    | .ok out => match allRows refs rs with
      | .ok outs => .ok (out ++ outs)
      | .error e => .error e

/-- the names of the index levels of one table (common/hierarchicaltable.py:92-94, 129-131) -/
def levelNames (name : String) (colnames : List String) (hcol : String) : List (List String) :=
  [name, "id"] :: (colnames.filter (fun c => decide (c ≠ hcol))).map (fun c => [name, c])

/-- common/hierarchicaltable.py:17-150 `to_hierarchical_dataframe`; with two or more indices on the column `hcol.target` has no `table`.  The
conversion of unhashable cells (common/hierarchicaltable.py:135-146) is not modelled -/
def toHier {V : Type} [DecidableEq V] : HTab V → Except Err (Frame V)
  | .leaf _ cs rows => .ok ⟨rows.map (fun r => ([.id r.1], r.2.map .val)), [["id"]], cs.map (fun c => [c])⟩
  | .node name cs hcol nest rows target =>
    if 2 ≤ nest then .error .attributeError
    else if target.isLeaf then match allRows (leafRefs target) rows with
      | .error e => .error e
      | .ok out => .ok ⟨out, levelNames name cs hcol, [target.name, "id"] :: target.colnames.map (fun c => [target.name, c])⟩
    else match toHier target with
      | .error e => .error e
      | .ok hdf => match allRows (nodeRefs target.ids hdf.rows) rows with
        | .error e => .error e
        | .ok out => .ok ⟨out, levelNames name cs hcol ++ hdf.indexNames, hdf.columns⟩

/-! ## Labels of columns -/

/-- a label: a string or a tuple of labels (common/hierarchicaltable.py:153-163) -/
inductive Label where
  | str (s : String)
  | tup (ls : List Label)

/-- common/hierarchicaltable.py:153-163 `__get_col_name`: the last value of the innermost tuple; `none`: IndexError for an empty tuple.  As nested
lists are not easy to recurse over, the last label is taken in a function of its own -/
def colName : Label → Option String
  | .str s => some s
  | .tup ls => colNameL ls
where colNameL : List Label → Option String
  | [] => none
  | [l] => colName l
  | _ :: l :: ls => colNameL (l :: ls)

/-- `isinstance(v, tuple)` (common/hierarchicaltable.py:177) -/
def Label.isTuple : Label → Bool
  | .str _ => false
  | .tup _ => true

/-- one round of the loop: the members of the tuples in the place of the tuples (common/hierarchicaltable.py:178-184) -/
def flattenOnce : List Label → List Label
  | [] => []
  | .tup ls :: rest => ls ++ flattenOnce rest
  | .str s :: rest => .str s :: flattenOnce rest

/-- the loop; bounded by the first argument, which is shown not to matter (common/hierarchicaltable.py:176-184) -/
def flattenLoop : Nat → List Label → Option (List Label)
  | fuel, ls => if ls.any Label.isTuple then match fuel with
      | 0 => none
      | fuel + 1 => flattenLoop fuel (flattenOnce ls)
    else some ls

/-- common/hierarchicaltable.py:166-187 `__flatten_column_name` -/
def flattenName (fuel : Nat) : Label → Option Label
  | .str s => some (.str s)
  | .tup ls => (flattenLoop fuel ls).map .tup

/-- `col[select_levels]` of a flat label; `none`: IndexError of `()[-1]` (common/hierarchicaltable.py:255-263) -/
def selectLevels : Option Nat → Label → Option Label
  | _, .str s => some (.str s)
  | none, .tup ls => some (.tup ls)
  | some 1, .tup ls => ls.getLast?
  | some k, .tup ls => some (.tup (ls.drop (ls.length - k)))

/-- common/hierarchicaltable.py:220-266 `flatten_column_index` of the labels; ValueError if `max_levels` is 0 -/
def flattenColumns {C : Type} (fuel : Nat) (maxLevels : Option Nat) : List (Label × C) → Except Err (List (Label × C))
  | [] => if maxLevels = some 0 then .error .valueError else .ok []
  | (l, c) :: cols =>
    if maxLevels = some 0 then .error .valueError
    else match flattenName fuel l with
      | none => .error .runtimeError
      | some fl => match selectLevels maxLevels fl with
        | none => .error .indexError
        | some l' => match flattenColumns fuel maxLevels cols with
          | .error e => .error e
          | .ok cs => .ok ((l', c) :: cs)

/-- common/hierarchicaltable.py:190-217 `drop_id_columns` -/
def dropIds {C : Type} : List (Label × C) → Except Err (List (Label × C))
  | [] => .ok []
  | (l, c) :: cols => match colName l with
    | none => .error .indexError
    | some n => match dropIds cols with
      | .error e => .error e
      | .ok cs => if n = "id" then .ok cs else .ok ((l, c) :: cs)

/-! ## Tables from data frames -/

/-- a cell of a data frame: a value without a length (or a string), or a list (common/table.py:1318) -/
inductive DCell (V : Type) where
  | one (v : V)
  | many (vs : List (DCell V))

/-- `hasattr(x, '__len__') and not isinstance(x, str)` (common/table.py:1318) -/
def DCell.isMany {V : Type} : DCell V → Bool
  | .one _ => false
  | .many _ => true

/-- `[len(x) for x in df[col_name]]`; TypeError for a value without a length.  A string among lists has a length in the code and none here
(common/table.py:1319) -/
def cellLens {V : Type} : List (DCell V) → Except Err (List Nat)
  | [] => .ok []
  | .one _ :: _ => .error .typeError
  | .many vs :: cs => match cellLens cs with
    | .ok ns => .ok (vs.length :: ns)
    | .error e => .error e

/-- whether the column gets an index: decided by the first cell (common/table.py:1318-1321); IndexError if there are no rows -/
def needsIndex {V : Type} : List (DCell V) → Except Err Bool
  | [] => .error .indexError
  | c :: cs => if c.isMany then match cellLens (c :: cs) with
      | .ok ns => .ok (decide (ns.tail ≠ ns.dropLast))
      | .error e => .error e
    else .ok false

/-- a column of the table: with an index, or without (common/table.py:607-610, 626) -/
inductive BCol (V : Type) where
  | ragged (index : List Nat) (data : List (DCell V))
  | plain (data : List (DCell V))

/-- the ends of the rows: `index_data.append(len(data[i]) + index_data[i - 1])` (common/table.py:598-600) -/
def ends (acc : Nat) : List Nat → List Nat
  | [] => []
  | n :: ns => (acc + n) :: ends (acc + n) ns

/-- `tmp_data.extend(d)` for each cell (common/table.py:603-605) -/
def concatCells {V : Type} : List (DCell V) → List (DCell V)
  | [] => []
  | .one _ :: cs => concatCells cs
  | .many vs :: cs => vs ++ concatCells cs

/-- common/table.py:584-626 for one column of a data frame; IndexError of `data[0]` if there are no rows.  `EnumData` and regions are not modelled
here -/
def buildColumn {V : Type} (index : Bool) (cells : List (DCell V)) : Except Err (BCol V) :=
  if index then match cells with
    | [] => .error .indexError
    | c :: cs => match cellLens (c :: cs) with
      | .ok ns => .ok (.ragged (ends 0 ns) (concatCells (c :: cs)))
      | .error e => .error e
  else .ok (.plain cells)

/-- whether a column gets an index: as the class or the caller describes it, or as the cells suggest; `declared n`: the `index` of the description, if
there is one for the column (common/table.py:1302-1321) -/
def indexOf {V : Type} (declared : String → Option Bool) (n : String) (cells : List (DCell V)) : Except Err Bool := match declared n with
  | some b => .ok b
  | none => needsIndex cells

/-- common/table.py:1299-1333 `from_dataframe`: the columns -/
def fromFrame {V : Type} (declared : String → Option Bool) : List (String × List (DCell V)) → Except Err (List (String × BCol V))
  | [] => .ok []
  | (n, cells) :: cols => match indexOf declared n cells with
    | .error e => .error e
    | .ok b => match buildColumn b cells with
      | .error e => .error e
      | .ok c => match fromFrame declared cols with
        | .ok cs => .ok ((n, c) :: cs)
        | .error e => .error e

/-- the cell of a row: `target[start:end]` of a ragged column (common/table.py:1037-1057, 190-205) -/
def cellAt {V : Type} (c : BCol V) (i : Nat) : Option (DCell V) := match c with
  | .plain data => data[i]?
  | .ragged index data => match index[i]? with
    | none => none
    | some stop => some (.many ((data.take stop).drop (if i = 0 then 0 else (index[i - 1]?).getD 0)))

end Verif.Hier

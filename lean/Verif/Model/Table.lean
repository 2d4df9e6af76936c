import Verif.Base.Value
import Verif.Model.Ragged

/-!
# Model of `DynamicTable` (common/table.py:321-1035)

Columns are plain `VectorData` or ragged columns of any index depth (`Verif.Ragged`), list-backed.  Not modelled: table
region and enum columns' own classes, `TermSetWrapper` data, a `VectorIndex` object passed as `index`, warnings, pandas
conversion.  Scalars are not iterable (Python strings are; treat them as scalars here).
-/

namespace Verif.Table
open Verif Verif.Ragged

/-- A column as listed in `colnames`: its name, index depth and data. (common/table.py:256-320) -/
structure Column where
  name : String
  depth : Nat
  data : Col Value depth

/-- The table: ids, columns in the order of `colnames`, the predefined columns of the class (`__columns__`: name and index
depth), the names registered in `__indices` by `add_column` and the names of children attached to the table.
(common/table.py:321-500) -/
structure State where
  ids : List Int
  cols : List Column
  specs : List (String × Nat)
  indices : List String := []
  children : List String := []

/-- `len(table)`, common/table.py:634-636 -/
def State.len (s : State) : Nat := s.ids.length

/-- `colnames` (common/table.py:321-500) -/
def State.colnames (s : State) : List String := s.cols.map Column.name

/-- `len(column)` (common/table.py:634-640) -/
def Column.len (c : Column) : Nat := Ragged.len c.depth c.data

/-- Adding a dynamic value to a column of depth `n`: `VectorData.add_row` (common/table.py:49-53) for depth 0,
`VectorIndex.add_vector` (113-123) otherwise: iterating over something that is not a list raises TypeError. -/
def addDyn : (n : Nat) → Col Value n → Value → Col Value n × Except Err Unit
  | 0, l, v => (l ++ [v], .ok ())
  | n + 1, (ix, t), v =>
    match v with
    | .list vs =>
      let r := addMany (addDyn n) t vs
      match r.2 with
      | .error e => ((ix, r.1), .error e)
      | .ok _ =>
        let p := checkPrecision ix (Ragged.len n r.1)
        match p.2 with
        | .error e => ((p.1, r.1), .error e)
        | .ok x => ((appendIx p.1 x, r.1), .ok ())
    | _ => ((ix, t), .error .typeError)

/-- a row value of depth `n` as a dynamic value (common/table.py:972-1035) -/
def ofVal : (n : Nat) → Val Value n → Value
  | 0, v => v
  | n + 1, vs => .list ((vs : List (Val Value n)).map (ofVal n))

/-- `column.get(i)` as a dynamic value (common/table.py:972-1035) -/
def Column.get (c : Column) (i : Int) : Except Err Value := (Ragged.get c.depth c.data i).map (ofVal c.depth)

/-- `data.extend(range)`-free concatenation and lengths of a list of lists, common/table.py:833-838: TypeError (re-raised as
ValueError) if an element has no length. -/
def flatten1 : List Value → Option (List Nat × List Value)
  | [] => some ([], [])
  | .list l :: vs => (flatten1 vs).map fun r => (l.length :: r.1, l ++ r.2)
  | _ :: _ => none

/-- `np.cumsum(lens)` (common/table.py:764-930) -/
def cumsum (acc : Nat) : List Nat → List Nat
  | [] => []
  | x :: xs => (acc + x) :: cumsum (acc + x) xs

/-- common/table.py:826-845 and 862-890: flatten the data once per index level and create the column and its indexes.
(The code computes the flattened data and end positions of all levels first, then creates the index objects from the
innermost level outwards; the result is the same.) -/
def buildCol : (n : Nat) → List Value → Except Err (Col Value n)
  | 0, data => match data with
    | .list _ :: _ => .error .valueError              -- "Column data contains arrays as cell values"
    | _ => .ok data
  | n + 1, data => match flatten1 data with
    | none => .error .valueError
    | some (lens, flat) => match buildCol n flat with
      | .error e => .error e
      | .ok t => match mkIndex (cumsum 0 lens) (Ragged.len n t) with
        | (ix, .ok _) => .ok (ix, t)
        | (_, .error e) => .error e

/-- the `index` argument of `add_column` (common/table.py:731-790) -/
inductive IndexArg
  | none                         -- False
  | levels (n : Nat)             -- True (one level) or an int
  | ends (l : List Nat)          -- array of end positions
  deriving Repr

/-- The column object (with its indexes) that `add_column` creates, common/table.py:818-899. -/
def makeCol (name : String) (data : List Value) : IndexArg → Except Err Column
  | .none => .ok ⟨name, 0, data⟩
  | .levels 0 => .error .runtimeError                   -- AssertionError
  | .levels (n + 1) =>
    if data.length = 0 then .ok ⟨name, n + 1, emptyCol Value (n + 1)⟩
    else (buildCol (n + 1) data).map fun c => ⟨name, n + 1, c⟩
  | .ends l =>
    if data.length = 0 then .error .runtimeError        -- AssertionError
    else match mkIndex l data.length with
      | (ix, .ok _) => .ok ⟨name, 1, (ix, data)⟩
      | (_, .error e) => .error e

/-- names of the index objects of a column of depth `n`: `name_index`, `name_index_index`, ... (common/table.py:931-941) -/
def indexNames (name : String) : Nat → List String
  | 0 => []
  | n + 1 => (name ++ "_index") :: indexNames (name ++ "_index") n

/-- whether an error of `makeCol` is raised after the `VectorData` has been attached to the table (common/table.py:854-856):
true for the checks of the index argument, false for the flattening -/
def attachedOnError : IndexArg → Bool
  | .levels 0 | .ends _ => true
  | _ => false

/-- common/table.py:764-911 `add_column`.  The column and its indexes are attached to the table (children, `__indices`) before
the length check that may reject them. -/
def addColumn (s : State) (name : String) (data : List Value) (ix : IndexArg) : State × Except Err Unit :=
  if name ∈ s.colnames then (s, .error .valueError)
  else match makeCol name data ix with
    | .error e => (if attachedOnError ix then { s with children := s.children ++ [name] } else s, .error e)
    | .ok c =>
      let s1 := { s with indices := s.indices ++ indexNames name c.depth,
                         children := s.children ++ name :: indexNames name c.depth }
      if c.len ≠ s.ids.length then (s1, .error .valueError)
      else ({ s1 with cols := s.cols ++ [c] }, .ok ())

/-- common/table.py:676-691: the loop over the predefined columns; the second component are the extra keys left. -/
def addExtras (data : Dict String Value) : List (String × Nat) → State → List String → State × Except Err (List String)
  | [], s, extra => (s, .ok extra)
  | (n, depth) :: specs, s, extra =>
    if n ∈ extra then
      match Dict.get? data n with
      | some .null | none => addExtras data specs s (extra.filter (· ≠ n))
      | some _ =>
        let r := addColumn s n [] (if depth = 0 then .none else .levels depth)
        match r.2 with
        | .error e => (r.1, .error e)
        | .ok _ => addExtras data specs r.1 (extra.filter (· ≠ n))
    else addExtras data specs s extra

/-- common/table.py:708-714: the final loop over the columns; stops at the first column that raises. -/
def addCells (data : Dict String Value) : List Column → List Column × Except Err Unit
  | [] => ([], .ok ())
  | c :: cs => match Dict.get? data c.name with
    | none => (c :: cs, .error .valueError)
    | some v =>
      let r := addDyn c.depth c.data v
      match r.2 with
      | .error e => ({ c with data := r.1 } :: cs, .error e)
      | .ok _ =>
        let q := addCells data cs
        ({ c with data := r.1 } :: q.1, q.2)

/-- common/table.py:646-714 `add_row(data, id, enforce_unique_id)` -/
def addRow (s : State) (data : Dict String Value) (id : Option Int) (unique : Bool) : State × Except Err Unit :=
  if s.colnames.any (fun n => !Dict.has data n) then (s, .error .valueError)         -- "column '%s' missing"
  else
    let r := addExtras data s.specs s (data.keys.filter (· ∉ s.colnames))
    match r.2 with
    | .error e => (r.1, .error e)
    | .ok (_ :: _) => (r.1, .error .valueError)                                      -- extra keys
    | .ok [] =>
      let s1 := r.1
      let rowId : Int := id.getD s1.ids.length
      if unique ∧ rowId ∈ s1.ids then (s1, .error .valueError)
      else
        let q := addCells data s1.cols
        ({ s1 with ids := s1.ids ++ [rowId], cols := q.1 }, q.2)

/-- `table[i, name]`, common/table.py:1005-1011 -/
def State.cell (s : State) (i : Int) (name : String) : Except Err Value :=
  match s.cols.find? (fun c => c.name == name) with
  | none => .error .keyError
  | some c => c.get i

/-- the loop over the columns of `table[i]`, common/table.py:1053-1063 -/
def rowCells (i : Int) : List Column → Except Err (List (String × Value))
  | [] => .ok []
  | c :: cs => match c.get i with
    | .error e => .error e
    | .ok v => match rowCells i cs with
      | .error e => .error e
      | .ok vs => .ok ((c.name, v) :: vs)

/-- `table[i]` for an integer, common/table.py:1022-1033, 1050-1064: the id and the value of every column -/
def State.row (s : State) (i : Int) : Except Err (Int × List (String × Value)) :=
  match pyGet s.ids i with
  | .error e => .error e
  | .ok k => match rowCells i s.cols with
    | .error e => .error e
    | .ok vs => .ok (k, vs)

/-- A table built without data: the predefined columns that are `required` (or were given as `colnames`) exist and are
empty; the others are only remembered.  common/table.py:512-547 `_init_class_columns`; the class metadata is `specs`. -/
def fresh (initial specs : List (String × Nat)) : State :=
  { ids := [], cols := initial.map fun p => ⟨p.1, p.2, emptyCol Value p.2⟩, specs := specs }

/-- user operations (histories of the calls modelled from common/table.py:646-941) -/
inductive Op
  | addRow (data : Dict String Value) (id : Option Int) (unique : Bool)
  | addColumn (name : String) (data : List Value) (ix : IndexArg)

/-- one operation (histories of the calls modelled from common/table.py:646-941) -/
def step (s : State) : Op → State × Except Err Unit
  | .addRow d i u => addRow s d i u
  | .addColumn n d ix => addColumn s n d ix

/-- a history in which every call succeeds; `none` if one raises
(histories of the calls modelled from common/table.py:646-941) -/
def runOk : State → List Op → Option State
  | s, [] => some s
  | s, op :: ops => match step s op with
    | (s', .ok _) => runOk s' ops
    | (_, .error _) => none

end Verif.Table

import Verif.Model.Table

/-!
# Model of `AlignedDynamicTable` (common/alignedtable.py:15-360)

The main table and the category tables are tables of `Verif.Table`.  Not modelled: rows added to a category table behind the
aligned table's back, columns named `data`, `id`, `enforce_unique_id` or `check_ragged` (they clash with the parameters of
`add_row`), pandas conversion.
-/

namespace Verif.Aligned
open Verif

/-- The aligned table: its name, the main table and the category tables by name (an ordered dict).
(common/alignedtable.py:15-101) -/
structure State where
  name : String
  main : Table.State
  cats : Dict String Table.State

/-- A value of the `data` dict of `add_row`: a cell, or a mapping (a row of a category table: its columns and, if given, its
`id` and `enforce_unique_id` entries). (common/alignedtable.py:189-218) -/
inductive Arg
  | cell (v : Value)
  | row (data : Dict String Value) (id : Option Int) (unique : Bool)

/-- the value stored if it is given for a column of the main table (a mapping is a scalar there)
(common/alignedtable.py:197-218) -/
def Arg.value : Arg → Value
  | .cell v => v
  | .row _ _ _ => .atom 0

/-- a table as argument: its name, the table, whether it is a `DynamicTable`, whether an `AlignedDynamicTable`
(common/alignedtable.py:127-153) -/
structure TableArg where
  name : String
  table : Table.State
  isTable : Bool := true
  isAligned : Bool := false

/-- common/alignedtable.py:73-75: ids for a main table without any, from the first category table -/
def initIds (main : Table.State) (tables : List TableArg) : Table.State :=
  match tables with
  | [] => main
  | t :: _ => if main.ids.length = 0 then { main with ids := (List.range t.table.len).map Int.ofNat } else main

/-- common/alignedtable.py:79-87: the position of each table by name -/
def lookup (cats : List String) : List TableArg → Nat → Dict String Nat → Except Err (Dict String Nat)
  | [], _, d => .ok d
  | t :: ts, i, d =>
    if ¬ t.name ∈ cats then .error .valueError
    else if Dict.has d t.name then .error .valueError
    else lookup cats ts (i + 1) (Dict.set d t.name i)

/-- common/alignedtable.py:88-101: the categories in the order of `categories` (an OrderedDict: the first occurrence counts) -/
def collect (main : Table.State) (tables : List TableArg) (pos : Dict String Nat) : List String → Dict String Table.State →
    Except Err (Dict String Table.State)
  | [], d => .ok d
  | c :: cs, d => match (Dict.get? pos c).bind (tables[·]?) with
    | none => .error .valueError
    | some t =>
      if t.table.len ≠ main.len then .error .valueError
      else collect main tables pos cs (Dict.set d t.name t.table)

/-- common/alignedtable.py:38-101 `__init__`; `main` is the result of `DynamicTable.__init__` -/
def init (name : String) (main : Table.State) (tables : Option (List TableArg)) (categories : Option (List String)) :
    Except Err State :=
  match tables with
  | none => match categories with
    | some _ => .error .valueError
    | none => .ok ⟨name, main, []⟩
  | some ts =>
    if ts.any (fun t => !t.isTable || t.isAligned) then .error .valueError
    else
      let cs := categories.getD (ts.map TableArg.name)
      if cs.length ≠ ts.length then .error .valueError
      else
        let main := initIds main ts
        match lookup cs ts 0 [] with
        | .error e => .error e
        | .ok pos => match collect main ts pos cs [] with
          | .error e => .error e
          | .ok d => .ok ⟨name, main, d⟩

/-- common/alignedtable.py:131-152 `add_category` -/
def addCategory (s : State) (t : TableArg) : State × Except Err Unit :=
  if t.table.len ≠ s.main.len then (s, .error .valueError)
  else if Dict.has s.cats t.name then (s, .error .valueError)
  else if t.isAligned then (s, .error .valueError)
  else ({ s with cats := Dict.set s.cats t.name t.table }, .ok ())

/-- common/alignedtable.py:155-160 `get_category`: `none` stands for the aligned table itself -/
def getCategory (s : State) (name : Option String) : Except Err (Option Table.State) :=
  match name with
  | none => .ok none
  | some n => match Dict.get? s.cats n with
    | some t => .ok (some t)
    | none => if n = s.name then .ok none else .error .keyError

/-- common/alignedtable.py:165-182 `add_column` -/
def addColumn (s : State) (cat : Option String) (name : String) (data : List Value) (ix : Table.IndexArg) :
    State × Except Err Unit :=
  match getCategory s cat with
  | .error e => (s, .error e)
  | .ok none => let r := Table.addColumn s.main name data ix
    ({ s with main := r.1 }, r.2)
  | .ok (some t) => let r := Table.addColumn t name data ix
    ({ s with cats := Dict.set s.cats (cat.getD "") r.1 }, r.2)

/-- common/alignedtable.py:213-215: the rows of the categories, one after the other -/
def addCats (cats : Dict String Table.State) : List (String × Arg) → Dict String Table.State × Except Err Unit
  | [] => (cats, .ok ())
  | (c, a) :: rest => match a with
    | .cell _ => (cats, .error .typeError)                         -- argument after ** must be a mapping
    | .row d id u => match Dict.get? cats c with
      | none => (cats, .error .keyError)
      | some t =>
        let r := Table.addRow t d id u
        match r.2 with
        | .error e => (Dict.set cats c r.1, .error e)
        | .ok _ => addCats (Dict.set cats c r.1) rest

/-- common/alignedtable.py:197: the entries of the categories, in the order of the categories -/
def catData (cats : Dict String Table.State) (data : Dict String Arg) : List (String × Arg) :=
  cats.keys.filterMap fun c => (Dict.get? data c).map fun a => (c, a)

/-- common/alignedtable.py:197: what is left in `data` -/
def restData (cats : Dict String Table.State) (data : Dict String Arg) : Dict String Arg :=
  data.filter fun p => !Dict.has cats p.1

/-- common/alignedtable.py:208: the keyword arguments for the main table (the entries `id` and `enforce_unique_id` are the
parameters) -/
def mainData (rest : Dict String Arg) : Dict String Value :=
  (rest.filter fun p => p.1 ≠ "id" ∧ p.1 ≠ "enforce_unique_id").map fun p => (p.1, p.2.value)

/-- common/alignedtable.py:189-215 `add_row(data=...)`; also returns the caller's dict as the call leaves it.  (`id` is stored as
None when not given.) -/
def addRow (s : State) (data : Dict String Arg) (id : Option Int) (unique : Bool) :
    State × Dict String Arg × Except Err Unit :=
  let cd := catData s.cats data
  let rest := restData s.cats data
  if s.cats.keys.any (fun c => !(cd.map Prod.fst).contains c) then (s, rest, .error .keyError)
  else
    let idv : Value := match id with
      | some i => .atom i
      | none => .null
    let left := Dict.set (Dict.set rest "id" (.cell idv)) "enforce_unique_id" (.cell (.atom (if unique then 1 else 0)))
    let r := Table.addRow s.main (mainData left) id unique
    match r.2 with
    | .error e => ({ s with main := r.1 }, left, .error e)
    | .ok _ =>
      let q := addCats s.cats cd
      ({ s with main := r.1, cats := q.1 }, left, q.2)

/-- the category of a row read: its row (common/alignedtable.py:261-360) -/
def catRows (i : Int) : Dict String Table.State → Except Err (List (String × Int × List (String × Value)))
  | [] => .ok []
  | (c, t) :: rest => match t.row i with
    | .error e => .error e
    | .ok r => match catRows i rest with
      | .error e => .error e
      | .ok rs => .ok ((c, r) :: rs)

/-- common/alignedtable.py:308-316: `table[i]`: the row of the main table and of every category -/
def State.row (s : State) (i : Int) :
    Except Err ((Int × List (String × Value)) × List (String × Int × List (String × Value))) :=
  match s.main.row i with
  | .error e => .error e
  | .ok r => match catRows i s.cats with
    | .error e => .error e
    | .ok rs => .ok (r, rs)

/-- common/alignedtable.py:221-237 `get_colnames(include_category_tables=True)` -/
def State.allColnames (s : State) (ignoreIds : Bool) : List (String × String) :=
  (s.main.colnames.map fun c => (s.name, c)) ++
    s.cats.flatMap fun p => (if ignoreIds then [] else [(p.1, "id")]) ++ p.2.colnames.map fun c => (p.1, c)

/-- user operations (histories of the calls modelled from common/alignedtable.py:131-218) -/
inductive Op
  | addRow (data : Dict String Arg) (id : Option Int) (unique : Bool)
  | addColumn (cat : Option String) (name : String) (data : List Value) (ix : Table.IndexArg)
  | addCategory (t : TableArg)

/-- one operation (histories of the calls modelled from common/alignedtable.py:131-218) -/
def step (s : State) : Op → State × Except Err Unit
  | .addRow d i u => let r := addRow s d i u
    (r.1, r.2.2)
  | .addColumn c n d ix => addColumn s c n d ix
  | .addCategory t => addCategory s t

/-- a history in which every call succeeds; `none` if one raises
(histories of the calls modelled from common/alignedtable.py:131-218) -/
def runOk : State → List Op → Option State
  | s, [] => some s
  | s, op :: ops => match step s op with
    | (s', .ok _) => runOk s' ops
    | (_, .error _) => none

end Verif.Aligned

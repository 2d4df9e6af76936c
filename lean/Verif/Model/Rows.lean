import Verif.Base.Slice

/-!
# Model of `Table`, `Row` and `RowGetter` (container.py:1341-1638)

Cells are integers, floats (as exact rationals, rounding explicit), strings and booleans.  A table class is its columns
(`__columns__`), a column the kinds of values it takes.  Row objects are numbered, so that identity and the cache can be
spoken of.  Not modelled: columns with defaults or shapes, columns named `idx` or `table`, columns of arrays, tables
without `__columns__` (but for `addValues`), the other things that a `Data` object has.
-/

namespace Verif.Rows
open Verif

/-- A value in a row as stored (container.py:1523-1533) -/
inductive Cell where
  | int (n : Int)
  | flt (q : Rat)
  | str (s : String)
  | bool (b : Bool)
  deriving DecidableEq

/-- A value as given: a plain value, or a Row object, by its number. (container.py:1523-1533) -/
inductive Arg where
  | val (c : Cell)
  | row (r : Nat)
  deriving DecidableEq

/-- A column of `__columns__`: its name and which kinds of values its docval `type` takes.
(container.py:1450-1495; utils.py:42-110) -/
structure ColDef where
  name : String
  int : Bool := false
  flt : Bool := false
  str : Bool := false
  bool : Bool := false
  row : Bool := false
  deriving DecidableEq

/-- docval's check of one value against the type of a column (utils.py:42-110) -/
def ColDef.takes (c : ColDef) : Arg → Bool
  | .val (.int _) => c.int
  | .val (.flt _) => c.flt
  | .val (.str _) => c.str
  | .val (.bool _) => c.bool
  | .row _ => c.row

/-- A Row object: the attributes listed in `__keys`, `idx` and `table`.  A Row that could be constructed always has an
`idx`. (container.py:1356-1412) -/
structure RowObj where
  vals : Dict String Arg
  idx : Int
  table : Option Nat
  deriving DecidableEq

/-- A table of a class with `__columns__` and a Row class: whether its data are a list, the rows, and the cache of its
RowGetter. (container.py:1429-1440, 1497-1508) -/
structure Tbl where
  cols : List ColDef
  isList : Bool := true
  data : List (List Cell) := []
  cache : Dict Int Nat := []
  deriving DecidableEq

/-- The tables and the Row objects of a program (container.py:1341-1638) -/
structure World where
  tbls : List Tbl := []
  rows : List RowObj := []
  deriving DecidableEq

/-- the names of the columns, `Table.columns` (container.py:1510-1512) -/
def Tbl.names (T : Tbl) : List String := T.cols.map ColDef.name

/-- `v.idx if isinstance(v, Row) else v` (container.py:1531); there is no cell for a Row object that does not exist -/
def cellOf (rows : List RowObj) : Arg → Option Cell
  | .val c => some c
  | .row r => rows[r]?.map fun o => .int o.idx

/-- docval with one required argument per column, called with keyword arguments (container.py:1491-1493, utils.py:189-370):
TypeError for a column without a value, a value without a column and a value of another kind. -/
def binds (cols : List ColDef) (kw : Dict String Arg) : Bool :=
  (cols.all fun c => match Dict.get? kw c.name with | some v => c.takes v | none => false) &&
    kw.all fun p => cols.any fun c => c.name == p.1

/-- `[values[col] for col in self.columns]` and the replacement of Row objects (container.py:1530-1531): KeyError for a
column without a value -/
def rowOf (rows : List RowObj) (kw : Dict String Arg) : List String → Except Err (List Cell)
  | [] => .ok []
  | c :: cs => match Dict.get? kw c with
    | none => .error .keyError
    | some v => match cellOf rows v with
      | none => .error .unsupported
      | some x => match rowOf rows kw cs with
        | .error e => .error e
        | .ok xs => .ok (x :: xs)

/-- `Table.add_row(values)` (container.py:1514-1533) with the table replaced by the new one; returns the index of the row -/
def addValues (rows : List RowObj) (T : Tbl) (kw : Dict String Arg) : Except Err (Tbl × Int) :=
  if T.isList then
    match rowOf rows kw T.names with
    | .error e => .error e
    | .ok row => .ok ({ T with data := T.data ++ [row] }, T.data.length)
  else .error .valueError

/-- the generated `add_row(**kwargs)` of a class with `__columns__` (container.py:1489-1495) -/
def addRow (w : World) (t : Nat) (kw : Dict String Arg) : World × Except Err Int :=
  match w.tbls[t]? with
  | none => (w, .error .unsupported)
  | some T =>
    if binds T.cols kw then
      match addValues w.rows T kw with
      | .error e => (w, .error e)
      | .ok (T', i) => ({ w with tbls := w.tbls.set t T' }, .ok i)
    else (w, .error .typeError)

/-- The attributes of a new Row, in the order of the columns (container.py:1396-1405) -/
def attrsOf (cols : List ColDef) (kw : Dict String Arg) : Dict String Arg :=
  cols.filterMap fun c => (Dict.get? kw c.name).map fun v => (c.name, v)

/-- The constructor of the Row class that goes with columns `cols` (container.py:1387-1407) and the setter of `table`
(1373-1378): without `idx` the row is added to the table; without `idx` and table, `None.add_row` is an AttributeError.
Returns the number of the object. -/
def newRow (w : World) (cols : List ColDef) (kw : Dict String Arg) (table : Option Nat) (idx : Option Int) :
    World × Except Err Nat :=
  if binds cols kw then
    match idx with
    | some i => ({ w with rows := w.rows ++ [⟨attrsOf cols kw, i, table⟩] }, .ok w.rows.length)
    | none => match table with
      | none => (w, .error .attributeError)
      | some t => match addRow w t (attrsOf cols kw) with
        | (w', .error e) => (w', .error e)
        | (w', .ok i) => ({ w' with rows := w'.rows ++ [⟨attrsOf cols kw, i, some t⟩] }, .ok w'.rows.length)
  else (w, .error .typeError)

/-- `t.row[i]`, `RowGetter.__getitem__` (container.py:1434-1440): from the cache, or a new Row object made of the values of
row `i`, each checked against the type of its column. -/
def getRow (w : World) (t : Nat) (i : Int) : World × Except Err Nat :=
  match w.tbls[t]? with
  | none => (w, .error .unsupported)
  | some T => match Dict.get? T.cache i with
    | some r => (w, .ok r)
    | none => match pyGet T.data i with
      | .error e => (w, .error e)
      | .ok row =>
        if row.length = T.cols.length ∧ binds T.cols (T.names.zip (row.map Arg.val)) then
          ({ tbls := w.tbls.set t { T with cache := Dict.set T.cache i w.rows.length }
             rows := w.rows ++ [⟨attrsOf T.cols (T.names.zip (row.map Arg.val)), i, some t⟩] }, .ok w.rows.length)
        else (w, .error .typeError)

/-- `row.idx = i` (container.py:1361-1366): a Row object has an index from its construction on, so it is always refused. -/
def setIdx (w : World) (_r : Nat) (_i : Int) : World × Except Err Unit := (w, .error .valueError)

/-- `row.table = t` (container.py:1373-1378) of a Row that has an index; `None` changes nothing. -/
def setTable (w : World) (r : Nat) (t : Option Nat) : World × Except Err Unit :=
  match w.rows[r]? with
  | none => (w, .error .unsupported)
  | some o => match t with
    | none => (w, .ok ())
    | some t => ({ w with rows := w.rows.set r { o with table := some t } }, .ok ())

/-- `row.c = v`, a plain attribute (container.py:1401-1403): nothing is checked and the table is not told. -/
def setAttr (w : World) (r : Nat) (c : String) (v : Arg) : World × Except Err Unit :=
  match w.rows[r]? with
  | none => (w, .error .unsupported)
  | some o => ({ w with rows := w.rows.set r { o with vals := if Dict.has o.vals c then Dict.set o.vals c v else o.vals } }, .ok ())

/-- The calls that change tables or Row objects; `mk` constructs a table with data (container.py:1478-1487) -/
inductive Op where
  | mk (cols : List ColDef) (isList : Bool) (data : List (List Cell))
  | add (t : Nat) (kw : Dict String Arg)
  | new (cols : List ColDef) (kw : Dict String Arg) (table : Option Nat) (idx : Option Int)
  | get (t : Nat) (i : Int)
  | setIdx (r : Nat) (i : Int)
  | setTable (r : Nat) (t : Option Nat)
  | setAttr (r : Nat) (c : String) (v : Arg)

/-- the effect of one call; errors are caught by the caller (container.py:1341-1638) -/
def step (w : World) : Op → World
  | .mk cols l data => { w with tbls := w.tbls ++ [{ cols := cols, isList := l, data := data }] }
  | .add t kw => (addRow w t kw).1
  | .new cols kw t i => (newRow w cols kw t i).1
  | .get t i => (getRow w t i).1
  | .setIdx r i => (Rows.setIdx w r i).1
  | .setTable r t => (Rows.setTable w r t).1
  | .setAttr r c v => (Rows.setAttr w r c v).1

/-- any number of calls (container.py:1341-1638) -/
def run (w : World) (ops : List Op) : World := ops.foldl step w

/-- `t[i]` (container.py:1572-1573) -/
def Tbl.at (T : Tbl) (i : Int) : Except Err (List Cell) := pyGet T.data i

/-- `__col_index.get(name)`, built from all columns so that the last of equal names counts (container.py:1505) -/
def Tbl.colIndex (T : Tbl) (c : String) : Option Nat :=
  let n := T.names.reverse.idxOf c
  if n < T.names.length then some (T.names.length - 1 - n) else none

/-- `t[c, i]` (container.py:1558-1566): the row is looked up first; `row[None]` is a TypeError. -/
def Tbl.cell (T : Tbl) (c : String) (i : Int) : Except Err Cell :=
  match pyGet T.data i with
  | .error e => .error e
  | .ok row => match T.colIndex c with
    | none => .error .typeError
    | some k => pyGet row k

/-- `[row[col] for row in self.data]` (container.py:1571) -/
def colOf (k : Nat) : List (List Cell) → Except Err (List Cell)
  | [] => .ok []
  | row :: rest => match pyGet row k with
    | .error e => .error e
    | .ok x => match colOf k rest with
      | .error e => .error e
      | .ok xs => .ok (x :: xs)

/-- `t[c]` (container.py:1567-1571) -/
def Tbl.col (T : Tbl) (c : String) : Except Err (List Cell) :=
  match T.colIndex c with
  | none => .error .keyError
  | some k => colOf k T.data

/-- `row_val == value` (container.py:1550); a Row compares through `Row.__eq__` (1419-1420), which asks the stored value
for its `idx`: AttributeError.  Numbers of different kinds are equal if their values are. -/
def cellEq (x : Cell) : Arg → Except Err Bool
  | .row _ => .error .attributeError
  | .val y => .ok (match x, y with
    | .int a, .flt b => (a : Rat) == b
    | .flt a, .int b => a == (b : Rat)
    | .bool a, .int b => (if a then 1 else 0) == b
    | .int a, .bool b => a == (if b then 1 else 0)
    | .bool a, .flt b => (if a then (1 : Rat) else 0) == b
    | .flt a, .bool b => a == (if b then (1 : Rat) else 0)
    | x, y => x == y)

/-- the loop of `which` from row number `i` on (container.py:1546-1552) -/
def whichFrom (k : Nat) (v : Arg) (i : Nat) : List (List Cell) → Except Err (List Nat)
  | [] => .ok []
  | row :: rest => match pyGet row k with
    | .error e => .error e
    | .ok x => match cellEq x v with
      | .error e => .error e
      | .ok b => match whichFrom k v (i + 1) rest with
        | .error e => .error e
        | .ok is => .ok (if b then i :: is else is)

/-- `t.which(c=v)` (container.py:1535-1553) -/
def Tbl.which (T : Tbl) (c : String) (v : Arg) : Except Err (List Nat) :=
  match T.colIndex c with
  | none => .error .keyError
  | some k => whichFrom k v 0 T.data

/-- `row == other` (container.py:1419-1420) -/
def RowObj.eq (a b : RowObj) : Bool := a.idx == b.idx && a.table == b.table

/-! ## Data frames -/

/-- A data frame: the name and labels of the index, and the columns; each column is of one kind.  Distinct column names.
(container.py:1575-1638) -/
structure Frame where
  indexName : Option String := none
  index : List Cell
  cols : List (String × List Cell)
  deriving DecidableEq

/-- `float(n)` for a natural number: the nearest double, ties to even (used by pandas for `df.iterrows()`,
container.py:1628).  Overflow is left out. -/
def roundNat (n : Nat) : Nat :=
  if n < 2 ^ 53 then n
  else
    let e := n.log2 - 52
    let q := n / 2 ^ e
    let r := n % 2 ^ e
    let up := 2 * r > 2 ^ e ∨ (2 * r = 2 ^ e ∧ q % 2 = 1)
    (if up then q + 1 else q) * 2 ^ e

/-- `float(n)` (container.py:1628) -/
def toFloat : Int → Int
  | .ofNat n => roundNat n
  | .negSucc n => -(roundNat (n + 1) : Int)

/-- is the column of integers or of floats? (container.py:1628) -/
def numeric : Cell → Bool
  | .int _ | .flt _ => true
  | _ => false

/-- pandas makes one array of all columns for `iterrows`: if all are numbers and some column has floats, the integers become
floats; otherwise the values stay. (container.py:1628) -/
def mixed (df : Frame) : Bool :=
  (df.cols.all fun c => c.2.all numeric) && df.cols.any fun c => c.2.any fun x => match x with | .flt _ => true | _ => false

/-- A value as `iterrows` gives it (container.py:1628) -/
def iterCell (m : Bool) : Cell → Cell
  | .int n => if m then .flt (toFloat n) else .int n
  | x => x

/-- `row[colname] if colname != df.index.name else index` (container.py:1629-1636), for row `i` -/
def frameRow (df : Frame) (useIndex : Bool) (i : Nat) : List String → List Cell
  | [] => []
  | c :: cs =>
    (if useIndex ∧ df.indexName = some c then df.index[i]?.getD (.int 0)
     else iterCell (mixed df) (((Dict.get? df.cols c).bind fun l => l[i]?).getD (.int 0))) :: frameRow df useIndex i cs

/-- `len(missing_columns) == 1 and list(missing_columns)[0] == df.index.name` (container.py:1616-1617) -/
def indexIs : List String → Option String → Bool
  | [m], some n => m == n
  | _, _ => false

/-- `Table.from_dataframe(df, extra_ok)` (container.py:1583-1638) for a class with columns `cols`; TypeError if no name is
given and the class has no default name.  `extra_ok` is not looked at. -/
def fromFrame (cols : List ColDef) (hasName : Bool) (_extraOk : Bool) (df : Frame) : Except Err Tbl :=
  let names := cols.map ColDef.name
  let dfCols := df.cols.map Prod.fst
  let missing := names.filter fun c => !dfCols.contains c
  if dfCols.any fun c => !names.contains c then .error .valueError
  else
    let useIndex := indexIs missing df.indexName
    if !useIndex && !missing.isEmpty then .error .valueError
    else if hasName then
      .ok { cols := cols, data := (List.range df.index.length).map fun i => frameRow df useIndex i names }
    else .error .typeError

/-- `{colname: self[colname] for colname in self.columns}` (container.py:1579) -/
def framesOf (T : Tbl) : List String → Except Err (Dict String (List Cell))
  | [] => .ok []
  | c :: cs => match T.col c with
    | .error e => .error e
    | .ok l => match framesOf T cs with
      | .error e => .error e
      | .ok d => .ok ((c, l) :: d)

/-- `to_dataframe()` (container.py:1575-1580); the inference of dtypes is left out, column names distinct; a frame without
columns has no rows -/
def toFrame (T : Tbl) : Except Err Frame :=
  match framesOf T T.names with
  | .error e => .error e
  | .ok d => .ok { index := (List.range (if d.isEmpty then 0 else T.data.length)).map fun (i : Nat) => .int i, cols := d }

/-! ## Classes derived from Table -/

/-- What `__init__` or `add_row` of a class is: that of `Table`, or one generated for these columns.
(container.py:1464-1495) -/
inductive Method where
  | base
  | gen (cols : List ColDef)
  deriving DecidableEq

/-- A class: the `__columns__` it inherits or has, and `__init__`/`add_row` along its bases, nearest first
(container.py:1464-1495).  Classes with their own `__init__` or `add_row` and more than one base are not modelled. -/
structure Cls where
  columns : Option (List ColDef) := none
  chain : List Method := [.base]
  deriving DecidableEq

/-- `class C(B): __columns__ = own` or without it (container.py:1464-1495): if the class has columns, its own or inherited,
methods are generated for it, as it has inherited those of its base. -/
def derive (B : Cls) (own : Option (List ColDef)) : Cls :=
  match own.or B.columns with
  | none => { columns := none, chain := B.chain }
  | some cols => { columns := some cols, chain := .gen cols :: B.chain }

/-- a class given by the columns of the classes down from `Table` (container.py:1464-1495) -/
def clsOf (defs : List (Option (List ColDef))) : Cls := defs.foldl derive {}

/-- `C(name, data)` of a class with columns: the generated `__init__` calls that of the base with three positional arguments,
columns, name and data (container.py:1479-1485).  That of `Table` takes them; a generated one takes at most two: TypeError. -/
def construct (C : Cls) (data : List (List Cell)) : Except Err Tbl :=
  match C.chain with
  | .gen cols :: .base :: _ => .ok { cols := cols, data := data }
  | _ => .error .typeError

end Verif.Rows

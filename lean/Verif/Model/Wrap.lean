import Verif.Base.Py

/-!
# A `DataIO` used as its data

Model of the methods of `DataIO` (data_utils.py:1015-1151) that read and change the data, with `append_data` and `extend_data` (data_utils.py:20-69).

Simplifications.
* Elements are integers.  The data are a list, which others may hold too, a tuple, a numpy array in one or two dimensions, or an iterator over chunks.
* `InvalidDataIOError` is `runtimeError`.  Warnings are left out.
-/

namespace Verif.Wrap
open Verif

/-- what can be wrapped (data_utils.py:1003-1006): the list with this number, a tuple, an array in one or two dimensions, an iterator with the first entry of its `maxshape` -/
inductive Data where
  | list (i : Nat)
  | tuple (l : List Int)
  | arr (l : List Int)
  | arr2 (rows : List (List Int))
  | iter (max : Option Nat)
  deriving DecidableEq

/-- a `DataIO` (data_utils.py:1028-1030) -/
structure Io where
  data : Option Data
  dtype : Option String
  shape : Option (List Nat)
  deriving DecidableEq

/-- the lists and the `DataIO`s there are (data_utils.py:1028) -/
structure World where
  lists : Nat → List Int
  ios : Nat → Io

/-- `DataIO.__init__` (data_utils.py:1015-1030) -/
def new (data : Option Data) (dtype : Option String) (shape : Option (List Nat)) : Except Err Io :=
  match data with
  | none => if dtype.isNone != shape.isNone then .error .valueError else .ok ⟨none, dtype, shape⟩
  | some d => .ok ⟨some d, none, none⟩

/-- an element of the data: a number or a row (data_utils.py:1117-1121) -/
inductive Elem where
  | num (v : Int)
  | row (l : List Int)
  deriving DecidableEq

/-- `valid` (data_utils.py:1148-1151) -/
def valid (io : Io) : Bool := io.data.isSome

/-- `len(self.data)` (data_utils.py:1102) -/
def lenData (w : World) : Data → Except Err Nat
  | .list i => .ok (w.lists i).length
  | .tuple l => .ok l.length
  | .arr l => .ok l.length
  | .arr2 rows => .ok rows.length
  | .iter (some n) => .ok n
  | .iter none => .error .typeError

/-- `__len__`; `len()` refuses what is no number (data_utils.py:1094-1102) -/
def len (w : World) (io : Io) : Except Err Nat :=
  match io.shape with
  | some [] => .error .indexError
  | some (n :: _) => .ok n
  | none => match io.data with
    | none => .error .runtimeError
    | some d => lenData w d

/-- `__bool__` (data_utils.py:1104-1109) -/
def truth (w : World) (io : Io) : Except Err Bool :=
  match io.data with
  | none => .ok false
  | some (.iter _) => .ok true
  | some _ => match len w io with
    | .error e => .error e
    | .ok n => .ok (decide (n > 0))

/-- `__getitem__` for an index that is not negative; an iterator has no `__getitem__` (data_utils.py:1120-1124) -/
def get (w : World) (io : Io) (j : Nat) : Except Err Elem :=
  match io.data with
  | none => .error .runtimeError
  | some (.list i) => match (w.lists i)[j]? with | some v => .ok (.num v) | none => .error .indexError
  | some (.tuple l) => match l[j]? with | some v => .ok (.num v) | none => .error .indexError
  | some (.arr l) => match l[j]? with | some v => .ok (.num v) | none => .error .indexError
  | some (.arr2 rows) => match rows[j]? with | some r => .ok (.row r) | none => .error .indexError
  | some (.iter _) => .error .typeError

/-- the calls that change something: on a `DataIO`, or on a list by somebody else who holds it (data_utils.py:1040-1047, 1074-1078) -/
inductive Op where
  | setData (o : Nat) (d : Data)
  | append (o : Nat) (v : Int)
  | extend (o : Nat) (vs : List Int)
  | listAppend (i : Nat) (v : Int)

/-- a list gets elements at its end (data_utils.py:22-24, 53-55) -/
def pushList (w : World) (i : Nat) (vs : List Int) : World := { w with lists := fun j => if j = i then w.lists j ++ vs else w.lists j }

/-- `self.__data = …` (data_utils.py:1047, 1075, 1078) -/
def putData (w : World) (o : Nat) (d : Data) : World :=
  { w with ios := fun p => if p = o then ⟨some d, (w.ios p).dtype, (w.ios p).shape⟩ else w.ios p }

/-- `append_data` and what is then kept (data_utils.py:20-44, 1074-1075): a list is changed in place, for an array there is a new one; a number cannot be appended to an array in
two dimensions -/
def append (w : World) (o : Nat) (v : Int) : World × Except Err Unit :=
  match (w.ios o).data with
  | some (.list i) => (putData (pushList w i [v]) o (.list i), .ok ())
  | some (.arr l) => (putData w o (.arr (l ++ [v])), .ok ())
  | _ => (w, .error .valueError)

/-- `extend_data` and what is then kept (data_utils.py:47-69, 1077-1078): `np.vstack` makes rows of arrays in one dimension, which must be equally long -/
def extend (w : World) (o : Nat) (vs : List Int) : World × Except Err Unit :=
  match (w.ios o).data with
  | some (.list i) => (putData (pushList w i vs) o (.list i), .ok ())
  | some (.arr l) => if l.length = vs.length then (putData w o (.arr2 [l, vs]), .ok ()) else (w, .error .valueError)
  | some (.arr2 rows) => if rows.all (fun r => r.length == vs.length) then (putData w o (.arr2 (rows ++ [vs])), .ok ()) else (w, .error .valueError)
  | _ => (w, .error .valueError)

/-- the setter of `data` (data_utils.py:1040-1047) -/
def setData (w : World) (o : Nat) (d : Data) : World × Except Err Unit :=
  if (w.ios o).data.isSome then (w, .error .valueError)
  else if !((w.ios o).dtype.isNone && (w.ios o).shape.isNone) then (w, .error .valueError)
  else (putData w o d, .ok ())

/-- one call (data_utils.py:1040-1047, 1074-1078) -/
def step (w : World) : Op → World × Except Err Unit
  | .setData o d => setData w o d
  | .append o v => append w o v
  | .extend o vs => extend w o vs
  | .listAppend i v => (pushList w i [v], .ok ())

/-- a history, in which errors are caught (data_utils.py:1040-1078) -/
def run (w : World) (ops : List Op) : World := ops.foldl (fun w op => (step w op).1) w

end Verif.Wrap

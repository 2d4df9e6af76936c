import Verif.Base.Py

/-!
# The identifiers of the rows of a table

Model of `ElementIdentifiers` (common/table.py:205-252) as a `Data` that is created, appended to and extended (container.py:884-996; data_utils.py:20-69), and of reading
the identifiers of a file.

Simplifications.
* An HDF5 dataset has the dtype and the values that were written; its dtype does not change.
* Arrays have one dimension.  Integers are not too large for their dtype.
* Term set wrappers, `DataIO` and Zarr arrays are not modelled.
-/

namespace Verif.Ids
open Verif

/-- an element: an `int`, a `bool`, scalars of NumPy, a float, a text, a list (utils.py:29-39) -/
inductive Elem where
  | int (i : Int)
  | bool (b : Bool)
  | npInt (i : Int)
  | npUint (n : Nat)
  | npBool (b : Bool)
  | float (i : Int)
  | text (s : String)
  | list
  deriving DecidableEq, Repr

/-- `check_type(arg, int)`: `bool` is a subclass of `int`, the unsigned scalars are not in the list (utils.py:31, 139-140) -/
def isInt : Elem → Bool
  | .int _ => true
  | .bool _ => true
  | .npInt _ => true
  | _ => false

/-- the dtype of an array (common/table.py:243-245) -/
inductive Dt where
  | int
  | uint
  | uint64
  | float
  | bool
  deriving DecidableEq, Repr

/-- `arr[i]` (common/table.py:246-247) -/
def Dt.elem : Dt → Int → Elem
  | .int, i => .npInt i
  | .uint, i => .npUint i.toNat
  | .uint64, i => .npUint i.toNat
  | .float, i => .float i
  | .bool, i => .npBool (decide (i ≠ 0))

/-- the data: a list, a tuple, an array, a dataset of a file, or an iterator over chunks (common/table.py:213-218) -/
inductive Src where
  | list (l : List Elem)
  | tuple (l : List Elem)
  | array (dt : Dt) (l : List Int)
  | h5 (dt : Dt) (l : List Int)
  | iter (dt : Dt) (l : List Int)
  deriving DecidableEq, Repr

/-- the elements (container.py:973-982) -/
def Src.elems : Src → List Elem
  | .list l => l
  | .tuple l => l
  | .array dt l => l.map dt.elem
  | .h5 dt l => l.map dt.elem
  | .iter dt l => l.map dt.elem

/-- `np.issubdtype(dtype, np.integer)` (common/table.py:244) -/
def Dt.integer : Dt → Bool
  | .int => true
  | .uint => true
  | .uint64 => true
  | _ => false

/-- `_validate_new_data_element` (common/table.py:249-252) -/
def validateElem (e : Elem) : Except Err Unit := if isInt e then .ok () else .error .valueError

/-- `len(data)` and `data[0]` (common/table.py:246-247) -/
def validateFirst : List Elem → Except Err Unit
  | [] => .ok ()
  | e :: _ => validateElem e

/-- `_validate_new_data`: the dtype of an iterator, the first element of other data (common/table.py:240-247) -/
def validate : Src → Except Err Unit
  | .iter dt _ => if dt.integer then .ok () else .error .valueError
  | s => validateFirst s.elems

/-- `ElementIdentifiers(data=s)` (common/table.py:217-218; container.py:884-889) -/
def new (s : Src) : Except Err Src := match validate s with
  | .error e => .error e
  | .ok () => .ok s

/-- the value of an element that passed as an integer (data_utils.py:31-32) -/
def value : Elem → Int
  | .int i => i
  | .bool b => if b then 1 else 0
  | .npInt i => i
  | .npUint n => n
  | .npBool b => if b then 1 else 0
  | .float i => i
  | .text _ => 0
  | .list => 0

/-- the dtype of `np.append` of an integer (data_utils.py:31-32) -/
def Dt.withInt : Dt → Dt
  | .int => .int
  | .uint => .int
  | .uint64 => .float
  | .float => .float
  | .bool => .int

/-- `append` (container.py:984-986; data_utils.py:20-44) -/
def append (s : Src) (e : Elem) : Except Err Src := match validateElem e with
  | .error x => .error x
  | .ok () => match s with
    | .list l => .ok (.list (l ++ [e]))
    | .array dt l => .ok (.array dt.withInt (l ++ [value e]))
    | .h5 dt l => .ok (.h5 dt (l ++ [value e]))
    | .tuple _ => .error .valueError
    | .iter _ _ => .error .valueError

/-- what iterating yields: the elements; an iterator yields a chunk, which is not an element (data_utils.py:53-55; taken to be one chunk) -/
def items : Src → List Elem
  | .iter _ _ => [.list]
  | s => s.elems

/-- `extend` of a list: the elements of lists, tuples, arrays and datasets; other data are not extended here (container.py:988-996; data_utils.py:47-69) -/
def extend (s arg : Src) : Except Err Src := match validate arg with
  | .error x => .error x
  | .ok () => match s with
    | .list l => .ok (.list (l ++ items arg))
    | .tuple _ => .error .valueError
    | _ => .error .unsupported

/-- an operation on identifiers (container.py:984-996) -/
inductive Op where
  | append (e : Elem)
  | extend (s : Src)

/-- what is left when an operation fails: the same identifiers (container.py:984-996) -/
def step (s : Src) : Op → Src
  | .append e => (append s e).toOption.getD s
  | .extend a => (extend s a).toOption.getD s

/-- a sequence of operations (container.py:984-996) -/
def run (s : Src) (ops : List Op) : Src := ops.foldl step s

/-- write the identifiers and read them: the dataset has the kind of dtype of what was written; a list has that of its first element
(common/table.py:217-218; build/objectmapper.py:133-139, 301-319) -/
def reread : Src → Except Err Src
  | .array dt l => new (.h5 dt l)
  | .h5 dt l => new (.h5 dt l)
  | .iter dt l => new (.h5 dt l)
  | .list l => new (.h5 .int (l.map value))
  | .tuple l => new (.h5 .int (l.map value))

end Verif.Ids

import Verif.Base.Py

/-!
# Model of wrappers that hand over attributes to what they wrap

`DataChunk` (data_utils.py:755-801), `DataIO` (data_utils.py:1062-1118), `TermSetWrapper` (term_set.py:209-270), `StrDataset`
(utils.py:1142-1152) and `CSRMatrix` (common/sparse.py:49-54) define `__getattr__`, which Python calls for attributes that are not found
otherwise.  Of an object only the names of its attributes are modelled, not their values.  That `copy.copy`, `copy.deepcopy` and `pickle`
look for the methods named here, and where, is taken from the standard library and not from this repository.
-/

namespace Verif.Delegate
open Verif

/-- how it may end to get an attribute (data_utils.py:774-776, 1111-1118) -/
inductive Fail
  | missing
  | invalid
  | recursion
  deriving DecidableEq, Repr

/-- an object (data_utils.py:762-776, 1027-1030, term_set.py:222-226, utils.py:1145-1150).  `attrs` are the attributes that its class
has; `field` is the one that holds what is wrapped.
* `plain`: not a wrapper
* `wrap`: a wrapper after `__init__`
* `empty`: a `DataIO` without data
* `blank`: a wrapper for which `__init__` was not called, so that `field` is not set -/
inductive Obj
  | plain (attrs : List String)
  | wrap (attrs : List String) (field : String) (inner : Obj)
  | empty (attrs : List String)
  | blank (attrs : List String) (field : String)

/-- `getattr(o, a)`: how many objects down the attribute is found (data_utils.py:774-776, 1111-1118, term_set.py:265-270,
utils.py:1151-1152, common/sparse.py:49-51).  The number is the limit of Python on calls in calls.  A `DataIO` that is `blank` looks for
`valid` first, which looks for the field. -/
def get : Nat → Obj → String → Except Fail Nat
  | 0, _, _ => .error .recursion
  | _ + 1, .plain attrs, a => if a ∈ attrs then .ok 0 else .error .missing
  | n + 1, .wrap attrs field inner, a => if a ∈ attrs ∨ a = field then .ok 0 else (get n inner a).map (· + 1)
  | _ + 1, .empty attrs, a => if a ∈ attrs then .ok 0 else .error .invalid
  | n + 1, .blank attrs field, a => if a ∈ attrs then .ok 0 else get n (.blank attrs field) field

/-- `hasattr(o, a)`: only an AttributeError means that there is none (as called in data_utils.py:1135) -/
def has (n : Nat) (o : Obj) (a : String) : Except Fail Bool :=
  match get n o a with
  | .ok _ => .ok true
  | .error .missing => .ok false
  | .error e => .error e

/-- the attributes of the class of an object (data_utils.py:755, 997, term_set.py:209) -/
def Obj.attrs : Obj → List String
  | .plain as => as
  | .wrap as _ _ => as
  | .empty as => as
  | .blank as _ => as

/-- a new object of the same class without a call of `__init__` (the fields of data_utils.py:768, 1027-1030, term_set.py:223-225 are not
set).  It is given its state by `__setstate__` if it has that, and otherwise the fields are set. -/
def reconstruct (n : Nat) : Obj → Except Fail Nat
  | .wrap as f _ => (has n (.blank as f) "__setstate__").map fun _ => 0
  | .blank as f => (has n (.blank as f) "__setstate__").map fun _ => 0
  | _ => .ok 0

/-- `copy.copy(o)`: `__copy__` of the class, or a new object with the same fields (data_utils.py:778-781, 1062-1072); the result says of
which object, counted downwards, this is a copy -/
def shallow (n : Nat) (o : Obj) : Except Fail Nat :=
  if "__copy__" ∈ o.attrs then .ok 0 else reconstruct n o

/-- `copy.deepcopy(o)`: `__deepcopy__` of the object, also if it is that of what is wrapped, or a new object
(data_utils.py:783-787, 1079-1093; term_set.py:265-270) -/
def deep (n : Nat) (o : Obj) : Except Fail Nat :=
  match get n o "__deepcopy__" with
  | .ok k => .ok k
  | .error .missing => reconstruct n o
  | .error e => .error e

end Verif.Delegate

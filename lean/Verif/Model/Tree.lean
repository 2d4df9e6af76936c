import Verif.Base.Py

/-!
# Model of the container tree (container.py:280-560, 600-623)

Objects are numbered in order of creation (their identity).  `Container` and `Data` objects are told apart by `isCont`.
Python's recursion limit is modelled only for infinite recursion: `set_modified` on a cyclic chain raises RecursionError
(`runtimeError`); on a finite chain it always succeeds.  Not modelled: `_validate_on_set_parent` (warnings only), object ids.
-/

namespace Verif.Tree
open Verif

/-- The value of `__parent`: `None`, a container, or a `Proxy`; of a proxy the identity and the containers it matches.
(container.py:502-536; build/manager.py:15-81) -/
inductive Par
  | none
  | cont (n : Nat)
  | proxy (id : Nat) (matched : List Nat)
  deriving DecidableEq, Repr

/-- container.py:280-300: the attributes set by `__new__`.  `dtype` is the data type of its class.  `eqClass`: for classes that
define `__eq__` by content (`DynamicTable`, `ElementIdentifiers`), equal objects have equal numbers; `none` for identity. -/
structure Node where
  isCont : Bool := true
  dtype : Nat := 0
  eqClass : Option Nat := none
  parent : Par := .none
  children : List Nat := []
  modified : Bool := true
  deriving DecidableEq, Repr

/-- All objects: those numbered below `size` exist. (container.py:280-300) -/
structure World where
  size : Nat
  node : Nat → Node

/-- no objects yet (container.py:280-300) -/
def World.empty : World := ⟨0, fun _ => {}⟩

/-- assignment to attributes of object `n` (container.py:280-300) -/
def World.upd (w : World) (n : Nat) (f : Node → Node) : World :=
  { w with node := fun m => if m = n then f (w.node n) else w.node m }

/-- `__new__`, container.py:280-300 -/
def World.new (w : World) (isCont : Bool) (dtype : Nat) (eqClass : Option Nat) : World :=
  { size := w.size + 1, node := fun m => if m = w.size then { isCont, dtype, eqClass } else w.node m }

/-- `isinstance(x.parent, Container)` and which (container.py:369-381, 459-464) -/
def World.contParent (w : World) (n : Nat) : Option Nat :=
  match (w.node n).parent with
  | .cont p => if (w.node p).isCont then some p else none
  | _ => none

/-- container.py:459-463 `set_modified(True)`; `fuel` bounds the recursion depth -/
def markUp : Nat → World → Nat → World × Except Err Unit
  | 0, w, _ => (w, .error .runtimeError)
  | k + 1, w, n =>
    let w1 := w.upd n fun x => { x with modified := true }
    match w.contParent n with
    | some p => markUp k w1 p
    | none => (w1, .ok ())

/-- container.py:459-463 `set_modified(modified)`.  A chain longer than the number of objects is infinite. -/
def setModified (w : World) (n : Nat) (modified : Bool) : World × Except Err Unit :=
  if modified then markUp w.size w n
  else (w.upd n fun x => { x with modified := false }, .ok ())

/-- container.py:524-526 and 530-533: set the parent, append to its children, mark it as modified -/
def attach (w : World) (x c : Nat) : World × Except Err Unit :=
  let w1 := w.upd x fun n => { n with parent := .cont c }
  let w2 := w1.upd c fun n => { n with children := n.children ++ [x] }
  setModified w2 c true

/-- container.py:509-536 the `parent` setter.  Assigning a proxy over a proxy is not modelled. -/
def setParent (w : World) (x : Nat) (p : Par) : World × Except Err Unit :=
  if (w.node x).parent = p then (w, .ok ())
  else match (w.node x).parent with
    | .cont _ => (w, .error .valueError)
    | .proxy _ matched => match p with
      | .none => (w, .error .valueError)
      | .cont c => if c ∈ matched then attach w x c else (w, .ok ())   -- add_candidate
      | .proxy _ _ => (w, .error .unsupported)
    | .none => match p with
      | .cont c =>
        if (w.node c).isCont then attach w x c
        else (w.upd x fun n => { n with parent := .cont c }, .ok ())
      | p => (w.upd x fun n => { n with parent := p }, .ok ())

/-- `a == b` (container.py:538-548; common/table.py:229-238, 722-729) -/
def pyEq (w : World) (a b : Nat) : Bool :=
  a == b || ((w.node a).eqClass.isSome && (w.node a).eqClass == (w.node b).eqClass)

/-- container.py:538-548 `_remove_child` -/
def removeChild (w : World) (c x : Nat) : World × Except Err Unit :=
  if (w.node c).children.any (fun y => pyEq w y x) then
    let w1 := w.upd x fun n => { n with parent := .none }
    let w2 := w1.upd c fun n => { n with children := n.children.eraseP (fun y => pyEq w y x) }
    let r := setModified w2 x true
    match r.2 with
    | .error e => (r.1, .error e)
    | .ok _ => setModified r.1 c true
  else (w, .error .valueError)

/-- container.py:550-560 `reset_parent` -/
def resetParent (w : World) (x : Nat) : World × Except Err Unit :=
  match (w.node x).parent with
  | .none => (w, .ok ())
  | .cont c => removeChild w c x
  | .proxy _ _ => (w, .error .valueError)

/-- container.py:471-482 the deprecated `add_child`; docval demands a `Container`. -/
def addChild (w : World) (c x : Nat) : World × Except Err Unit :=
  if (w.node x).isCont then
    match (w.node x).parent with
    | .cont _ => (w, .ok ())
    | _ => setParent w x (.cont c)
  else (w, .error .typeError)

/-- container.py:600-623: what setting a field declared with `child: True` to one object, and likewise
`MultiContainerInterface.add_*` (1170-1177), does to the tree -/
def setField (w : World) (c x : Nat) : World × Except Err Unit :=
  match w.contParent x with
  | some _ => setModified w c true
  | none => setParent w x (.cont c)

/-- public operations (histories of the calls modelled from container.py:280-560) -/
inductive Op
  | new (isCont : Bool) (dtype : Nat) (eqClass : Option Nat)
  | setParent (x : Nat) (p : Par)
  | removeChild (c x : Nat)
  | resetParent (x : Nat)
  | addChild (c x : Nat)
  | setField (c x : Nat)
  | setModified (x : Nat) (b : Bool)
  deriving DecidableEq, Repr

/-- the objects an operation mentions (histories of the calls modelled from container.py:280-560) -/
def Op.args : Op → List Nat
  | .new _ _ _ => []
  | .setParent x (.cont c) => [x, c]
  | .setParent x _ => [x]
  | .removeChild c x => [c, x]
  | .resetParent x => [x]
  | .addChild c x => [c, x]
  | .setField c x => [c, x]
  | .setModified x _ => [x]

/-- The object an operation may make a parent (histories of the calls modelled from container.py:280-560) -/
def Op.newParent : Op → Option Nat
  | .setParent _ (.cont c) => some c
  | .addChild c _ => some c
  | .setField c _ => some c
  | _ => none

/-- one operation; operations on objects that do not exist are not possible
(histories of the calls modelled from container.py:280-560) -/
def step (w : World) (op : Op) : World × Except Err Unit :=
  if op.args.any (fun n => decide (w.size ≤ n)) then (w, .error .unsupported)
  else match op with
    | .new a b c => (w.new a b c, .ok ())
    | .setParent x p => setParent w x p
    | .removeChild c x => removeChild w c x
    | .resetParent x => resetParent w x
    | .addChild c x => addChild w c x
    | .setField c x => setField w c x
    | .setModified x b => setModified w x b

/-- any history: errors are caught and the program goes on (histories of the calls modelled from container.py:280-560) -/
def run (w : World) : List Op → World
  | [] => w
  | op :: ops => run (step w op).1 ops

/-- a history in which every call succeeds (histories of the calls modelled from container.py:280-560) -/
def runOk (w : World) : List Op → Option World
  | [] => some w
  | op :: ops => match step w op with
    | (w', .ok _) => runOk w' ops
    | (_, .error _) => none

/-- container.py:415-421 `get_ancestors` -/
def ancestorsFrom : Nat → World → Par → Except Err (List Nat)
  | _, _, .none => .ok []
  | _, _, .proxy _ _ => .error .attributeError
  | 0, _, .cont _ => .error .runtimeError                     -- does not terminate
  | k + 1, w, .cont p => match ancestorsFrom k w (w.node p).parent with
    | .error e => .error e
    | .ok l => .ok (p :: l)

/-- container.py:415-421 `get_ancestors` -/
def getAncestors (w : World) (x : Nat) : Except Err (List Nat) := ancestorsFrom w.size w (w.node x).parent

/-- container.py:369-381 `get_ancestor(data_type)` -/
def ancestorFrom : Nat → World → Nat → Par → Except Err (Option Nat)
  | _, _, _, .none => .ok none
  | _, _, _, .proxy _ _ => .error .attributeError
  | 0, _, _, .cont _ => .error .runtimeError
  | k + 1, w, t, .cont p =>
    if (w.node p).dtype = t then .ok (some p) else ancestorFrom k w t (w.node p).parent

/-- container.py:369-381 `get_ancestor(data_type)` -/
def getAncestor (w : World) (x t : Nat) : Except Err (Option Nat) := ancestorFrom w.size w t (w.node x).parent

/-- container.py:383-405 `all_children`: the loop over the stack (last pushed first) -/
def allLoop (w : World) : Nat → List Nat → List Nat → Except Err (List Nat)
  | _, [], ret => .ok ret
  | 0, _ :: _, _ => .error .runtimeError
  | k + 1, n :: stack, ret => allLoop w k ((w.node n).children.reverse ++ stack) (ret ++ [n])

/-- container.py:383-405 `all_children` -/
def allChildren (w : World) (n : Nat) : Except Err (List Nat) := allLoop w w.size [n] []

end Verif.Tree

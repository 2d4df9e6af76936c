import Verif.Model.Tree

/-!
# Model of object ids and of `all_objects` (container.py:280-312, 383-412, 436-451)

The tree is that of `Verif.Tree`.  Object ids are numbers.  `uuid4` is taken to give an id that has never been seen: `next` is
above every id that was generated or read.  `generate_new_id` with `recurse=True` is the sequence of the calls with
`recurse=False` on the object and its descendants; that it marks them as modified is in `Verif.Changes`.
-/

namespace Verif.AllObj
open Verif

/-- The tree, `__object_id` and `__obj` of every object, and the next uuid (container.py:280-312) -/
structure St where
  w : Tree.World
  oid : Nat → Option Nat
  next : Nat
  obj : Nat → Option (Dict Nat Nat)

/-- no objects yet (container.py:280-312) -/
def St.empty : St := ⟨Tree.World.empty, fun _ => none, 0, fun _ => none⟩

/-- assignment to one place of a table of attributes (container.py:280-312) -/
def upd {α : Type} (f : Nat → α) (n : Nat) (a : α) : Nat → α := fun m => if m = n then a else f m

/-- container.py:449: `self.__object_id = str(uuid4())` -/
def newId (s : St) (n : Nat) : St := { s with oid := upd s.oid n (some s.next), next := s.next + 1 }

/-- container.py:436-440 `object_id`: generated when it is first asked for -/
def objectId (s : St) (n : Nat) : St × Nat :=
  match s.oid n with
  | some i => (s, i)
  | none => (newId s n, s.next)

/-- utils.py:1067-1082 `LabelledDict.__setitem__`, whose key is the attribute `object_id` of the value -/
def setItem (d : Dict Nat Nat) (i n : Nat) : Except Err (Dict Nat Nat) :=
  if d.has i then .error .typeError else .ok (d.set i n)

/-- container.py:393-404: the loop over the stack (the first of the list is popped first).  An id that is already in the
dictionary raises TypeError and leaves the dictionary as it is then. -/
def objLoop : Nat → St → Dict Nat Nat → List Nat → List Nat → St × Dict Nat Nat × Except Err (List Nat)
  | _, s, d, [], ret => (s, d, .ok ret)
  | 0, s, d, _ :: _, _ => (s, d, .error .runtimeError)         -- does not terminate
  | k + 1, s, d, n :: stack, ret =>
    match setItem d (objectId s n).2 n with
    | .error e => ((objectId s n).1, d, .error e)
    | .ok d' => objLoop k (objectId s n).1 d' ((s.w.node n).children.reverse ++ stack) (ret ++ [n])

/-- container.py:383-405 `all_children`: it replaces `__obj` before it starts.  Nothing looks at `__obj` during the loop, so the
assignment is made at the end here, also when the loop raises. -/
def allChildren (s : St) (n : Nat) : St × Except Err (List Nat) :=
  let r := objLoop (s.w.size + 1) s [] [n] []
  ({ r.1 with obj := upd r.1.obj n (some r.2.1) }, r.2.2)

/-- container.py:407-412 `all_objects` -/
def allObjects (s : St) (n : Nat) : St × Except Err (Dict Nat Nat) :=
  match s.obj n with
  | some d => (s, .ok d)
  | none =>
    match (allChildren s n).2 with
    | .error e => ((allChildren s n).1, .error e)
    | .ok _ => ((allChildren s n).1, .ok (((allChildren s n).1.obj n).getD []))

/-- container.py:280-300: `__new__` with the id that was read from a file -/
def load (s : St) (isCont : Bool) (dtype : Nat) (eqClass : Option Nat) (i : Nat) : St :=
  { s with w := s.w.new isCont dtype eqClass
           oid := upd s.oid s.w.size (some i)
           next := max s.next (i + 1) }

/-- what a program does (histories of the calls modelled from container.py:280-451) -/
inductive Op
  | tree (op : Tree.Op)
  | load (isCont : Bool) (dtype : Nat) (eqClass : Option Nat) (i : Nat)
  | objectId (n : Nat)
  | newId (n : Nat)
  | allChildren (n : Nat)
  | allObjects (n : Nat)

/-- one call; a call that raises is caught (histories of the calls modelled from container.py:280-451) -/
def step (s : St) : Op → St
  | .tree op => { s with w := (Tree.step s.w op).1 }
  | .load a b c i => load s a b c i
  | .objectId n => (AllObj.objectId s n).1
  | .newId n => AllObj.newId s n
  | .allChildren n => (AllObj.allChildren s n).1
  | .allObjects n => (AllObj.allObjects s n).1

/-- a history (histories of the calls modelled from container.py:280-451) -/
def run (s : St) : List Op → St
  | [] => s
  | op :: ops => run (step s op) ops

end Verif.AllObj

import Verif.Model.Tree

/-!
# The I/O object that a container was read with

Model of `read_io`, its setter and `get_read_io` (container.py:309, 312-359), over the tree of containers.

Simplification: the end of an object, which forgets its I/O object (container.py:272-278), is not modelled.
-/

namespace Verif.ReadIo
open Verif Verif.Tree

/-- the containers and the I/O object of each, if there is one (container.py:309) -/
structure State where
  w : World
  io : Nat → Option Nat

/-- no containers (container.py:309) -/
def State.empty : State := ⟨World.empty, fun _ => none⟩

/-- a value that may be assigned: an I/O object, or something else (container.py:335) -/
inductive Value where
  | io (n : Nat)
  | other
  deriving DecidableEq

/-- `container.read_io = value` (container.py:323-341) -/
def setIo (s : State) (x : Nat) : Value → State × Except Err Unit
  | .other => (s, .error .typeError)
  | .io v => if s.io x ≠ none ∧ s.io x ≠ some v then (s, .error .valueError) else (⟨s.w, fun y => if y = x then some v else s.io y⟩, .ok ())

/-- the loop of `get_read_io` from a container on; a proxy has no `read_io`; without bound the loop does not end (container.py:353-359) -/
def getFrom : Nat → State → Nat → Except Err (Option Nat)
  | k, s, x => match s.io x with
    | some v => .ok (some v)
    | none => match (s.w.node x).parent with
      | .none => .ok none
      | .proxy _ _ => .error .attributeError
      | .cont p => match k with
        | 0 => .error .runtimeError
        | k + 1 => getFrom k s p

/-- `get_read_io` (container.py:343-359) -/
def getReadIo (s : State) (x : Nat) : Except Err (Option Nat) := getFrom s.w.size s x

/-- a call: one that concerns parents, or an assignment of an I/O object (container.py:280-560) -/
inductive Op where
  | tree (op : Tree.Op)
  | setIo (x : Nat) (v : Value)

/-- one call (container.py:280-560) -/
def step (s : State) : Op → State × Except Err Unit
  | .tree op => (⟨(Tree.step s.w op).1, s.io⟩, (Tree.step s.w op).2)
  | .setIo x v => if s.w.size ≤ x then (s, .error .unsupported) else setIo s x v

/-- any history: errors are caught and the program goes on (container.py:280-560) -/
def run (s : State) : List Op → State
  | [] => s
  | op :: ops => run (step s op).1 ops

end Verif.ReadIo

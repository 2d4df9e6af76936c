import Verif.Base.Py

/-!
# Model of the check for tables that are not in the file (container.py, common/table.py)

When a container is given a parent, each `DynamicTableRegion` among its children warns if its table has no ancestor in common with it.
Containers are numbers.  Not modelled: parents that are a `Proxy` or None, flags of modification (Tree, Changes), `reset_parent`.
A walk along parents is given a number of steps; a walk that does not end (a cycle of parents) is a `runtimeError`.
-/

namespace Verif.Orphan
open Verif

/-- the containers (container.py:280-300, 466-512; common/table.py:1375-1398) -/
structure World where
  parent : Nat → Option Nat
  children : Nat → List Nat
  /-- `container_source` is not None: the container was read from, or written to, a file -/
  source : Nat → Bool
  /-- for a `DynamicTableRegion`, its table if it is set -/
  region : Nat → Option (Option Nat)

/-- container.py:414-421 `get_ancestors` -/
def ancestors (w : World) : Nat → Nat → Option (List Nat)
  | n, c => match w.parent c with
    | none => some []
    | some p => match n with
      | 0 => none
      | n + 1 => (ancestors w n p).map (p :: ·)

/-- common/table.py:1526-1530: is the table, or one of its ancestors, in a file? -/
def fromFile (w : World) : Nat → Option Nat → Option Bool
  | _, none => some false
  | 0, some _ => none
  | n + 1, some p => if w.source p then some true else fromFile w n (w.parent p)

/-- container.py:562-568 and common/table.py:1523-1541 `_validate_on_set_parent`: whether there is a warning -/
def validate (w : World) (n : Nat) (r : Nat) : Except Err Bool :=
  match w.region r with
  | none => .ok false
  | some tbl => match fromFile w n tbl with
    | none => .error .runtimeError
    | some true => .ok false
    | some false => match tbl with
      | none => .error .attributeError
      | some u => match ancestors w n u, ancestors w n r with
        | some a, some b => .ok (a.all fun x => !b.contains x)
        | _, _ => .error .runtimeError

/-- container.py:534-536: the regions that warn, in the order of the children, and the exception that ends the loop -/
def validateAll (w : World) (n : Nat) : List Nat → List Nat × Except Err Unit
  | [] => ([], .ok ())
  | r :: rs => match validate w n r with
    | .error e => ([], .error e)
    | .ok b =>
      let (ws, res) := validateAll w n rs
      (if b then r :: ws else ws, res)

/-- container.py:529-532: the parent and the children are set -/
def place (w : World) (c p : Nat) : World :=
  { w with
    parent := fun x => if x = c then some p else w.parent x
    children := fun x => if x = p then w.children x ++ [c] else w.children x }

/-- container.py:509-536 the setter of `parent` -/
def setParent (w : World) (n : Nat) (c p : Nat) : World × List Nat × Except Err Unit :=
  if w.parent c = some p then (w, [], .ok ())
  else if (w.parent c).isSome then (w, [], .error .valueError)
  else
    let w' := place w c p
    (w', validateAll w' n (w'.children c))

/-- common/table.py:1380-1398 the setter of `table` -/
def setTable (w : World) (r : Nat) (u : Nat) : World × Except Err Unit :=
  match w.region r with
  | some none => ({ w with region := fun x => if x = r then some (some u) else w.region x }, .ok ())
  | _ => (w, .error .attributeError)

/-- what a user does with containers: give a parent, give a table to a region (container.py:509-536, common/table.py:1380-1398) -/
inductive Op
  | parent (c p : Nat)
  | table (r u : Nat)

/-- one step (container.py:509-536, common/table.py:1380-1398) -/
def step (n : Nat) (w : World) : Op → World
  | .parent c p => (setParent w n c p).1
  | .table r u => (setTable w r u).1

/-- a history (container.py:509-536, common/table.py:1380-1398) -/
def run (n : Nat) (w : World) (ops : List Op) : World := ops.foldl (step n) w

end Verif.Orphan

import Verif.Model.Catalog
import Verif.Model.Namespace

/-!
# The tree of all types of a catalog

Model of `SpecCatalog.get_full_hierarchy` (spec/catalog.py:135-160) on top of `Verif.Catalog`.

Simplifications.
* The specs of the catalog are specs of groups and datasets, as in `Verif.Catalog`.
* The depth of the recursion is bounded by the number of specs; the bound of the interpreter is not modelled.
-/

namespace Verif.TypeTree
open Verif Verif.Catalog

/-- nested dicts of types (spec/catalog.py:144-151) -/
inductive Tree where
  | node (kids : List (String × Tree))

/-- the dict of a tree (spec/catalog.py:147-151) -/
def Tree.kids : Tree → List (String × Tree)
  | .node k => k

/-- what is found along a path of keys (spec/catalog.py:135-160: how the result is used) -/
def sub : Tree → List String → Option Tree
  | t, [] => some t
  | t, k :: ks => match Dict.get? t.kids k with
    | none => none
    | some t' => sub t' ks

/-- the loop over the direct subtypes (spec/catalog.py:149-150) -/
def kidsLoop (rec : String → Except Err Tree) : Dict String Tree → List String → Except Err (Dict String Tree)
  | d, [] => .ok d
  | d, x :: xs => match rec x with
    | .error e => .error e
    | .ok t => kidsLoop rec (Dict.set d x t) xs

/-- `get_type_hierarchy` (spec/catalog.py:147-151) with the recursion depth bounded -/
def typeHier (c : Cat) : Nat → String → Except Err Tree
  | 0, _ => .error .runtimeError
  | n + 1, t => match getSubtypes c false t with
    | .error e => .error e
    | .ok l => match kidsLoop (typeHier c n) [] (Namespace.sorted l) with
      | .error e => .error e
      | .ok d => .ok (.node d)

/-- the loop over the registered types (spec/catalog.py:154-158) -/
def rootLoop (c : Cat) : Dict String Tree → List String → Except Err (Dict String Tree)
  | d, [] => .ok d
  | d, rt :: rts => match getSpec c rt with
    | none => rootLoop c d rts
    | some sp => match sp.inc with
      | some _ => rootLoop c d rts
      | none => match typeHier c (c.specs.length + 1) rt with
        | .error e => .error e
        | .ok t => rootLoop c (Dict.set d rt t) rts

/-- `get_full_hierarchy` (spec/catalog.py:135-160) -/
def fullHier (c : Cat) : Except Err Tree := match rootLoop c [] (Namespace.sorted (types c)) with
  | .error e => .error e
  | .ok d => .ok (.node d)

end Verif.TypeTree

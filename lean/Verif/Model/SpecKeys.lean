import Verif.Base.Py

/-!
# Model of loading specs whose type keys are those of another spec language (spec/namespace.py:373-432)

A project may use its own spec classes, with other keys than `data_type_def` and `data_type_inc`.  Of a spec only the dictionary and the
specs below it, groups and then datasets, are modelled; groups and datasets of a project have the same keys.
-/

namespace Verif.SpecKeys
open Verif

/-- a value in a spec dictionary: a string, or the spec that a type was replaced by (spec/namespace.py:427) -/
inductive Val
  | name (s : String)
  | spec (s : String)
  deriving DecidableEq, Repr

/-- a spec as read from a file (spec/namespace.py:390-402) -/
inductive SD
  | mk (d : Dict String Val) (subs : List SD)

/-- `def_key()` and `inc_key()` of a spec class (spec/namespace.py:406-413) -/
structure Keys where
  dfn : String
  inc : String

/-- `if a in d: d[b] = d.pop(a)` (spec/namespace.py:410-413) -/
def moveKey (a b : String) (d : Dict String Val) : Dict String Val :=
  match d.get? a with
  | none => d
  | some v => (d.del a).set b v

/-- spec/namespace.py:406-413 `__convert_spec_cls_keys` -/
def convertKeys (p c : Keys) (d : Dict String Val) : Dict String Val := moveKey p.inc c.inc (moveKey p.dfn c.dfn d)

/-- spec/namespace.py:418-427: one dictionary of `__resolve_includes`; `cat` are the types of the catalog.  Files have no specs as
values, so that the case of one is left as it is. -/
def resolve1 (c : Keys) (cat : List String) (d : Dict String Val) : Except Err (Dict String Val) :=
  match d.get? c.inc, d.get? c.dfn with
  | some (.name i), some _ => if i ∈ cat then .ok (d.set c.inc (.spec i)) else .error .valueError
  | _, _ => .ok d

mutual
/-- spec/namespace.py:415-432 `__resolve_includes` -/
def resolveIncludes (c : Keys) (cat : List String) : SD → Except Err SD
  | .mk d subs => match resolve1 c cat d with
    | .error e => .error e
    | .ok d' => (resolveList c cat subs).map (.mk d')
/-- the loops over the specs below (spec/namespace.py:428-431) -/
def resolveList (c : Keys) (cat : List String) : List SD → Except Err (List SD)
  | [] => .ok []
  | x :: l => match resolveIncludes c cat x with
    | .error e => .error e
    | .ok x' => (resolveList c cat l).map (x' :: ·)
end

/-- one spec of a file (spec/namespace.py:378-388, 393-402), up to the building of the spec object; every type of
the file is to be loaded, and includes are resolved -/
def load (p c : Keys) (cat : List String) : SD → Except Err SD
  | .mk d subs =>
    if (convertKeys p c d).get? c.dfn = none then .error .valueError
    else resolveIncludes c cat (.mk (convertKeys p c d) subs)

end Verif.SpecKeys

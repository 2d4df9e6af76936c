import Verif.Base.Py

/-!
# Comparing builders in tests

Model of `TestCase.assertBuilderEqual` (testing/testcase.py:225-253), which compares two builders as dictionaries.

Simplifications.
* Builders are trees: the target of a link is the builder itself.  Data and values of attributes are numbers that stand for what `==` distinguishes.
* The sub-dictionaries of groups, datasets and links of a group are one list; a sub-builder is in the sub-dictionary of its class.
* `dtype`, `maxshape`, `chunks` and `dimension_labels` of a dataset are one number, `settings`.
-/

namespace Verif.BuilderEq
open Verif

/-- the class of a builder (build/builders.py:114, 321, 400) -/
inductive Cat where
  | group
  | dataset
  | link
  deriving DecidableEq, Repr

mutual
/-- a builder: name, source and content (build/builders.py:14-32, 144-164, 345-358, 402-414) -/
inductive Bld where
  | ds (name : String) (src : Option String) (data : Nat) (attrs : Dict String Nat) (settings : Nat)
  | link (name : String) (src : Option String) (target : Bld)
  | group (name : String) (src : Option String) (attrs : Dict String Nat) (kids : Kids)
/-- the sub-builders of a group (build/builders.py:190-203) -/
inductive Kids where
  | nil
  | cons (key : String) (b : Bld) (rest : Kids)
end

/-- the class (testing/testcase.py:247) -/
def Bld.cat : Bld → Cat
  | .ds .. => .dataset
  | .link .. => .link
  | .group .. => .group

/-- `builder.name` (build/builders.py:43-46) -/
def Bld.name : Bld → String
  | .ds n .. => n
  | .link n .. => n
  | .group n .. => n

/-- `builder.source` (build/builders.py:48-51) -/
def Bld.src : Bld → Option String
  | .ds _ s .. => s
  | .link _ s _ => s
  | .group _ s _ _ => s

/-- the sub-builder of a class with a name (build/builders.py:190-203) -/
def Kids.lookup : Kids → Cat → String → Option Bld
  | .nil, _, _ => none
  | .cons key b rest, c, k => if key = k ∧ b.cat = c then some b else rest.lookup c k

/-- the number of sub-builders (build/builders.py:190-203) -/
def Kids.size : Kids → Nat
  | .nil => 0
  | .cons _ _ rest => rest.size + 1

/-- equality of dictionaries of attributes (testing/testcase.py:253) -/
def attrsEq (a b : Dict String Nat) : Bool := a.length == b.length && a.all fun p => Dict.get? b p.1 == some p.2

mutual
/-- equality of builders as dictionaries: name, source and settings are no items of it; a link has its target as only item
(testing/testcase.py:253; build/builders.py:92, 153-157, 351-352, 414) -/
def eqB : Bld → Bld → Bool
  | .ds _ _ d a _, .ds _ _ d' a' _ => d == d' && attrsEq a a'
  | .link _ _ t, .link _ _ t' => eqB t t'
  | .group _ _ a k, .group _ _ a' k' => attrsEq a a' && k.size == k'.size && eqKids k k'
  | _, _ => false
/-- each sub-builder has an equal one of the same class and name (testing/testcase.py:253) -/
def eqKids : Kids → Kids → Bool
  | .nil, _ => true
  | .cons key b rest, k' => (match k'.lookup b.cat key with
    | some b' => eqB b b'
    | none => false) && eqKids rest k'
end

/-- a builder in a test: the path of its parent and the builder (build/builders.py:33-41) -/
structure Placed where
  parent : List String
  b : Bld

/-- `builder.path` (build/builders.py:33-41) -/
def Placed.path (p : Placed) : List String := p.parent ++ [p.b.name]

/-- `assertBuilderEqual` passes (testing/testcase.py:225-253) -/
def passes (checkPath checkSource : Bool) (x y : Placed) : Bool :=
  decide (x.b.cat = y.b.cat) && decide (x.b.name = y.b.name) && (!checkPath || decide (x.path = y.path)) && (!checkSource || decide (x.b.src = y.b.src)) && eqB x.b y.b

end Verif.BuilderEq

import Verif.Model.Builders

/-!
# A group builder as a dictionary

Model of `__contains__`, `keys`, `values`, `items`, `__setitem__` of a group (build/builders.py:293-318), and of `len` and iteration, which are those of the dictionary
with the four sub-dictionaries.
-/

namespace Verif.Builders
open Verif

/-- `items()` (build/builders.py:299-304) -/
def items (b : Node) : List (Key × Item) :=
  b.groups.map (fun p => (p.1, .builder p.2)) ++ b.datasets.map (fun p => (p.1, .builder p.2)) ++ b.attrs.map (fun p => (p.1, .attr p.2)) ++ b.links.map fun p => (p.1, .builder p.2)

/-- `keys()` (build/builders.py:306-311) -/
def viewKeys (b : Node) : List Key := b.groups.keys ++ b.datasets.keys ++ b.attrs.keys ++ b.links.keys

/-- `values()` (build/builders.py:313-318) -/
def viewValues (b : Node) : List Item := b.groups.values.map .builder ++ b.datasets.values.map .builder ++ b.attrs.values.map .attr ++ b.links.values.map .builder

/-- `key in group` (build/builders.py:296-297) -/
def contains (b : Node) (k : Key) : Bool := b.objType.has k

/-- `list(group)`: the keys of the dictionary itself, in the order in which the constructor sets them (build/builders.py:153-157; 92) -/
def iter (_ : Node) : List Key := [["attributes"], ["groups"], ["datasets"], ["links"]]

/-- `len(group)` (build/builders.py:153-157; 92) -/
def len (b : Node) : Nat := (iter b).length

/-- `get(key, default)` (build/builders.py:272-280) -/
def getD (h : Heap) (n : Nat) (key : Key) (d : Item) : Item := match getItem h n key with
  | .ok x => x
  | .error _ => d

end Verif.Builders

import Verif.Base.Py

/-!
# Model of `YAMLSpecWriter.write_spec` up to the YAML library (spec/write.py)

The data is what `json.dumps` accepts: nested dicts with string keys, lists, tuples and scalars (their contents are opaque).
-/

namespace Verif.SortKeys
open Verif

/-- the data written (spec/write.py:35-101) -/
inductive J
  | dict (d : List (String × J))
  | list (l : List J)
  | tup (l : List J)
  | leaf (x : Int)
  deriving Repr

mutual
/-- spec/write.py:43 `json.loads(json.dumps(...))`: tuples become lists -/
def json : J → J
  | .dict d => .dict (jsonPairs d)
  | .list l => .list (jsonList l)
  | .tup l => .list (jsonList l)
  | .leaf x => .leaf x
/-- the entries of a dict through `json` (spec/write.py:35-47) -/
def jsonPairs : List (String × J) → List (String × J)
  | [] => []
  | (k, v) :: d => (k, json v) :: jsonPairs d
/-- the elements of a list through `json` (spec/write.py:35-47) -/
def jsonList : List J → List J
  | [] => []
  | v :: l => json v :: jsonList l
end

/-- spec/write.py:80-83 -/
def order : List String :=
  ["neurodata_type_def", "neurodata_type_inc", "data_type_def", "data_type_inc", "name", "default_name", "dtype", "target_type",
   "dims", "shape", "default_value", "value", "doc", "required", "quantity", "attributes", "datasets", "groups", "links"]

/-- spec/write.py:87-89, 91-92: `keys.remove(k); keys.insert(0, k)` if the key is there (with its value) -/
def front {α : Type u} (d : Dict String α) (k : String) : Dict String α :=
  match Dict.get? d k with
  | some v => (k, v) :: Dict.del d k
  | none => d

/-- spec/write.py:86-92: the order of the keys -/
def reorder {α : Type u} (d : Dict String α) : Dict String α :=
  if Dict.has (order.reverse.foldl front d) "neurodata_type_def" = true then order.reverse.foldl front d
  else front (order.reverse.foldl front d) "name"

mutual
/-- spec/write.py:73-101 `sort_keys`; the values are sorted first and then moved with their keys.  (The generator made of a tuple is
never met: `write_spec` has turned tuples into lists.) -/
def sortKeys : J → J
  | .dict d => .dict (reorder (sortPairs d))
  | .list l => .list (sortList l)
  | .tup l => .tup (sortList l)
  | .leaf x => .leaf x
/-- spec/write.py:73-101, the values of a dict -/
def sortPairs : List (String × J) → List (String × J)
  | [] => []
  | (k, v) :: d => (k, sortKeys v) :: sortPairs d
/-- spec/write.py:73-101, the elements of a list -/
def sortList : List J → List J
  | [] => []
  | v :: l => sortKeys v :: sortList l
end

/-- spec/write.py:41-47 `write_spec`: what is given to the YAML library -/
def written (j : J) : J := sortKeys (json j)

end Verif.SortKeys

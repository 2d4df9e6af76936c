import Verif.Base.Py

/-!
# Sub-specs of a group spec by name and by type, and the sub-spec of a builder

Model of `GroupSpec.set_group`, `set_dataset`, `set_link`, `get_group`, `get_dataset`, `get_link`, `get_data_type`,
`get_target_type` (spec/spec.py:1140-1378) and of `TypeMap.get_subspec`, `get_builder_dt`, `get_builder_ns`
(build/manager.py:629-703).

Simplifications.
* A sub-spec is its kind, its name, its type and a number for what else is in it.  A spec that already has a parent is copied when it
  is added, so the same spec is never added twice.
* The hierarchy of types of a namespace is given as a function; how it is computed is modelled in `Verif.Catalog`.
-/

namespace Verif.Subspec
open Verif

/-- the kinds of sub-specs (spec/spec.py:1279-1363) -/
inductive Kind
  | group
  | dataset
  | link
  deriving DecidableEq

/-- a sub-spec: its name if it has one, its type (`data_type_def`, or else `data_type_inc`; the target type of a link), and the rest
(spec/spec.py:1149-1153, 1200) -/
structure Sub where
  kind : Kind
  name : Option String
  type : Option String
  body : Nat
  deriving DecidableEq

/-- an entry of `__data_types` or `__target_types` (spec/spec.py:1140-1233) -/
inductive Entry
  | one (x : Sub)
  | many (l : List Sub)
  deriving DecidableEq

/-- a group spec: the specs by their names, `__data_types` and `__target_types` (spec/spec.py:880-900) -/
structure GSpec where
  groups : Dict String Sub := []
  datasets : Dict String Sub := []
  links : Dict String Sub := []
  dataTypes : Dict String Entry := []
  targetTypes : Dict String Entry := []
  deriving DecidableEq

/-- `__add_data_type_inc` and `__add_target_type` (spec/spec.py:1140-1233): the same statements on two tables -/
def addType (t : Dict String Entry) (dt : String) (x : Sub) : Except Err (Dict String Entry) :=
  match Dict.get? t dt with
  | none => .ok (Dict.set t dt (.one x))
  | some (.many l) => match x.name with
    | none => .ok (Dict.set t dt (.one x))
    | some _ => .ok (Dict.set t dt (.many (l ++ [x])))
  | some (.one y) => match x.name, y.name with
    | none, none => .error .valueError
    | none, some _ => .ok (Dict.set t dt (.one x))
    | some _, none => .ok t
    | some _, some _ => .ok (Dict.set t dt (.many [y, x]))

/-- the table of names, if the spec has one (spec/spec.py:1299, 1334, 1358-1359) -/
def addName (t : Dict String Sub) (x : Sub) : Dict String Sub := match x.name with
  | none => t
  | some n => Dict.set t n x

/-- `set_group`, `set_dataset`, `set_link` (spec/spec.py:1286-1302, 1319-1337, 1352-1362).  A link without a target type can not be
made. -/
def add (s : GSpec) (x : Sub) : Except Err GSpec :=
  match x.kind, x.type with
  | .link, none => .error .typeError
  | .link, some dt => match addType s.targetTypes dt x with
    | .error e => .error e
    | .ok t => .ok { s with targetTypes := t, links := addName s.links x }
  | .group, none => match x.name with
    | none => .error .typeError
    | some _ => .ok { s with groups := addName s.groups x }
  | .dataset, none => match x.name with
    | none => .error .typeError
    | some _ => .ok { s with datasets := addName s.datasets x }
  | .group, some dt => match addType s.dataTypes dt x with
    | .error e => .error e
    | .ok t => .ok { s with dataTypes := t, groups := addName s.groups x }
  | .dataset, some dt => match addType s.dataTypes dt x with
    | .error e => .error e
    | .ok t => .ok { s with dataTypes := t, datasets := addName s.datasets x }

/-- the sub-specs of a constructor, or of calls of `add_group` and the others, one after the other (spec/spec.py:880-900, 1279-1362) -/
def addAll : GSpec → List Sub → Except Err GSpec
  | s, [] => .ok s
  | s, x :: xs => match add s x with
    | .error e => .error e
    | .ok s' => addAll s' xs

/-- `get_data_type` (spec/spec.py:1235-1248) -/
def getDataType (s : GSpec) (dt : String) : Option Entry := Dict.get? s.dataTypes dt

/-- `get_target_type` (spec/spec.py:1250-1262) -/
def getTargetType (s : GSpec) (dt : String) : Option Entry := Dict.get? s.targetTypes dt

/-- `get_link` (spec/spec.py:1364-1368) -/
def getLink (s : GSpec) (n : String) : Option Sub := Dict.get? s.links n

/-- `get_group` (spec/spec.py:1304-1308) -/
def getGroup (s : GSpec) (n : String) : Option Sub := match Dict.get? s.groups n with
  | some x => some x
  | none => getLink s n

/-- `get_dataset` (spec/spec.py:1339-1343) -/
def getDataset (s : GSpec) (n : String) : Option Sub := match Dict.get? s.datasets n with
  | some x => some x
  | none => getLink s n

/-! ## Builders -/

/-- an attribute of a builder with the type or the namespace: text, or bytes as HDF5 may give it (build/manager.py:640-644, 654) -/
inductive Text
  | str (s : String)
  | bytes (s : String)
  deriving DecidableEq

/-- a builder in a group: is it a link, is what it is or links to a dataset, its own name, and the attributes (of the target) with the
type and the namespace (build/manager.py:629-655, 676-685) -/
structure Bld where
  isLink : Bool
  isDataset : Bool
  name : String
  type : Option Text
  ns : Option Text
  deriving DecidableEq

/-- `get_builder_dt` (build/manager.py:631-645): bytes are decoded -/
def builderDt (b : Bld) : Option String := b.type.map fun
  | .str s => s
  | .bytes s => s

/-- `get_builder_ns` (build/manager.py:649-655): bytes are not decoded -/
def builderNs (b : Bld) : Option Text := b.ns

/-- the loop over the hierarchy (build/manager.py:695-702) -/
def findType (s : GSpec) : List String → Option Entry
  | [] => none
  | t :: ts => match getDataType s t with
    | some e => some e
    | none => match getTargetType s t with
      | some e => some e
      | none => findType s ts

/-- `get_subspec` of a group spec (build/manager.py:675-703); `hier ns dt` is the hierarchy of a type, KeyError if there is no such
namespace, and the namespace must be text (docval) -/
def getSubspec (hier : String → String → Except Err (List String)) (s : GSpec) (b : Bld) : Except Err (Option Entry) :=
  match if b.isDataset then getDataset s b.name else getGroup s b.name with
  | some x => .ok (some (.one x))
  | none => match builderDt b with
    | none => .ok none
    | some dt => match builderNs b with
      | some (.str ns) => match hier ns dt with
        | .error e => .error e
        | .ok h => .ok (findType s h)
      | _ => .error .typeError

end Verif.Subspec

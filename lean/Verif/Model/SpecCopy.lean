import Verif.Model.Spec

/-!
# Model of the copies of specs that are cached in a file (backends/utils.py, spec/spec.py)

`Spec.Grp` has the specs; that a quantity allows many (`*`, `+` or a number other than 1) is read off the body of a spec by `many`.
Type definitions nested in a spec are not modelled.
-/

namespace Verif.SpecCopy
open Verif Spec

/-- what the first five tests of `is_inherited_spec` find under a name (spec/spec.py:1036-1047) -/
def inheritedEntry (g : Grp) (n : String) : Option Bool :=
  if n ∈ names lnkKind g.links then some (decide (n ∉ g.newLn))
  else if n ∈ g.groups.filterMap Grp.name then some (decide (n ∉ g.newGr))
  else if n ∈ names dsKind g.datasets then some (decide (n ∉ g.newDs))
  else if n ∈ Dict.keys g.dts then some (decide (n ∉ g.newDt))
  else if n ∈ Dict.keys g.tts then some (decide (n ∉ g.newTt))
  else none

/-- what the first four tests of `is_overridden_spec` find under a name; `is_overridden_type` is `is_inherited_type`
(spec/spec.py:1083-1091, 1121-1124) -/
def overriddenEntry (g : Grp) (n : String) : Option Bool :=
  if n ∈ names lnkKind g.links then some (decide (n ∈ g.overLn))
  else if n ∈ g.groups.filterMap Grp.name then some (decide (n ∈ g.overGr))
  else if n ∈ names dsKind g.datasets then some (decide (n ∈ g.overDs))
  else if n ∈ Dict.keys g.dts then some (decide (n ∉ g.newDt))
  else none

/-- spec/spec.py:1022-1047 `is_inherited_spec` for a dataset, group or link of the group: its name, or else its type; such a spec is always
found -/
def isInheritedSub (g : Grp) (name dt : Option String) : Bool := (inheritedEntry g (name.getD (dt.getD ""))).getD false

/-- spec/spec.py:1066-1091 `is_overridden_spec` for a dataset, group (`isLink` false) or link of the group -/
def isOverriddenSub (g : Grp) (isLink many : Bool) (name dt : Option String) : Bool :=
  if name.isNone && (isLink || many) then false else (overriddenEntry g (name.getD (dt.getD ""))).getD false

/-- the name under which the group that has the attribute is looked for (spec/spec.py:1053-1055) -/
def parentName (g : Grp) : String := g.name.getD (g.dt.getD "")

/-- spec/spec.py:1048-1064 `is_inherited_spec` for an attribute of the group itself -/
def isInheritedAttribute (g : Grp) (a : String) : Bool :=
  match inheritedEntry g a with
  | some b => b
  | none =>
    if a ∈ g.attrs.items.map Attr.name ∧ a ∉ g.attrs.new then true
    else match g.groups.reverse.find? (fun x => x.name == some (parentName g)) with
      | none => false
      | some x => decide (parentName g ∉ g.newGr) && (getAttr x.attrs a).isSome

/-- spec/spec.py:1092-1108 `is_overridden_spec` for an attribute whose parent is named `p`; `own`: the group is that parent; the depth of
the recursion is bounded -/
def isOverriddenAttribute (p : String) : Nat → Bool → Grp → String → Bool
  | 0, _, _, _ => false
  | f + 1, own, g, a => match overriddenEntry g a with
    | some b => b
    | none =>
      if own ∧ a ∈ g.attrs.items.map Attr.name ∧ a ∈ g.attrs.over then true
      else match g.groups.reverse.find? (fun x => x.name == some p) with
        | none => false
        | some x => decide (p ∈ g.overGr) && isOverriddenAttribute p f false x a

/-- `__get_new_specs`: is the spec copied? (backends/utils.py:102-107) -/
def copied (inherited overridden : Bool) : Bool := !inherited || overridden

/-- backends/utils.py:81-100 `__copy_spec` of a group spec, which `build_spec` gives; the same spec is built once more when the file is
read (spec/namespace.py:387-388) -/
def copySpec (many : Nat → Bool) (f : Nat) (g : Grp) : Except Err Grp :=
  mkGrp g.name g.dt g.body
    (g.attrs.items.filter (fun a => copied (isInheritedAttribute g a.name) (isOverriddenAttribute (parentName g) f true g a.name)))
    (Grp.copies (g.groups.filter (fun x => copied (isInheritedSub g x.name x.dt) (isOverriddenSub g false (many x.body) x.name x.dt))))
    ((g.datasets.filter (fun x => copied (isInheritedSub g x.name x.dt) (isOverriddenSub g false (many x.body) x.name x.dt))).map dsKind.copy)
    (g.links.filter (fun x => copied (isInheritedSub g x.name (some x.target)) (isOverriddenSub g true (many x.body) x.name (some x.target))))

/-- the keys of a dataset type that are copied (backends/utils.py:84-92) -/
def datasetKeys : List String :=
  ["doc", "name", "default_name", "linkable", "quantity", "data_type_inc", "data_type_def", "dtype", "shape", "dims"]

/-- the keys of a group type that are copied (backends/utils.py:84) -/
def groupKeys : List String := ["doc", "name", "default_name", "linkable", "quantity", "data_type_inc", "data_type_def"]

/-- backends/utils.py:93-99: the values of the keys of a spec, other than the sub-specs; values are opaque -/
def copyKeys (keys : List String) (spec : Dict String Nat) : Dict String Nat :=
  keys.filterMap (fun k => (Dict.get? spec k).map (fun v => (k, v)))

/-- backends/utils.py:102-107 for the attributes of a dataset spec, with spec/spec.py:391-413 -/
def copyDsAttrs (s : Attrs) : List Attr :=
  s.items.filter (fun a => copied (decide (a.name ∉ s.new)) (decide (a.name ∈ s.over)))

end Verif.SpecCopy

import Verif.Base.Py

/-!
# Model of the inheritance of specifications (spec/spec.py)

Specs are values.  The keys of a spec that take no part in inheritance (doc, shape, quantity, ...) are a number `body`.
The code keeps, besides the list of sub-specs, a dict from names to sub-specs (the last one added under a name, the same object as in
the list); here the dict is read off the list.  Specs of the parent are copied when added (`build_spec`, as they have a parent); the
copy forgets which entries are inherited.  If a call raises, the partially changed spec is not modelled.
-/

namespace Verif.Spec
open Verif

/-- dtype of a column or of a simple dataset: a name or a `RefSpec` (spec/spec.py:181-205, 573-614) -/
inductive DT
  | prim (s : String)
  | ref (body : Nat)
  deriving DecidableEq, Repr

/-- `DtypeSpec` (spec/spec.py:573-590), a column of a compound dtype -/
structure Col where
  name : String
  dtype : DT
  body : Nat
  deriving DecidableEq, Repr

/-- the dtype of a dataset (spec/spec.py:657-696) -/
inductive DsT
  | any
  | simple (d : DT)
  | compound (cols : List Col)
  deriving DecidableEq, Repr

/-- the digits at the beginning (spec/spec.py:698-704) -/
def takeDigits : List Char → List Char
  | [] => []
  | c :: cs => if c.isDigit then c :: takeDigits cs else []

/-- `re.search('[0-9]+', s)` (spec/spec.py:698-704) -/
def firstDigits : List Char → Option (List Char)
  | [] => none
  | c :: cs => if c.isDigit then some (c :: takeDigits cs) else firstDigits cs

/-- `int(...)` of digits (spec/spec.py:698-704) -/
def digitsVal (cs : List Char) : Nat := cs.foldl (fun n c => 10 * n + (c.toNat - '0'.toNat)) 0

/-- spec/spec.py:697-704 `__get_prec_level`; a dtype is not empty, as it is a valid dtype name -/
def precLevel (s : String) : Option Char × Nat :=
  (s.toList.head?, match firstDigits s.toList with
    | some ds => digitsVal ds
    | none => 32)

/-- spec/spec.py:706-718 `__is_sub_dtype`; a `RefSpec` for a name: `re.search` raises TypeError -/
def isSubDtype : DT → DT → Except Err Bool
  | .ref a, .ref b => .ok (a == b)
  | .ref _, .prim _ => .ok false
  | .prim _, .ref _ => .error .typeError
  | .prim a, .prim b =>
    if (precLevel a).1 ≠ (precLevel b).1 then .ok false
    else .ok (decide ((precLevel a).2 ≤ (precLevel b).2))

/-- the assignment `order[dt['name']] = dt` of an OrderedDict, on the list of its values (spec/spec.py:722-746) -/
def setCol : List Col → Col → List Col
  | [], c => [c]
  | x :: xs, c => if x.name = c.name then c :: xs else x :: setCol xs c

/-- `order.get(name)` (spec/spec.py:722-746) -/
def getCol (cols : List Col) (n : String) : Option Col := cols.find? (fun c => c.name = n)

/-- spec/spec.py:733-735: the columns of the parent -/
def parentCols (cols : List Col) : List Col := cols.foldl setCol []

/-- spec/spec.py:736-746: the columns of the child -/
def mergeCols : List Col → List Col → Except Err (List Col)
  | order, [] => .ok order
  | order, c :: cs => match getCol order c.name with
    | some o => match isSubDtype o.dtype c.dtype with
      | .error e => .error e
      | .ok false => .error .valueError
      | .ok true => mergeCols (setCol order c) cs
    | none => mergeCols (setCol order c) cs

/-- spec/spec.py:722-746: the dtype after `DatasetSpec.resolve_spec`; iterating over a `RefSpec` gives strings, for which `dt['name']`
raises TypeError -/
def resolveDtype : DsT → DsT → Except Err DsT
  | .compound own, .compound inc => match mergeCols (parentCols inc) own with
    | .error e => .error e
    | .ok cols => .ok (.compound cols)
  | .compound own, .any => match mergeCols [] own with
    | .error e => .error e
    | .ok cols => .ok (.compound cols)
  | .compound _, .simple (.prim _) => .error .valueError
  | .compound _, .simple (.ref _) => .error .typeError
  | own, _ => .ok own

/-- `AttributeSpec` (spec/spec.py:222-248) -/
structure Attr where
  name : String
  body : Nat
  deriving DecidableEq, Repr

/-- the attributes of a spec: list, `__new_attributes`, `__overridden_attributes` (spec/spec.py:314-362, 516-550) -/
structure Attrs where
  items : List Attr
  new : List String
  over : List String
  deriving DecidableEq, Repr

/-- spec/spec.py:523-549 `set_attribute` -/
def setAttr : List Attr → Attr → List Attr
  | [], a => [a]
  | x :: xs, a => if x.name = a.name then a :: xs else x :: setAttr xs a

/-- spec/spec.py:348-359: the attributes given to the constructor -/
def mkAttrs (as : List Attr) : Attrs :=
  let items := as.foldl setAttr []
  ⟨items, items.map Attr.name, []⟩

/-- spec/spec.py:551-555 `get_attribute` -/
def getAttr (s : Attrs) (n : String) : Option Attr := s.items.find? (fun a => a.name = n)

/-- `set.discard` (spec/spec.py:380-390, 904-965) -/
def discard (l : List String) (n : String) : List String := l.filter (· ≠ n)

/-- spec/spec.py:380-389 `BaseStorageSpec.resolve_spec` -/
def resolveAttrs : Attrs → List Attr → Attrs
  | s, [] => s
  | s, a :: as =>
    let s1 := { s with new := discard s.new a.name }
    if a.name ∈ s.items.map Attr.name then resolveAttrs { s1 with over := a.name :: s1.over } as
    else resolveAttrs { s1 with items := setAttr s1.items a } as

/-- spec/spec.py:416-425 `is_inherited_attribute` -/
def isInheritedAttr (s : Attrs) (n : String) : Except Err Bool :=
  if n ∈ s.items.map Attr.name then .ok (decide (n ∉ s.new)) else .error .valueError

/-- spec/spec.py:427-437 `is_overridden_attribute` -/
def isOverriddenAttr (s : Attrs) (n : String) : Except Err Bool :=
  if n ∈ s.items.map Attr.name then .ok (decide (n ∈ s.over)) else .error .valueError

/-- an entry of `__data_types` or `__target_types`: one spec (its name), or a list of named specs (spec/spec.py:1140-1234) -/
inductive Entry
  | one (name : Option String)
  | many
  deriving DecidableEq, Repr

/-- the tables of types of a group spec: `__data_types`, `__target_types` (spec/spec.py:880-900, 1140-1234) -/
abbrev Tab := Dict String Entry

/-- spec/spec.py:1140-1233 `__add_data_type_inc`, `__add_target_type`; the same spec is never added twice, as a spec with a parent is
copied; the named specs in the list of an entry are not recorded -/
def addType (t : Tab) (dt : String) (name : Option String) : Except Err Tab :=
  match Dict.get? t dt with
  | none => .ok (Dict.set t dt (.one name))
  | some curr => match name, curr with
    | none, .many => .ok (Dict.set t dt (.one none))
    | none, .one none => .error .valueError
    | none, .one (some _) => .ok (Dict.set t dt (.one none))
    | some _, .many => .ok t
    | some _, .one none => .ok t
    | some _, .one (some _) => .ok (Dict.set t dt .many)

/-- what the inheritance needs to know about a kind of sub-specs (spec/spec.py:904-965, 1279-1363) -/
structure Kind (α : Type) where
  name : α → Option String
  /-- `data_type_def` or else `data_type_inc`; the target type of a link -/
  dt : α → Option String
  /-- `build_spec` -/
  copy : α → α
  /-- `resolve_spec` -/
  res : α → α → Except Err α

/-- the sub-specs of one kind: the list, and the names that are new and overridden (spec/spec.py:880-900, 1279-1363) -/
structure Sub (α : Type) where
  items : List α
  new : List String
  over : List String

/-- spec/spec.py:1286-1303, 1319-1336, 1352-1362 `set_group`, `set_dataset`, `set_link` -/
def addItem {α : Type} (k : Kind α) (items : List α) (t : Tab) (x : α) : Except Err (List α × Tab) :=
  match k.dt x with
  | none => match k.name x with
    | none => .error .typeError
    | some _ => .ok (items ++ [x], t)
  | some dt => match addType t dt (k.name x) with
    | .error e => .error e
    | .ok t' => .ok (items ++ [x], t')

/-- the specs given to the constructor (spec/spec.py:880-900) -/
def addItems {α : Type} (k : Kind α) : List α → Tab → List α → Except Err (List α × Tab)
  | items, t, [] => .ok (items, t)
  | items, t, x :: xs => match addItem k items t x with
    | .error e => .error e
    | .ok (items', t') => addItems k items' t' xs

/-- the names of the named specs (spec/spec.py:904-965) -/
def names {α : Type} (k : Kind α) (items : List α) : List String := items.filterMap k.name

/-- a change of the spec found under a name: the last one of that name (spec/spec.py:904-965) -/
def updLast {α : Type} (p : α → Bool) (h : α → Except Err α) : List α → Except Err (List α)
  | [] => .ok []
  | x :: xs =>
    if p x && !xs.any p then match h x with
      | .error e => .error e
      | .ok x' => .ok (x' :: xs)
    else match updLast p h xs with
      | .error e => .error e
      | .ok xs' => .ok (x :: xs')

/-- spec/spec.py:909-944: the named specs of the parent -/
def resNamed {α : Type} (k : Kind α) : Sub α → Tab → List α → Except Err (Sub α × Tab)
  | s, t, [] => .ok (s, t)
  | s, t, x :: xs => match k.name x with
    | none => resNamed k s t xs
    | some n =>
      if n ∈ names k s.items then
        match updLast (fun y => k.name y == some n) (fun y => k.res y x) s.items with
        | .error e => .error e
        | .ok items => resNamed k { items := items, new := discard s.new n, over := n :: s.over } t xs
      else match addItem k s.items t (k.copy x) with
        | .error e => .error e
        | .ok (items, t') => resNamed k { s with items := items, new := discard s.new n } t' xs

/-- spec/spec.py:945-966: the unnamed specs of the parent; `newT` is `__new_data_types` or `__new_target_types` -/
def resTyped {α : Type} (k : Kind α) : List α → Tab → List String → List α → Except Err (List α × Tab × List String)
  | items, t, newT, [] => .ok (items, t, newT)
  | items, t, newT, x :: xs => match k.name x with
    | some _ => resTyped k items t newT xs
    | none => match k.dt x with
      | none => .error .typeError
      | some dt =>
        if Dict.get? t dt = some (.one none) then resTyped k items t (discard newT dt) xs
        else match addItem k items t (k.copy x) with
          | .error e => .error e
          | .ok (items', t') => resTyped k items' t' (discard newT dt) xs

/-- `DatasetSpec` (spec/spec.py:657-696) -/
structure Ds where
  name : Option String
  dt : Option String
  body : Nat
  dtype : DsT
  attrs : Attrs
  deriving DecidableEq, Repr

/-- `LinkSpec` (spec/spec.py:802-840) -/
structure Lnk where
  name : Option String
  target : String
  body : Nat
  deriving DecidableEq, Repr

/-- `build_spec` of the attributes (spec/spec.py:558-570) -/
def copyAttrs (s : Attrs) : Attrs := ⟨s.items, s.items.map Attr.name, []⟩

/-- spec/spec.py:722-747 `DatasetSpec.resolve_spec` -/
def resolveDs (own inc : Ds) : Except Err Ds :=
  match resolveDtype own.dtype inc.dtype with
  | .error e => .error e
  | .ok dtype => .ok { own with dtype := dtype, attrs := resolveAttrs own.attrs inc.attrs.items }

/-- datasets as sub-specs (spec/spec.py:1312-1343) -/
def dsKind : Kind Ds := ⟨Ds.name, Ds.dt, fun d => { d with attrs := copyAttrs d.attrs }, resolveDs⟩

/-- links as sub-specs (spec/spec.py:1345-1369) -/
def lnkKind : Kind Lnk := ⟨Lnk.name, fun l => some l.target, id, fun own _ => .ok own⟩

/-- `GroupSpec` (spec/spec.py:875-901): sub-specs, `__data_types`, `__target_types`, and what is new and overridden -/
structure Grp where
  name : Option String
  dt : Option String
  body : Nat
  attrs : Attrs
  datasets : List Ds
  groups : List Grp
  links : List Lnk
  dts : Tab
  tts : Tab
  newDs : List String
  overDs : List String
  newGr : List String
  overGr : List String
  newLn : List String
  overLn : List String
  newDt : List String
  newTt : List String

mutual
/-- `GroupSpec.build_spec` of a spec: the same specs; everything is new.  The order of the entries of the two tables of types is kept
(spec/spec.py:1389-1405) -/
def Grp.copy : Grp → Grp
  | ⟨name, dt, body, attrs, datasets, groups, links, dts, tts, _, _, _, _, _, _, _, _⟩ =>
    ⟨name, dt, body, copyAttrs attrs, datasets.map dsKind.copy, Grp.copies groups, links, dts, tts,
      names dsKind datasets, [], groups.filterMap Grp.name, [], names lnkKind links, [], Dict.keys dts, Dict.keys tts⟩
/-- the copies of the subgroups (spec/spec.py:1389-1405) -/
def Grp.copies : List Grp → List Grp
  | [] => []
  | g :: gs => Grp.copy g :: Grp.copies gs
end

/-- groups as sub-specs (spec/spec.py:1279-1310) -/
def grpKind (res : Grp → Grp → Except Err Grp) : Kind Grp := ⟨Grp.name, Grp.dt, Grp.copy, res⟩

/-- spec/spec.py:904-966 `GroupSpec.resolve_spec`; the depth of the recursion is bounded (RecursionError) -/
def resolve : Nat → Grp → Grp → Except Err Grp
  | 0, _, _ => .error .runtimeError
  | f + 1, g, inc =>
    match resNamed dsKind ⟨g.datasets, g.newDs, g.overDs⟩ g.dts inc.datasets with
    | .error e => .error e
    | .ok (ds, t1) => match resNamed (grpKind (resolve f)) ⟨g.groups, g.newGr, g.overGr⟩ t1 inc.groups with
      | .error e => .error e
      | .ok (gs, t2) => match resNamed lnkKind ⟨g.links, g.newLn, g.overLn⟩ g.tts inc.links with
        | .error e => .error e
        | .ok (ls, u1) => match resTyped dsKind ds.items t2 g.newDt inc.datasets with
          | .error e => .error e
          | .ok (ds', t3, nd) => match resTyped (grpKind (resolve f)) gs.items t3 nd inc.groups with
            | .error e => .error e
            | .ok (gs', t4, nd') => match resTyped lnkKind ls.items u1 g.newTt inc.links with
              | .error e => .error e
              | .ok (ls', u2, nt) => .ok
                { g with
                  attrs := resolveAttrs g.attrs inc.attrs.items
                  datasets := ds', groups := gs', links := ls', dts := t4, tts := u2
                  newDs := ds.new, overDs := ds.over, newGr := gs.new, overGr := gs.over, newLn := ls.new, overLn := ls.over
                  newDt := nd', newTt := nt }

/-- spec/spec.py:875-901 `GroupSpec.__init__` without the resolution (groups first, then datasets, then links) -/
def mkGrp (name dt : Option String) (body : Nat) (attributes : List Attr) (groups : List Grp) (datasets : List Ds) (links : List Lnk) :
    Except Err Grp :=
  match addItems (grpKind (fun _ _ => .error .runtimeError)) [] [] groups with
  | .error e => .error e
  | .ok (gs, t1) => match addItems dsKind [] t1 datasets with
    | .error e => .error e
    | .ok (ds, t2) => match addItems lnkKind [] [] links with
      | .error e => .error e
      | .ok (ls, u) => .ok
        { name := name, dt := dt, body := body, attrs := mkAttrs attributes, datasets := ds, groups := gs, links := ls, dts := t2, tts := u
          newDs := names dsKind ds, overDs := [], newGr := gs.filterMap Grp.name, overGr := [], newLn := names lnkKind ls, overLn := []
          newDt := Dict.keys t2, newTt := Dict.keys u }

/-- spec/spec.py:968-1020 `is_inherited_dataset` and the others: raise ValueError if there is no such name -/
def isInherited (known new : List String) (n : String) : Except Err Bool :=
  if n ∈ known then .ok (decide (n ∉ new)) else .error .valueError

/-- spec/spec.py:978-985 `is_overridden_dataset` and the others -/
def isOverridden (known over : List String) (n : String) : Except Err Bool :=
  if n ∈ known then .ok (decide (n ∈ over)) else .error .valueError

/-- spec/spec.py:1105-1113 `is_inherited_type` for a name -/
def isInheritedType (g : Grp) (dt : String) : Bool := decide (dt ∉ g.newDt)

/-- the last one with the name: `__datasets[name]` (spec/spec.py:904-965, 1306-1343) -/
def findLast {α : Type} (k : Kind α) (items : List α) (n : String) : Option α := items.reverse.find? (fun x => k.name x == some n)

/-- spec/spec.py:1338-1342 `get_dataset` -/
def getDataset (g : Grp) (n : String) : Option (Ds ⊕ Lnk) :=
  match findLast dsKind g.datasets n with
  | some d => some (.inl d)
  | none => (findLast lnkKind g.links n).map .inr

end Verif.Spec

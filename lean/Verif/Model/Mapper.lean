import Verif.Base.Py

/-!
# Converting containers to builders and back

Model of `ObjectMapper.build` and `ObjectMapper.construct` (`build/objectmapper.py`) for the default mapper class,
together with the parts of `TypeMap.build` and `BuildManager.build` that decide what a builder contains.

Containers live in a heap (`Env.heap`) and refer to each other by object id, so parents, links to containers that
belong elsewhere, sharing and cycles are expressible.  A builder is a tree; a `LinkBuilder` records which container it
points to.  Constructing a builder yields the id of the new container and the table of all containers constructed on
the way.

Simplifications, which hold for the whole file:

* The `BuildManager` caches one builder per container and one container per builder (modelled in `Model/Manager.lean`).
  Here the cache is replaced by what it guarantees: the target of a link is the builder that the owner of the target
  holds, and constructing it yields the container with the id of the target.
* Datasets and attribute values are opaque strings; `convert_dtype` (modelled in `Model/Convert.lean`) and
  `__convert_string` are one function of the environment.  References are filled in at once rather than after the
  build, and datasets of references are opaque values.
* One namespace.  Logging and warnings are left out, except for `checkQuantity`, which returns the warning.
* `TermSetWrapper`, `DataIO`, overriding methods other than `get_container_name`, and dimension labels are left out.
-/

namespace Verif.Mapper

open Verif

/-- Object ids (`container.py:427-434`: a UUID string). -/
abbrev Oid := String

/-- Opaque data values (`build/objectmapper.py:811-812, 1108-1109`). -/
abbrev Dat := String

/-- The exceptions raised on the way.  `build/errors.py:6-49`; `build/objectmapper.py:571, 596, 1162, 1206, 1359`. -/
inductive BErr where
  | config | build | orphan | value | type | construct | recursion
  deriving DecidableEq, Repr, Inhabited

/-- What an attribute of a container holds: nothing, data, a container, or a collection of containers
(`build/objectmapper.py:590-591`).  `dict`, `tuple` and `set` values are collections as well. -/
inductive FVal where
  | none
  | data (d : Dat)
  | one (o : Oid)
  | many (l : List Oid)
  deriving DecidableEq, Repr, Inhabited

/-- A container: `container.py:273-300, 427-536` and the attributes named by its class. -/
structure Obj where
  name : String
  dt : String
  parent : Option Oid
  source : Option String
  modified : Bool
  fields : Dict String FVal
  deriving DecidableEq, Repr, Inhabited

/-- `quantity` of a specification.  `spec/spec.py:18-35`. -/
inductive Qty where
  | zeroOrOne | zeroOrMany | oneOrMany | num (n : Nat)
  deriving DecidableEq, Repr, Inhabited

/-- `spec/spec.py:439-440, 829-830` -/
def Qty.isMany : Qty → Bool
  | .num 1 => false
  | .zeroOrOne => false
  | _ => true

/-- `spec/spec.py:374-376, 838-840` -/
def Qty.required : Qty → Bool
  | .zeroOrOne => false
  | .zeroOrMany => false
  | _ => true

/-- `AttributeSpec`: `spec/spec.py:195-296`.  `uid` is the identity of the Python object, by which specifications are
hashed (`spec/spec.py:151-152`). -/
structure ASpec where
  uid : Nat
  name : String
  required : Bool := true
  isRef : Bool := false
  value : Option Dat := none
  default : Option Dat := none
  deriving DecidableEq, Repr, Inhabited

/-- A sub-specification with a data type: a `DatasetSpec` or `GroupSpec` with `data_type_inc`/`data_type_def`, or a
`LinkSpec` (`target_type`).  `attrs` are the attributes it adds to the type.  `spec/spec.py:345-366, 788-840`. -/
structure TSpec where
  uid : Nat
  name : Option String
  dt : String
  qty : Qty := .num 1
  attrs : List ASpec := []
  deriving DecidableEq, Repr, Inhabited

/-- A member of `GroupSpec.datasets`: without data type (such a dataset has a name) or with one.
`spec/spec.py:646-780`. -/
inductive DS where
  | untyped (uid : Nat) (name : String) (required : Bool) (attrs : List ASpec)
  | typed (s : TSpec)
  deriving DecidableEq, Repr, Inhabited

mutual
/-- A group specification without data type, or the body of a type.  `spec/spec.py:843-1010`. -/
inductive GSpec where
  | mk (uid : Nat) (name : String) (required : Bool) (attrs : List ASpec) (dsets : List DS) (groups : GList)
      (links : List TSpec)
/-- `GroupSpec.groups`: `spec/spec.py:843-1010`. -/
inductive GList where
  | nil
  | typed (s : TSpec) (rest : GList)
  | untyped (g : GSpec) (rest : GList)
end

/-- Accessors of a group specification.  `spec/spec.py:1106-1125`. -/
def GSpec.uid : GSpec → Nat
  | .mk u _ _ _ _ _ _ => u
/-- `spec/spec.py:1106-1125` -/
def GSpec.name : GSpec → String
  | .mk _ n _ _ _ _ _ => n
/-- `spec/spec.py:1106-1125` -/
def GSpec.required : GSpec → Bool
  | .mk _ _ r _ _ _ _ => r
/-- `spec/spec.py:1106-1125` -/
def GSpec.attrs : GSpec → List ASpec
  | .mk _ _ _ a _ _ _ => a
/-- `spec/spec.py:1106-1125` -/
def GSpec.dsets : GSpec → List DS
  | .mk _ _ _ _ d _ _ => d
/-- `spec/spec.py:1106-1125` -/
def GSpec.groups : GSpec → GList
  | .mk _ _ _ _ _ g _ => g
/-- `spec/spec.py:1106-1125` -/
def GSpec.links : GSpec → List TSpec
  | .mk _ _ _ _ _ _ l => l

/-- A data type: its specification, its mapper (`build/objectmapper.py:402-415`) and its class.  `args` are the
arguments of the constructor with a flag for required ones; the constructor stores every argument in the attribute of
the same name, as generated classes do (`build/classgenerator.py:309-367`). -/
structure TypeDef where
  fixedName : Option String := none
  isData : Bool := false
  body : GSpec
  spec2attr : Dict Nat String
  spec2carg : Dict Nat String
  attrs : List String
  args : List (String × Bool)

/-- The surroundings of a build: containers, types, the type hierarchy (`spec/namespace.py:321-343`), the conversion
of data by specification, the containers already built (`build/manager.py:250-256`), the file being written and the
`export` flag (`build/objectmapper.py:720-721`). -/
structure Env where
  heap : Oid → Obj
  types : String → Option TypeDef
  hier : String → List String
  conv : Nat → Dat → Except BErr Dat
  built : Oid → Bool
  source : Option String
  export_ : Bool

/-- The value of an attribute of a builder: data or a `ReferenceBuilder` (`build/builders.py:36-52, 419-431`). -/
inductive AVal where
  | data (d : Dat)
  | ref (o : Oid)
  deriving DecidableEq, Repr, Inhabited

/-- A `LinkBuilder` (`build/builders.py:398-416`): the target container, and what is asked of the target builder. -/
structure Lnk where
  target : Oid
  dt : String
  isData : Bool
  deriving DecidableEq, Repr, Inhabited

/-- `GroupBuilder` (`build/builders.py:117-318`) or, with `isData`, `DatasetBuilder` (`build/builders.py:321-395`). -/
structure Bld where
  isData : Bool
  name : String
  data : Option Dat
  attrs : Dict String AVal
  dsets : List (String × Bld)
  groups : List (String × Bld)
  links : Dict String Lnk

/-- `GroupBuilder(name)` (`build/builders.py:144-172`). -/
def Bld.empty (name : String) : Bld := ⟨false, name, none, [], [], [], []⟩

/-- `DatasetBuilder(name, data)` (`build/builders.py:321-352`). -/
def Bld.dataset (name : String) (d : Dat) : Bld := ⟨true, name, some d, [], [], [], []⟩

/-- `set_attribute` with `__check_obj_type`.  `build/builders.py:46-52, 208-221` -/
def setAttr (b : Bld) (n : String) (v : AVal) : Except BErr Bld :=
  if Dict.has b.dsets n || Dict.has b.groups n || Dict.has b.links n then .error .value
  else .ok { b with attrs := b.attrs.set n v }

/-- `set_dataset`.  `build/builders.py:230-257` -/
def setDset (b : Bld) (sb : Bld) : Except BErr Bld :=
  if !sb.isData then .error .type
  else if Dict.has b.attrs sb.name || Dict.has b.groups sb.name || Dict.has b.links sb.name then .error .value
  else .ok { b with dsets := Dict.set b.dsets sb.name sb }

/-- `set_group`.  `build/builders.py:223-228, 244-257` -/
def setGroup (b : Bld) (sb : Bld) : Except BErr Bld :=
  if sb.isData then .error .type
  else if Dict.has b.attrs sb.name || Dict.has b.dsets sb.name || Dict.has b.links sb.name then .error .value
  else .ok { b with groups := Dict.set b.groups sb.name sb }

/-- `set_link`.  `build/builders.py:237-257` -/
def setLink (b : Bld) (n : String) (l : Lnk) : Except BErr Bld :=
  if Dict.has b.attrs n || Dict.has b.dsets n || Dict.has b.groups n then .error .value
  else .ok { b with links := b.links.set n l }

mutual
/-- `is_empty`.  `build/builders.py:259-266` -/
def isEmpty : Bld → Bool
  | ⟨_, _, _, attrs, dsets, groups, links⟩ => dsets.isEmpty && links.isEmpty && attrs.isEmpty && allEmpty groups
/-- `all(g.is_empty() for g in self.groups.values())`.  `build/builders.py:263-264` -/
def allEmpty : List (String × Bld) → Bool
  | [] => true
  | (_, g) :: l => isEmpty g && allEmpty l
end

/-- `__filter_by_spec_dt`.  `build/objectmapper.py:643-677` -/
def filterDt (E : Env) (v : FVal) (dt : String) : Except BErr FVal :=
  match v with
  | .none => .ok .none
  | .data _ => .error .config
  | .one x => .ok (if dt ∈ E.hier (E.heap x).dt then .one x else .none)
  | .many xs =>
    let ys := xs.filter (fun x => decide (dt ∈ E.hier (E.heap x).dt))
    .ok (if ys.isEmpty then .none else .many ys)

/-- `get_attr_value` for a specification with identity `uid` and, if it has one, data type `dt`.
`build/objectmapper.py:558-592, 594-607` -/
def getAttrValue (E : Env) (td : TypeDef) (o : Oid) (uid : Nat) (dt : Option String) : Except BErr FVal :=
  match td.spec2attr.get? uid with
  | none => .ok .none
  | some a =>
    match (E.heap o).fields.get? a with
    | none => .error .config
    | some v =>
      match dt with
      | none => .ok v
      | some t => filterDt E v t

/-- The warnings of `__check_quantity`.  `build/errors.py:52-67` -/
inductive Warn where
  | missing (uid : Nat)
  | quantity (uid : Nat) (n : Nat)
  deriving DecidableEq, Repr

/-- `__check_quantity`, for a specification with data type.  `build/objectmapper.py:679-697` -/
def checkQuantity (s : TSpec) (v : FVal) : Option Warn :=
  match v with
  | .none => if s.qty.required then some (.missing s.uid) else none
  | .data _ => none
  | .one _ => if (match s.qty with | .num n => n != 1 | _ => false) then some (.quantity s.uid 1) else none
  | .many xs =>
    let n := xs.length
    if n != 0 && ((decide (1 < n) && !s.qty.isMany) || (match s.qty with | .num k => n != k | _ => false)) then
      some (.quantity s.uid n)
    else none

/-- The value of an attribute before conversion: fixed by the specification, taken from the container, or the default.
`build/objectmapper.py:1011-1018` -/
def attrVal (E : Env) (td : TypeDef) (o : Oid) (s : ASpec) : Except BErr FVal :=
  match s.value with
  | some d => .ok (.data d)
  | none =>
    match getAttrValue E td o s.uid none with
    | .error e => .error e
    | .ok .none => .ok (match s.default with
      | some d => .data d
      | none => .none)
    | .ok v => .ok v

/-- The value `__add_attributes` gives to the builder for one attribute, `none` if it is skipped.
`build/objectmapper.py:1011-1044, 1046-1060` -/
def attrOut (E : Env) (td : TypeDef) (o : Oid) (s : ASpec) : Except BErr (Option AVal) :=
  match attrVal E td o s with
  | .error e => .error e
  | .ok .none => .ok none
  | .ok (.data d) =>
    if s.isRef then .error .value
    else match E.conv s.uid d with
      | .error _ => .error .build
      | .ok d' => .ok (some (.data d'))
  | .ok (.one x) => if s.isRef then .ok (some (.ref x)) else .error .build
  | .ok (.many _) => .error .build

/-- `builder.set_attribute(spec.name, attr_value)` unless the attribute is skipped.
`build/objectmapper.py:1021-1023, 1044` -/
def putAttr (b : Bld) (n : String) : Option AVal → Except BErr Bld
  | none => .ok b
  | some v => setAttr b n v

/-- `__add_attributes`.  `build/objectmapper.py:1003-1044` -/
def addAttrs (E : Env) (td : TypeDef) (o : Oid) : List ASpec → Bld → Except BErr Bld
  | [], b => .ok b
  | s :: l, b => do
    let v ← attrOut E td o s
    let b ← putAttr b s.name v
    addAttrs E td o l b

/-- `get_builder_name`.  `build/objectmapper.py:1379-1386`, `build/manager.py:831-838` -/
def bname (E : Env) (x : Oid) : String :=
  match E.types (E.heap x).dt with
  | some td => td.fixedName.getD (E.heap x).name
  | none => (E.heap x).name

/-- Whether the container is stored as a dataset.  `build/objectmapper.py:724, 733` -/
def isData (E : Env) (x : Oid) : Bool :=
  match E.types (E.heap x).dt with
  | some td => td.isData
  | none => false

/-- `LinkBuilder(new_builder, name=spec.name)`.  `build/builders.py:405-412`, `build/objectmapper.py:1180, 1201` -/
def lnk (E : Env) (x : Oid) : Lnk := ⟨x, (E.heap x).dt, isData E x⟩

/-- The kinds of specification with a data type.  `build/objectmapper.py:1176-1190` -/
inductive Kind where
  | dset | group | link
  deriving DecidableEq, Repr

/-- `__add_containers` for one container.  `rec x s` builds the child.  `build/objectmapper.py:1154-1206`.  A link to a
container that is not yet built also builds that container; the errors of that build are left out. -/
def addContainer (E : Env) (rec : Oid → List ASpec → Except BErr Bld) (p : Oid) (k : Kind) (s : TSpec) (x : Oid)
    (b : Bld) : Except BErr Bld :=
  if (E.heap x).parent = none ∧ ((E.heap x).source = (E.heap p).source ∨ E.built x = false) then .error .orphan
  else if (E.heap x).modified || E.export_ then
    if k = .link ∨ (E.heap x).parent ≠ some p then setLink b (s.name.getD (bname E x)) (lnk E x)
    else do
      let nb ← rec x s.attrs
      if k = .dset then setDset b nb else setGroup b nb
  else if (E.heap x).source.isSome then
    if (E.heap x).source ≠ (E.heap p).source ∨ (E.heap x).parent ≠ some p then
      setLink b (s.name.getD (bname E x)) (lnk E x)
    else .ok b
  else .error .value

/-- `__add_containers` for a list.  `build/objectmapper.py:1207-1209` -/
def addList (E : Env) (rec : Oid → List ASpec → Except BErr Bld) (p : Oid) (k : Kind) (s : TSpec) :
    List Oid → Bld → Except BErr Bld
  | [], b => .ok b
  | x :: l, b => do
    let b ← addContainer E rec p k s x b
    addList E rec p k s l b

/-- The part of `__add_datasets`, `__add_groups` and `__add_links` for a specification with data type.
`build/objectmapper.py:1070-1075, 1086-1092, 1117-1122, 1148-1152, 1207-1214` -/
def addTyped (E : Env) (rec : Oid → List ASpec → Except BErr Bld) (td : TypeDef) (p : Oid) (k : Kind) (s : TSpec)
    (b : Bld) : Except BErr Bld := do
  let v ← getAttrValue E td p s.uid (some s.dt)
  match v with
  | .none => .ok b
  | .data _ => .error .value
  | .one x => addContainer E rec p k s x b
  | .many xs => addList E rec p k s xs b

/-- `__add_datasets` for a dataset without data type.  `build/objectmapper.py:1086-1092, 1100-1116` -/
def addUntyped (E : Env) (td : TypeDef) (p : Oid) (uid : Nat) (name : String) (attrs : List ASpec) (b : Bld) :
    Except BErr Bld := do
  let v ← getAttrValue E td p uid none
  match v with
  | .none => .ok b
  | .data d =>
    match Dict.get? b.dsets name with
    | some sb => do
      let sb ← addAttrs E td p attrs sb
      .ok { b with dsets := Dict.set b.dsets name sb }
    | none => do
      let d' ← E.conv uid d
      let b ← setDset b (Bld.dataset name d')
      let sb ← addAttrs E td p attrs (Bld.dataset name d')
      .ok { b with dsets := Dict.set b.dsets name sb }
  | _ => .error .build

/-- `__add_datasets`.  `build/objectmapper.py:1077-1122` -/
def addDsets (E : Env) (rec : Oid → List ASpec → Except BErr Bld) (td : TypeDef) (p : Oid) :
    List DS → Bld → Except BErr Bld
  | [], b => .ok b
  | .untyped uid name _ attrs :: l, b => do
    let b ← addUntyped E td p uid name attrs b
    addDsets E rec td p l b
  | .typed s :: l, b => do
    let b ← addTyped E rec td p .dset s b
    addDsets E rec td p l b

/-- `__add_links`.  `build/objectmapper.py:1062-1075` -/
def addLinks (E : Env) (rec : Oid → List ASpec → Except BErr Bld) (td : TypeDef) (p : Oid) :
    List TSpec → Bld → Except BErr Bld
  | [], b => .ok b
  | s :: l, b => do
    let b ← addTyped E rec td p .link s b
    addLinks E rec td p l b

/-- Whether a group without data type is put into its parent.  `build/objectmapper.py:1139-1142` -/
def placeGroup (required : Bool) (sb b : Bld) : Except BErr Bld :=
  if !isEmpty sb || required then
    if Dict.has b.groups sb.name then .ok { b with groups := Dict.set b.groups sb.name sb } else setGroup b sb
  else .ok b

mutual
/-- `__add_groups`.  `build/objectmapper.py:1124-1152`.  A group that already exists is changed in place by Python;
here the changed group is put back. -/
def addGroups (E : Env) (rec : Oid → List ASpec → Except BErr Bld) (td : TypeDef) (p : Oid) :
    GList → Bld → Except BErr Bld
  | .nil, b => .ok b
  | .typed s l, b => do
    let b ← addTyped E rec td p .group s b
    addGroups E rec td p l b
  | .untyped g l, b => do
    let sb ← addInner E rec td p g ((Dict.get? b.groups g.name).getD (Bld.empty g.name))
    let b ← placeGroup g.required sb b
    addGroups E rec td p l b
/-- The body of a group without data type.  `build/objectmapper.py:1130-1138` -/
def addInner (E : Env) (rec : Oid → List ASpec → Except BErr Bld) (td : TypeDef) (p : Oid) :
    GSpec → Bld → Except BErr Bld
  | .mk _ _ _ attrs dsets groups links, b => do
    let b ← addAttrs E td p attrs b
    let b ← addDsets E rec td p dsets b
    let b ← addLinks E rec td p links b
    addGroups E rec td p groups b
end

/-- `list({a.name: a for a in all_attrs[::-1]}.values())`.  `build/objectmapper.py:806-813` -/
def allAttrs (own ext : List ASpec) : List ASpec :=
  Dict.values ((own ++ ext).reverse.foldl (fun d a => Dict.set d a.name a) [])

/-- The data of a `Data` container.  `build/objectmapper.py:733-804`; a `Data` container always has data. -/
def dataOf (E : Env) (td : TypeDef) (o : Oid) : Except BErr Dat :=
  match (E.heap o).fields.get? "data" with
  | some (.data d) => E.conv td.body.uid d
  | _ => .error .build

/-- `BuildManager.build`, `TypeMap.build` and `ObjectMapper.build` for a container that has no builder yet; `ext` are
the attributes of the specification through which the container was reached (`spec_ext`).
`build/manager.py:163-176, 796-812`, `build/objectmapper.py:716-815` -/
def buildObj (E : Env) : Nat → Oid → List ASpec → Except BErr Bld
  | 0, _, _ => .error .recursion
  | n + 1, o, ext =>
    match E.types (E.heap o).dt with
    | none => .error .value
    | some td =>
      if !E.export_ && (E.heap o).source.isSome && E.source.isSome && decide ((E.heap o).source ≠ E.source) then
        .error .value
      else do
        let b ← (if td.isData then do
            let d ← dataOf E td o
            .ok (Bld.dataset (bname E o) d)
          else do
            let b ← addDsets E (buildObj E n) td o td.body.dsets (Bld.empty (bname E o))
            let b ← addGroups E (buildObj E n) td o td.body.groups b
            addLinks E (buildObj E n) td o td.body.links b)
        let b ← addAttrs E td o (allAttrs td.body.attrs ext) b
        let b ← setAttr b "namespace" (.data "core")
        let b ← setAttr b "data_type" (.data (E.heap o).dt)
        setAttr b "object_id" (.data o)

/-- `get_builder_dt`, `get_builder_ns` and the lookup of the object id: a textual attribute of a builder.
`build/manager.py:633-657`, `build/objectmapper.py:1356` -/
def textAttr (b : Bld) (n : String) : Option String :=
  match b.attrs.get? n with
  | some (.data t) => some t
  | _ => none

/-- What stands under a name in a group that is being read: a builder of the group or the target of a link.
`build/objectmapper.py:1238-1248` -/
inductive Sub where
  | own (b : Bld)
  | lnk (l : Lnk)

/-- `manager.get_builder_dt(g)`, `None` as well if the namespace is missing.  `build/objectmapper.py:1284-1287` -/
def Sub.dt : Sub → Option String
  | .own b => match textAttr b "data_type", textAttr b "namespace" with
    | some t, some _ => some t
    | _, _ => none
  | .lnk l => some l.dt

/-- Values by specification, with the flag whether the specification is a storage specification for many, and the
containers constructed so far.  `build/objectmapper.py:1217, 1343-1347` -/
structure Ret where
  vals : Dict Nat (FVal × Bool)
  objs : List (Oid × Obj)

/-- `ret[spec] = value`.  `build/objectmapper.py:1217-1269` -/
def Ret.put (r : Ret) (uid : Nat) (v : FVal) (many : Bool) : Ret := { r with vals := Dict.set r.vals uid (v, many) }

/-- The attributes part of `__get_subspec_values`.  `build/objectmapper.py:1218-1231` -/
def readAttrs (b : Bld) : List ASpec → Ret → Ret
  | [], r => r
  | s :: l, r => readAttrs b l (match b.attrs.get? s.name with
    | none => r
    | some (.data d) => r.put s.uid (.data d) false
    | some (.ref x) => r.put s.uid (.one x) false)

/-- The first loop over the links: the sub-builders of one kind, then the targets of the links of that kind.
`build/objectmapper.py:1237-1245` -/
def overlay (own : List (String × Bld)) (links : Dict String Lnk) (data : Bool) : Dict String Sub :=
  links.foldl (fun d p => if p.2.isData = data then Dict.set d p.1 (Sub.lnk p.2) else d)
    (own.map (fun p => (p.1, Sub.own p.2)))

/-- `link_dt`: the targets of the links by data type.  `build/objectmapper.py:1240, 1246-1248` -/
def linkDt (links : Dict String Lnk) : Dict String (List Sub) :=
  links.foldl (fun d p => Dict.set d p.2.dt ((Dict.get? d p.2.dt).getD [] ++ [Sub.lnk p.2])) []

/-- Enter one sub-builder under its data type and every data type above it.  `build/objectmapper.py:1284-1289` -/
def indexSub (E : Env) (d : Dict String (List Sub)) (s : Sub) : Dict String (List Sub) :=
  match s.dt with
  | none => d
  | some t => (E.hier t).foldl (fun d a => Dict.set d a ((Dict.get? d a).getD [] ++ [s])) d

/-- `builder_dt`.  `build/objectmapper.py:1281-1289` -/
def builderDt (E : Env) (subs : Dict String Sub) : Dict String (List Sub) :=
  subs.foldl (fun d p => indexSub E d p.2) []

/-- `[manager.construct(b) for b in sub_builder]`.  `build/objectmapper.py:1315` -/
def conList (con : Sub → Except BErr (Oid × List (Oid × Obj))) :
    List Sub → Except BErr (List Oid × List (Oid × Obj))
  | [] => .ok ([], [])
  | s :: l => do
    let (x, os) ← con s
    let (xs, os') ← conList con l
    .ok (x :: xs, os ++ os')

/-- `__flatten`.  `build/objectmapper.py:1314-1318` -/
def flatten (many : Bool) (xs : List Oid) : FVal :=
  match xs with
  | [x] => if many then .many [x] else .one x
  | xs => .many xs

/-- Put the flattened construction of a list of sub-builders.  `build/objectmapper.py:1256-1257, 1299-1303` -/
def putList (con : Sub → Except BErr (Oid × List (Oid × Obj))) (s : TSpec) (storage : Bool) (subs : Option (List Sub))
    (r : Ret) : Except BErr Ret :=
  match subs with
  | none => .ok r
  | some l => do
    let (xs, os) ← conList con l
    .ok ⟨Dict.set r.vals s.uid (flatten s.qty.isMany xs, storage && s.qty.isMany), r.objs ++ os⟩

/-- Put the construction of one sub-builder.  `build/objectmapper.py:1253, 1312` -/
def putOne (con : Sub → Except BErr (Oid × List (Oid × Obj))) (s : TSpec) (storage : Bool) (sub : Option Sub)
    (r : Ret) : Except BErr Ret :=
  match sub with
  | none => .ok r
  | some b => do
    let (x, os) ← con b
    .ok ⟨Dict.set r.vals s.uid (.one x, storage && s.qty.isMany), r.objs ++ os⟩

/-- One step of the second loop over the links.  `build/objectmapper.py:1251-1257` -/
def readLink (con : Sub → Except BErr (Oid × List (Oid × Obj))) (links : Dict String Lnk) (s : TSpec) (r : Ret) :
    Except BErr Ret :=
  match s.name.bind (fun n => links.get? n) with
  | some k => putOne con s false (some (.lnk k)) r
  | none => putList con s false (Dict.get? (linkDt links) s.dt) r

/-- The second loop over the links.  `build/objectmapper.py:1250-1257` -/
def readLinks (con : Sub → Except BErr (Oid × List (Oid × Obj))) (links : Dict String Lnk) :
    List TSpec → Ret → Except BErr Ret
  | [], r => .ok r
  | s :: l, r => do
    let r ← readLink con links s r
    readLinks con links l r

/-- The part of `__get_sub_builders` for a specification with data type.  `build/objectmapper.py:1290-1312` -/
def readTyped (con : Sub → Except BErr (Oid × List (Oid × Obj))) (subs : Dict String Sub)
    (idx : Dict String (List Sub)) (s : TSpec) (r : Ret) : Except BErr Ret :=
  match s.name with
  | none => putList con s true (Dict.get? idx s.dt) r
  | some n => putOne con s true (Dict.get? subs n) r

/-- `__get_sub_builders` for datasets, with `__get_subspec_values` for datasets without data type.
`build/objectmapper.py:1259-1269, 1280-1312`.  A link in the place of a dataset without data type is left out. -/
def readDsets (con : Sub → Except BErr (Oid × List (Oid × Obj))) (subs : Dict String Sub)
    (idx : Dict String (List Sub)) : List DS → Ret → Except BErr Ret
  | [], r => .ok r
  | .typed s :: l, r => do
    let r ← readTyped con subs idx s r
    readDsets con subs idx l r
  | .untyped uid name _ attrs :: l, r =>
    match Dict.get? subs name with
    | none => readDsets con subs idx l r
    | some (.lnk _) => .error .value
    | some (.own b) =>
      let r := readAttrs b attrs r
      readDsets con subs idx l (match b.data with
        | none => r
        | some d => r.put uid (.data d) false)

mutual
/-- `__get_sub_builders` for groups.  `build/objectmapper.py:1280-1312`.  `ret.update(...)` of the values of a group
without data type is done by passing `ret` on.  A link in the place of such a group is left out. -/
def readGroups (E : Env) (con : Sub → Except BErr (Oid × List (Oid × Obj))) (subs : Dict String Sub)
    (idx : Dict String (List Sub)) : GList → Ret → Except BErr Ret
  | .nil, r => .ok r
  | .typed s l, r => do
    let r ← readTyped con subs idx s r
    readGroups E con subs idx l r
  | .untyped g l, r =>
    match Dict.get? subs g.name with
    | none => readGroups E con subs idx l r
    | some (.lnk _) => .error .value
    | some (.own b) => do
      let r ← readSpec E con b g r
      readGroups E con subs idx l r
/-- `__get_subspec_values` for a group.  `build/objectmapper.py:1216-1260` -/
def readSpec (E : Env) (con : Sub → Except BErr (Oid × List (Oid × Obj))) (b : Bld) :
    GSpec → Ret → Except BErr Ret
  | .mk _ _ _ attrs dsets groups links, r => do
    let r := readAttrs b attrs r
    let r ← readLinks con b.links links r
    let r ← readGroups E con (overlay b.groups b.links false)
      (builderDt E (overlay b.groups b.links false)) groups r
    readDsets con (overlay b.dsets b.links true) (builderDt E (overlay b.dsets b.links true)) dsets r
end

/-- `existing_value + value` if both are lists.  `build/objectmapper.py:1346-1349` -/
def mergeArg (old : Option FVal) (many : Bool) (v : FVal) : FVal :=
  match many, old, v with
  | true, some (.many a), .many b => .many (a ++ b)
  | _, _, v => v

/-- `const_args`.  `build/objectmapper.py:1335-1350` -/
def constArgs (td : TypeDef) : Dict Nat (FVal × Bool) → Dict String FVal → Dict String FVal
  | [], d => d
  | (uid, v, many) :: l, d => constArgs td l (match td.spec2carg.get? uid with
    | none => d
    | some c => Dict.set d c (mergeArg (Dict.get? d c) many v))

/-- The attributes of the new container: the constructor stores the arguments it takes.
`build/objectmapper.py:1351-1377` -/
def initFields (td : TypeDef) (cargs : Dict String FVal) : Dict String FVal :=
  td.attrs.map (fun a => (a, if (td.args.map Prod.fst).contains a then (Dict.get? cargs a).getD .none else .none))

/-- `BuildManager.construct`, `TypeMap.construct` and `ObjectMapper.construct` for a builder that has no container
yet.  `build/manager.py:258-288, 814-829`, `build/objectmapper.py:1325-1377`.  The parent is given by its object id
instead of a `Proxy`; a builder without object id is left out. -/
def construct (E : Env) : Nat → Option Oid → Bld → Except BErr (Oid × List (Oid × Obj))
  | 0, _, _ => .error .recursion
  | n + 1, par, b =>
    match textAttr b "data_type", textAttr b "object_id" with
    | some t, some o =>
      match E.types t with
      | none => .error .value
      | some td => do
        let con : Sub → Except BErr (Oid × List (Oid × Obj)) := fun s =>
          match s with
          | .own b => construct E n (some o) b
          | .lnk l => .ok (l.target, [])
        let r ← (if td.isData then
            match b.data with
            | none => .error .construct
            | some d => .ok ((readAttrs b td.body.attrs ⟨[], []⟩).put td.body.uid (.data d) false)
          else readSpec E con b td.body ⟨[], []⟩)
        let cargs := constArgs td r.vals (match td.isData, b.data with
          | true, some d => [("data", .data d)]
          | _, _ => [])
        if td.args.any (fun p => p.2 && decide (p.1 ≠ "name") && !Dict.has cargs p.1) then .error .construct
        else .ok (o, r.objs ++ [(o, ⟨b.name, t, par, E.source, false, initFields td cargs⟩)])
    | _, _ => .error .value

end Verif.Mapper

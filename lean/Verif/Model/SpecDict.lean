import Verif.Model.Spec

/-!
# Model of the constructors of specs and of building a spec from a dictionary (spec/spec.py)

A spec is a dict, and `build_spec` makes a spec from a dict (read from a file, or a spec).  Both are modelled by the same records, one
field per key: `none` is an absent key (or the value None).  So `build_spec` goes from records to records, and what the constructor
leaves in the spec is the result.  The order of the keys, keys that are no argument of the constructor (dropped with a warning) and
arguments of a wrong type (refused by docval) are not modelled; `data_type_inc` and `target_type` are names.  Lists and tuples are the
same.  The values of `value` and `default_value` are texts.
-/

namespace Verif.SpecDict
open Verif

/-- a dtype: a name, or the dict of a `RefSpec` (spec/spec.py:175-205) -/
inductive Ty
  | name (s : String)
  | ref (target reftype : String)
  deriving DecidableEq, Repr

/-- an entry of `shape` or `dims`: an entry of a dimension, or one alternative (spec/spec.py:208-223) -/
inductive Ent (α : Type)
  | one (x : α)
  | alt (xs : List α)
  deriving DecidableEq, Repr

/-- spec/spec.py:208-293: the dict of an `AttributeSpec` -/
structure AttrD where
  name : String
  doc : String
  dtype : Option Ty
  shape : Option (List (Ent (Option Nat))) := none
  dims : Option (List (Ent String)) := none
  required : Option Bool := none
  value : Option String := none
  default : Option String := none
  deriving DecidableEq, Repr

/-- spec/spec.py:309-311: a quantity -/
inductive Qty
  | int (n : Int)
  | str (s : String)
  deriving DecidableEq, Repr

/-- spec/spec.py:297-325: the keys of a `BaseStorageSpec` -/
structure Base where
  doc : String
  name : Option String := none
  defaultName : Option String := none
  attributes : List AttrD := []
  linkable : Option Bool := none
  quantity : Option Qty := none
  tdef : Option String := none
  tinc : Option String := none
  deriving DecidableEq, Repr

/-- spec/spec.py:568-590: the dtype of a column of a compound type; a list in it is not looked into, as it is always refused -/
inductive ColTy
  | one (t : Ty)
  | list
  deriving DecidableEq, Repr

/-- spec/spec.py:568-590: the dict of a `DtypeSpec` -/
structure ColD where
  name : String
  doc : String
  dtype : Option ColTy
  deriving DecidableEq, Repr

/-- spec/spec.py:637-655: the dtype of a dataset -/
inductive DsTy
  | one (t : Ty)
  | cols (cs : List ColD)
  deriving DecidableEq, Repr

/-- spec/spec.py:637-700: the dict of a `DatasetSpec` -/
structure DsD where
  base : Base
  dtype : Option DsTy := none
  shape : Option (List (Ent (Option Nat))) := none
  dims : Option (List (Ent String)) := none
  default : Option String := none
  value : Option String := none
  deriving DecidableEq, Repr

/-- spec/spec.py:794-820: the dict of a `LinkSpec` -/
structure LinkD where
  doc : String
  target : String
  quantity : Option Qty := none
  name : Option String := none
  deriving DecidableEq, Repr

/-- spec/spec.py:846-901: the dict of a `GroupSpec` -/
inductive GroupD
  | mk (base : Base) (groups : List GroupD) (datasets : List DsD) (links : List LinkD)

/-- the keys of a group spec that a dataset spec has, too (spec/spec.py:846-901) -/
def GroupD.base : GroupD → Base
  | .mk b _ _ _ => b

/-- `primary_dtype_synonyms` (spec/spec.py:26-44) -/
def synonyms : List (String × List String) :=
  [("float", ["float", "float32"]), ("double", ["double", "float64"]), ("short", ["int16", "short"]), ("int", ["int32", "int"]),
   ("long", ["int64", "long"]), ("utf", ["text", "utf", "utf8", "utf-8"]), ("ascii", ["ascii", "bytes"]), ("bool", ["bool"]),
   ("int8", ["int8"]), ("uint8", ["uint8"]), ("uint16", ["uint16"]), ("uint32", ["uint32", "uint"]), ("uint64", ["uint64"]),
   ("object", ["object"]), ("region", ["region"]), ("numeric", ["numeric"]), ("isodatetime", ["isodatetime", "datetime", "date"])]

/-- `valid_primary_dtypes` (spec/spec.py:50-51) -/
def valid : List String := synonyms.map (·.1) ++ synonyms.flatMap (·.2)

/-- `RefSpec.build_spec` for a dict, `check_dtype` for the rest (spec/spec.py:72-78, 181-189, 287-293) -/
def checkTy : Ty → Except Err Unit
  | .name s => if s ∈ valid then .ok () else .error .valueError
  | .ref _ r => if r = "object" ∨ r = "region" then .ok () else .error .valueError

/-- the shape that goes into the spec, and the comparison of the lengths of `dims` and `shape` (spec/spec.py:246-254, 662-671) -/
def checkShape (shape : Option (List (Ent (Option Nat)))) (dims : Option (List (Ent String))) :
    Except Err (Option (List (Ent (Option Nat)))) :=
  match dims with
  | none => .ok shape
  | some ds =>
    let sh := match shape with
      | none => List.replicate ds.length (.one none)
      | some sh => sh
    if ds.length ≠ sh.length then .error .valueError else .ok (some sh)

/-- spec/spec.py:230-254, 287-293 `AttributeSpec.build_spec`: `__init__` with the dtype built by `build_const_args` -/
def buildAttr (d : AttrD) : Except Err AttrD :=
  match d.dtype with
  | none => .error .keyError
  | some ty =>
    match checkTy ty with
    | .error e => .error e
    | .ok () =>
      let required := if d.required = some false then some false else none
      let required := if d.value.isSome then none else required
      if d.default.isSome && d.value.isSome then .error .valueError
      else
        let required := if d.default.isSome then some false else required
        match checkShape d.shape d.dims with
        | .error e => .error e
        | .ok sh => .ok { d with required := required, shape := sh }

/-- `build_spec` of each dict of a list (spec/spec.py:560-565, 781-792, 1389-1398) -/
def mapE {α β : Type} (f : α → Except Err β) : List α → Except Err (List β)
  | [] => .ok []
  | x :: xs => match f x with
    | .error e => .error e
    | .ok y => match mapE f xs with
      | .error e => .error e
      | .ok ys => .ok (y :: ys)

/-- spec/spec.py:524-550 `set_attribute`: an attribute of the same name is replaced -/
def setAttr : List AttrD → AttrD → List AttrD
  | [], a => [a]
  | x :: xs, a => if x.name = a.name then a :: xs else x :: setAttr xs a

/-- `quantity != DEF_QUANTITY` (spec/spec.py:339-340, 817-818): the quantity kept in the spec -/
def keepQty (q : Option Qty) : Option Qty := if q = some (.int 1) then none else q

/-- spec/spec.py:319-362 `BaseStorageSpec.__init__` -/
def newBase (b : Base) : Except Err Base :=
  if b.name = none ∧ b.tdef = none ∧ b.tinc = none then .error .valueError
  else if (b.quantity = some (.str "+") ∨ b.quantity = some (.str "*")) ∧ b.name ≠ none then .error .valueError
  else .ok
    { b with
      defaultName := if b.defaultName = some "" ∨ b.name ≠ none then none else b.defaultName
      quantity := keepQty b.quantity
      linkable := if b.linkable = some false then some false else none
      attributes := b.attributes.foldl setAttr [] }

/-- spec/spec.py:579-586, 610-634 `DtypeSpec.build_spec`; asking whether a list is in the set of names raises a TypeError -/
def buildCol (c : ColD) : Except Err ColD :=
  match c.dtype with
  | none => .error .keyError
  | some .list => .error .typeError
  | some (.one ty) => match checkTy ty with
    | .error e => .error e
    | .ok () => .ok c

/-- spec/spec.py:783-792: the dtype in `DatasetSpec.build_const_args`; a name is checked later -/
def buildDsTy : Option DsTy → Except Err (Option DsTy)
  | none => .ok none
  | some (.one (.name s)) => .ok (some (.one (.name s)))
  | some (.one (.ref t r)) => match checkTy (.ref t r) with
    | .error e => .error e
    | .ok () => .ok (some (.one (.ref t r)))
  | some (.cols cs) => match mapE buildCol cs with
    | .error e => .error e
    | .ok cs => .ok (some (.cols cs))

/-- spec/spec.py:672-681: the check of the dtype in the constructor of a dataset spec -/
def checkDsTy : Option DsTy → Except Err Unit
  | some (.one ty) => checkTy ty
  | _ => .ok ()

/-- spec/spec.py:658-693 `DatasetSpec.__init__` -/
def newDs (d : DsD) : Except Err DsD :=
  match checkShape d.shape d.dims with
  | .error e => .error e
  | .ok sh => match checkDsTy d.dtype with
    | .error e => .error e
    | .ok () => match newBase d.base with
      | .error e => .error e
      | .ok b =>
        if b.name ≠ none ∧ ¬ (b.quantity = none ∨ b.quantity = some (.int 1) ∨ b.quantity = some (.str "zero_or_one") ∨
            b.quantity = some (.str "?")) then .error .valueError
        else .ok { d with base := b, shape := sh }

/-- spec/spec.py:93-110, 560-565, 783-792 `DatasetSpec.build_spec` -/
def buildDs (d : DsD) : Except Err DsD :=
  match mapE buildAttr d.base.attributes with
  | .error e => .error e
  | .ok as => match buildDsTy d.dtype with
    | .error e => .error e
    | .ok ty => newDs { d with base := { d.base with attributes := as }, dtype := ty }

/-- spec/spec.py:805-818 `LinkSpec.build_spec` -/
def buildLink (l : LinkD) : LinkD := { l with quantity := keepQty l.quantity }

/-- spec/spec.py:1140-1175, 1286-1303, 1319-1336: the table of types when a group or dataset spec is added -/
def addSub (t : Spec.Tab) (b : Base) : Except Err Spec.Tab :=
  match (match b.tdef with | some x => some x | none => b.tinc) with
  | none => if b.name = none then .error .typeError else .ok t
  | some dt => if dt = "" then .error .typeError else Spec.addType t dt b.name

/-- the loops of `GroupSpec.__init__` over groups and datasets (spec/spec.py:883-891) -/
def addSubs : Spec.Tab → List Base → Except Err Spec.Tab
  | t, [] => .ok t
  | t, b :: bs => match addSub t b with
    | .error e => .error e
    | .ok t' => addSubs t' bs

/-- the loop of `GroupSpec.__init__` over links (spec/spec.py:892-894, 1352-1362) -/
def addLinks : Spec.Tab → List LinkD → Except Err Spec.Tab
  | t, [] => .ok t
  | t, l :: ls => match Spec.addType t l.target l.name with
    | .error e => .error e
    | .ok t' => addLinks t' ls

/-- spec/spec.py:880-901 `GroupSpec.__init__` -/
def newGroup (b : Base) (gs : List GroupD) (ds : List DsD) (ls : List LinkD) : Except Err GroupD :=
  match addSubs [] (gs.map GroupD.base) with
  | .error e => .error e
  | .ok t => match addSubs t (ds.map DsD.base) with
    | .error e => .error e
    | .ok _ => match addLinks [] ls with
      | .error e => .error e
      | .ok _ => match newBase b with
        | .error e => .error e
        | .ok b' => .ok (.mk b' gs ds ls)

mutual
/-- spec/spec.py:93-110, 1388-1398 `GroupSpec.build_spec` -/
def buildGroup : GroupD → Except Err GroupD
  | .mk b gs ds ls => match mapE buildAttr b.attributes with
    | .error e => .error e
    | .ok as => match mapE buildDs ds with
      | .error e => .error e
      | .ok ds' => match buildGroups gs with
        | .error e => .error e
        | .ok gs' => newGroup { b with attributes := as } gs' ds' (ls.map buildLink)
/-- `build_spec` of each subgroup (spec/spec.py:1394-1395) -/
def buildGroups : List GroupD → Except Err (List GroupD)
  | [] => .ok []
  | g :: gs => match buildGroup g with
    | .error e => .error e
    | .ok g' => match buildGroups gs with
      | .error e => .error e
      | .ok gs' => .ok (g' :: gs')
end

end Verif.SpecDict

import Verif.Model.Vtypes
import Verif.Model.Vmatch

/-!
# Model of the recursive validation of builders (validate/validator.py:100-182, 269-618, validate/errors.py)

The checks of a dtype name and of a shape are those of `Verif.Vtypes`, the assignment of children to sub-specs that of `Verif.Vmatch`.
-/

namespace Verif.Validate
open Verif Verif.Vtypes Verif.Vmatch

/-- a scalar: a `str` or `bytes` (with or without the format of an ISO date), any other scalar (the name of its type; `numpy.bool_`
is `bool`), a `ReferenceBuilder` or a `RegionBuilder` (with its target) (validate/validator.py:119-139) -/
inductive Atom
  | str (iso : Bool)
  | bytes (iso : Bool)
  | num (type : String)
  | object (target : Nat)
  | region (target : Nat)
  deriving DecidableEq

/-- the values of attributes and datasets (validate/validator.py:119-182) -/
inductive Val
  | atom (a : Atom)
  /-- a group or dataset builder: the value of a reference attribute read from a file -/
  | builder (n : Nat)
  | list (l : List Val)
  /-- a numpy array (not of a compound dtype), of the given shape, and its elements -/
  | nd (dims : List Nat) (elem : Atom)
  /-- an `h5py.Dataset`: its `maxshape` (`none` where it can grow) and the name of its dtype -/
  | dset (maxshape : List (Option Nat)) (dtype : String)
  /-- an `h5py.Dataset` of strings of variable length: its `maxshape` and its first element -/
  | vstr (maxshape : List (Option Nat)) (first : Option Atom)
  /-- a `ReferenceResolver`: a dataset of references -/
  | resolver (maxshape : List (Option Nat)) (dtype : String)
  /-- data of a compound dtype: the number of rows (`none`: a scalar dataset) and the fields of its first row -/
  | compound (rows : Option Nat) (fields : List Atom)

/-- the dtype found in data: a name with the format of the string, a `numpy.dtype`, or the fields of a compound dtype
(validate/validator.py:119-182) -/
inductive Recv
  | name (s : String) (iso : Bool)
  | dtype (s : String)
  | fields (l : List (String × Bool))

/-- validate/validator.py:122-139 `get_type` of a scalar -/
def Atom.type : Atom → String × Bool
  | .str iso => ("utf", iso)
  | .bytes iso => ("ascii", iso)
  | .num t => (t, false)
  | .object _ => ("object", false)
  | .region _ => ("region", false)

/-- the type of a scalar (validate/validator.py:119-139) -/
def Atom.recv (a : Atom) : Recv := .name a.type.1 a.type.2

mutual
/-- validate/validator.py:119-182 `get_type`; `ok none` is `EmptyArrayError`.  A builder is a dict: `data[0]` is a KeyError (simplified: a
dataset builder has an attribute `dtype`). -/
def getType : Val → Except Err (Option Recv)
  | .atom a => .ok (some a.recv)
  | .builder _ => .error .keyError
  | .list l => firstType l
  | .nd dims a => if dims = [] then .error .indexError else if 0 ∈ dims then .ok none else .ok (some a.recv)
  | .dset _ d => .ok (some (.dtype d))
  | .vstr _ none => .ok (some (.name "utf" false))
  | .vstr _ (some a) => .ok (some a.recv)
  | .resolver _ d => .ok (some (.name d false))
  | .compound (some 0) _ => .error .indexError
  | .compound _ fs => .ok (some (.fields (fs.map Atom.type)))
/-- validate/validator.py:178-182: the type of the first element -/
def firstType : List Val → Except Err (Option Recv)
  | [] => .ok none
  | v :: _ => getType v
end

/-- the dimensions up to the first that is 0 (utils.py:905-913: no element to look into) -/
def upToZero : List Nat → List Nat
  | [] => []
  | 0 :: _ => [0]
  | n :: ns => n :: upToZero ns

mutual
/-- utils.py:905-913 `__get_shape_helper` for an element of a list, which is not looked into if it is a string; references are dicts
with one or two keys.  (Simplified: a builder, a dataset or a table in a list has no length.) -/
def elemShape : Val → List Nat
  | .list l => l.length :: firstShape l
  | .nd dims _ => upToZero dims
  | .atom (.object _) => [1]
  | .atom (.region _) => [2]
  | _ => []
/-- utils.py:909-912 -/
def firstShape : List Val → List Nat
  | [] => []
  | v :: _ => elemShape v
end

/-- utils.py:886-925 `get_data_shape`, and validate/validator.py:441-446 for compound data -/
def shapeOf : Val → Option (List (Option Nat))
  | .atom _ => none
  | .builder _ => none
  | .list l => some ((l.length :: firstShape l).map some)
  | .nd dims _ => some (dims.map some)
  | .dset ms _ => some ms
  | .vstr ms _ => some ms
  | .resolver ms _ => some ms
  | .compound none _ => some []
  | .compound (some n) _ => some [some n]

/-- the shape in a spec: none, a list of dimensions, or several (validate/validator.py:185-207; spec/spec.py:276, 759) -/
inductive SShape
  | any
  | dims (l : List (Option Nat))
  | alts (l : List (List (Option Nat)))
  deriving DecidableEq

/-- a dimension of a spec as an argument of `check_shape` (validate/validator.py:185-207) -/
def dimExp : Option Nat → Exp
  | none => .any
  | some n => .num n

/-- a dimension of data as an argument of `check_shape` (validate/validator.py:185-207) -/
def dimRec : Option Nat → Rec
  | none => .none
  | some n => .num n

/-- as the argument of `check_shape` (validate/validator.py:185-207) -/
def SShape.exp : SShape → Exp
  | .any => .any
  | .dims l => .seq (l.map dimExp)
  | .alts l => .seq (l.map fun a => .seq (a.map dimExp))

/-- the shape of data as an argument of `check_shape` (validate/validator.py:185-207) -/
def shapeRec : Option (List (Option Nat)) → Rec
  | none => .none
  | some l => .seq (l.map dimRec)

/-- the dtype in the spec of an attribute (validate/validator.py:355-380; spec/spec.py:227-253) -/
inductive ADtype
  | missing
  | simple (name : String)
  | ref (reftype target : String)
  deriving DecidableEq

/-- the dtype in the spec of a dataset; of the columns of a compound dtype only the names of the dtypes (validate/validator.py:54) -/
inductive DDtype
  | any
  | simple (name : String)
  | ref (reftype : String)
  | compound (fields : List String)
  deriving DecidableEq

/-- `AttributeSpec`.  `value` is the fixed value, if any (spec/spec.py:231-233); the validator does not look at it -/
structure AttrSpec where
  name : String
  required : Bool
  dtype : ADtype
  shape : SShape
  value : Option String

/-- the class of a spec: `GroupSpec`, `DatasetSpec`, `LinkSpec` (spec/spec.py:657, 802, 875) -/
inductive Kind | group | dataset | link
  deriving DecidableEq

/-- `GroupSpec`, `DatasetSpec` or `LinkSpec`: `type` is `data_type` or `target_type`; `subs` are `datasets + groups + links`
(spec/spec.py:305-362, 657-696, 802-840, 875-902) -/
structure Spec where
  kind : Kind
  name : Option String
  type : Option String
  quantity : Quantity
  linkable : Bool
  attrs : List AttrSpec
  dtype : DDtype
  shape : SShape
  subs : List Spec

/-- the last part of `spec.path` (spec/spec.py:155-166), all that counts for the equality of errors with a location -/
def Spec.label (s : Spec) : String := (s.name.or s.type).getD ""

/-- what `SpecMatcher` uses of a sub-spec (validate/validator.py:694-740) -/
def Spec.sub (s : Spec) : Sub := ⟨s.name, s.type, s.quantity⟩

/-- a group or dataset builder: `type` is the attribute that names the data type, `loc` its path (validate/validator.py:299-306), `children` its
datasets, groups and links in this order: name, builder (the target for a link), whether it is a link -/
structure Node where
  isGroup : Bool
  type : Option String
  loc : String
  attrs : Dict String Val
  data : Val
  children : List (String × Nat × Bool)

/-- the builders, which may link to each other in any way (build/builders.py:117-416) -/
abbrev Heap := Nat → Node

/-- the specs of the types (`ValidatorMap.get_validator`), the valid types, and the hierarchies of types
(validate/validator.py:210-303; spec/catalog.py:109-135) -/
structure Env where
  spec : String → Option Spec
  valid : Valid
  hierarchy : String → List String

/-- validate/errors.py:20-50: an error: the last part of its name, its location and reason, which decide equality (66-85) -/
structure VErr where
  name : String
  loc : String
  reason : String
  deriving DecidableEq

/-- a shape in a message (validate/errors.py:149-176) -/
def showDims (l : List (Option Nat)) : String :=
  "(" ++ String.intercalate ", " (l.map fun d => match d with | none => "None" | some n => toString n) ++ ")"

/-- a shape of a spec in a message (validate/errors.py:149-176) -/
def showShape : SShape → String
  | .any => "None"
  | .dims l => showDims l
  | .alts l => String.intercalate "|" (l.map showDims)

/-- a dtype of data in a message (validate/errors.py:88-102) -/
def showRecv : Recv → String
  | .name s _ => s
  | .dtype s => s
  | .fields l => String.intercalate "," (l.map Prod.fst)

/-- a dtype of a spec in a message (validate/errors.py:88-102) -/
def showDtype : DDtype → String
  | .any => "None"
  | .simple s => s
  | .ref s => s ++ " reference"
  | .compound l => String.intercalate "," l

/-- a quantity in a message (validate/errors.py:135-146) -/
def showQuantity : Quantity → String
  | .num n => toString n
  | .str s => s

/-- validate/validator.py:45-89 `check_type`.  A list is in no list of names, and not hashable for the set of `numeric`.  A name where a compound
dtype is expected is compared letter by letter, and no type has a name of one letter (57: `None[0]` is a TypeError); a `numpy.dtype`
without fields has length 0. -/
def checkType : DDtype → Recv → Except Err Bool
  | .any, _ => .ok true
  | .simple d, .name r iso => checkOne d r iso
  | .simple d, .dtype r => checkOne d r false
  | .simple d, .fields _ => match Dict.get? allowable d with
    | none => .error .keyError
    | some _ => if d = "numeric" then .error .typeError else .ok false
  | .ref rt, .name r _ => checkOne rt r false
  | .ref rt, .dtype r => checkOne rt r false
  | .ref rt, .fields _ => match Dict.get? allowable rt with
    | none => .error .keyError
    | some _ => .ok false
  | .compound es, .fields l => checkCompound es l
  | .compound es, .name r iso => if es.length > r.length then .error .valueError else match es with
    | [] => .ok true
    | e :: _ => if e = "isodatetime" ∧ iso = false then .error .typeError else match Dict.get? allowable e with
      | none => .error .keyError
      | some _ => .ok false
  | .compound es, .dtype _ => if es = [] then .ok true else .error .valueError

/-- validate/validator.py:375-380, 436-440, 358-362: the check of the dtype of data: the errors; the data of an empty list is not checked -/
def dtypeErrs (name loc : String) (d : DDtype) (v : Val) : Except Err (List VErr) :=
  match getType v with
  | .error e => .error e
  | .ok none => .ok []
  | .ok (some r) => match checkType d r with
    | .error e => .error e
    | .ok true => .ok []
    | .ok false => .ok [⟨name, loc, "incorrect type - expected '" ++ showDtype d ++ "', got '" ++ showRecv r ++ "'"⟩]

/-- validate/validator.py:381-386, 447-455: the check of the shape.  (The reason also quotes the data where it is not an array.) -/
def shapeErrs (name loc : String) (s : SShape) (v : Val) : Except Err (List VErr) :=
  match checkShape s.exp (shapeRec (shapeOf v)) with
  | .error e => .error e
  | .ok true => .ok []
  | .ok false => match shapeOf v with
    | none => .ok [⟨name, loc, "incorrect shape - expected an array of shape '" ++ showShape s ++ "', got non-array data"⟩]
    | some l => .ok [⟨name, loc, "incorrect shape - expected '" ++ showShape s ++ "', got '" ++ showDims l ++ "'"⟩]

/-- validate/validator.py:355-380: the check of the dtype of the value of an attribute.  Without a dtype `Error(name)` lacks the reason: TypeError.
The target of a reference must be a builder whose type has the target type in its hierarchy; the target type must be known
(else AttributeError), the builder must have a type (else docval raises TypeError). -/
def attrDtypeErrs (env : Env) (h : Heap) (loc : String) (a : AttrSpec) (v : Val) : Except Err (List VErr) :=
  match a.dtype with
  | .missing => .error .typeError
  | .simple d => dtypeErrs a.name loc (.simple d) v
  | .ref rt target => match v with
    | .builder n => match env.spec target with
      | none => .error .attributeError
      | some _ => match (h n).type with
        | none => .error .typeError
        | some t => if target ∈ env.hierarchy t then .ok []
          else .ok [⟨a.name, loc, "incorrect data_type - expected '" ++ target ++ "', got '" ++ t ++ "'"⟩]
    | v => match getType v with
      | .error e => .error e
      | .ok none => .ok []
      | .ok (some r) => .ok [⟨a.name, loc, "incorrect type - expected '" ++ rt ++ " reference', got '" ++ showRecv r ++ "'"⟩]

/-- validate/validator.py:346-387 `AttributeValidator.validate` for a value other than `None`, with the location set by 417-418 -/
def attrValueErrs (env : Env) (h : Heap) (n : Nat) (a : AttrSpec) (v : Val) : Except Err (List VErr) :=
  match attrDtypeErrs env h ((h n).loc ++ "." ++ a.name) a v with
  | .error e => .error e
  | .ok l => match shapeErrs a.name ((h n).loc ++ "." ++ a.name) a.shape v with
    | .error e => .error e
    | .ok l' => .ok (l ++ l')

/-- validate/validator.py:409-419: one attribute -/
def attrErrs (env : Env) (h : Heap) (n : Nat) (a : AttrSpec) : Except Err (List VErr) :=
  match Dict.get? (h n).attrs a.name with
  | none => .ok (if a.required then [⟨a.name, (h n).loc, "argument missing"⟩] else [])
  | some v => attrValueErrs env h n a v

/-- the loops: the errors of all items, or the first exception (validate/validator.py:403-420, 499-503, 553-555) -/
def collect {α : Type} (go : α → Except Err (List VErr)) : List α → Except Err (List VErr)
  | [] => .ok []
  | x :: xs => match go x with
    | .error e => .error e
    | .ok l => match collect go xs with
      | .error e => .error e
      | .ok l' => .ok (l ++ l')

/-- validate/validator.py:404-420 `BaseStorageValidator.validate`.  (The dict of validators by name, 397-399, is the list of the attributes:
`AttributeSpec` names are unique in a spec.) -/
def baseErrs (env : Env) (h : Heap) (s : Spec) (n : Nat) : Except Err (List VErr) := collect (attrErrs env h n) s.attrs

/-- validate/validator.py:431-456 `DatasetValidator.validate` -/
def datasetErrs (env : Env) (h : Heap) (s : Spec) (n : Nat) : Except Err (List VErr) :=
  match baseErrs env h s n with
  | .error e => .error e
  | .ok l1 => match (if s.dtype = .any then .ok [] else dtypeErrs s.label (h n).loc s.dtype (h n).data) with
    | .error e => .error e
    | .ok l2 => match shapeErrs s.label (h n).loc s.shape (h n).data with
      | .error e => .error e
      | .ok l3 => .ok (l1 ++ l2 ++ l3)

/-- validate/validator.py:505-512, 514-527, 539-544: the error about the number of builders of a sub-spec -/
def countErrs (s : Spec) (loc : String) (sub : Spec) (k : Nat) : List VErr :=
  match quantityError sub.quantity k with
  | none => []
  | some .missing => match sub.type with
    | some t => [⟨s.label, loc, "missing data type " ++ t ++ (match sub.name with | some m => " (" ++ m ++ ")" | none => "")⟩]
    | none => [⟨sub.label, loc, "argument missing"⟩]
  | some .incorrect =>
    [⟨s.label, loc, "expected a quantity of " ++ showQuantity sub.quantity ++ " for data type " ++ sub.type.getD "None" ++ ", received " ++ toString k⟩]

/-- `get_validator` (274-287): ValueError for an unknown type -/
def typeSpec (env : Env) (t : String) : Except Err Spec :=
  match env.spec t with
  | none => .error .valueError
  | some s => .ok s

/-- validate/validator.py:567-605 `__get_child_validators`: the specs a child is validated against -/
def childSpecs (env : Env) (sub : Spec) (type : Option String) : List (Except Err Spec) :=
  type.toList.map (typeSpec env) ++ sub.type.toList.map (typeSpec env) ++ (if sub.kind = .link then [] else [.ok sub])

/-- one of these specs, `go` being `validate` (validate/validator.py:553-555) -/
def applySpec (go : Spec → Nat → Except Err (List VErr)) (n : Nat) : Except Err Spec → Except Err (List VErr)
  | .error e => .error e
  | .ok s => go s n

/-- validate/validator.py:546-556 `__validate_child_builder` -/
def childErrs (env : Env) (go : Spec → Nat → Except Err (List VErr)) (loc : String) (sub : Spec) (c : Child) : Except Err (List VErr) :=
  if c.link = true ∧ sub.kind ≠ .link ∧ sub.linkable = false then .ok [⟨sub.label, loc, "illegal use of link"⟩]
  else collect (applySpec go c.ref) (childSpecs env sub c.type)

/-- validate/validator.py:499-503: one sub-spec with the builders matched to it -/
def subErrs (env : Env) (go : Spec → Nat → Except Err (List VErr)) (s : Spec) (loc : String) (m : Spec × List Child) :
    Except Err (List VErr) :=
  match collect (childErrs env go loc m.1) m.2 with
  | .error e => .error e
  | .ok l => .ok (countErrs s loc m.1 m.2.length ++ l)

/-- the children of a builder as `SpecMatcher` sees them: the type of a link is that of its target (718-721) -/
def children (h : Heap) (n : Nat) : List Child := (h n).children.map fun c => ⟨c.1, (h c.2.1).type, c.2.1, c.2.2⟩

/-- validate/validator.py:477-503 `__validate_children` -/
def childrenErrs (env : Env) (h : Heap) (go : Spec → Nat → Except Err (List VErr)) (s : Spec) (n : Nat) : Except Err (List VErr) :=
  match assign env.valid (init (s.subs.map Spec.sub)) (children h n) with
  | .error e => .error e
  | .ok st => collect (subErrs env go s (h n).loc) (s.subs.zip (st.matches_.map Prod.snd))

/-- validate/validator.py:608-618 `_remove_duplicates` -/
def dedupe : List VErr → List VErr → List VErr
  | acc, [] => acc
  | acc, e :: es => if e ∈ acc then dedupe acc es else dedupe (acc ++ [e]) es

/-- validate/validator.py:471-475 `GroupValidator.validate`, 431 `DatasetValidator.validate`: docval raises TypeError if the builder is of the other
kind.  Recursion is bounded. -/
def validate (env : Env) (h : Heap) : Nat → Spec → Nat → Except Err (List VErr)
  | 0, _, _ => .error .runtimeError
  | f + 1, s, n =>
    match s.kind with
    | .link => .error .valueError
    | .dataset => if (h n).isGroup then .error .typeError else datasetErrs env h s n
    | .group => if (h n).isGroup = false then .error .typeError
      else match baseErrs env h s n with
        | .error e => .error e
        | .ok l => match childrenErrs env h (validate env h f) s n with
          | .error e => .error e
          | .ok l' => .ok (dedupe [] (l ++ l'))

/-- validate/validator.py:289-303 `ValidatorMap.validate` -/
def validateRoot (env : Env) (h : Heap) (f : Nat) (n : Nat) : Except Err (List VErr) :=
  match (h n).type with
  | none => .error .valueError
  | some t => match typeSpec env t with
    | .error e => .error e
    | .ok s => validate env h f s n

end Verif.Validate

import Verif.Model.Docval

/-!
# Model of generated classes

`generate_class` with the generators for fields and for fields of many containers (build/classgenerator.py:36-475), the fields a class gathers from its
bases (container.py:184-270), and the constructor of a generated class.  A class is `Container` or one generated from a specification on top of another;
classes written by hand and tables are not modelled.  What `docval` allows for an argument is a predicate on values.
-/

namespace Verif.ClassGen
open Verif

/-- a value: `None`, an object (with its name, if it is a container), or a list, tuple or dict of containers (build/classgenerator.py:339-345, 440-460) -/
inductive Val (V : Type) where
  | none
  | one (v : V) (name : Option String)
  | many (cs : List (String × V))
  deriving DecidableEq

/-- what a container has stored for a field: a value, or the containers by their names (container.py:84-91, 1242-1257) -/
inductive Stored (V : Type) where
  | plain (v : Val V)
  | dict (d : Dict String V)
  deriving DecidableEq

/-- an argument of a constructor: its name, what values it takes, its default (build/classgenerator.py:245-255) -/
structure Arg (V : Type) where
  name : String
  ok : Val V → Bool
  dflt : Option (Val V)

/-- the specification of a field, as far as the generators look at it: whether it is inherited (`is_inherited_spec`, spec/spec.py:1023-1064), a group
without a type, for itself and the specifications around it whether they are required and whether they are the type's own, the fixed value, the default
value, whether its quantity is `*` or `+`, the values its type and shape allow, the name it must have (build/classgenerator.py:54-62, 216-255) -/
structure FSpec (V : Type) where
  inherited : Bool
  untypedGroup : Bool
  levels : List (Bool × Bool)
  value : Option (Val V)
  dflt : Val V
  many : Bool
  ok : Val V → Bool
  reqName : Option String

/-- the specification of a type: fixed name, default name, `attr_names` (build/classgenerator.py:36-52) -/
structure TSpec (V : Type) where
  name : Option V
  defaultName : Option V
  attrs : List (String × FSpec V)

/-- `Container`, or a class generated with another as its base (build/classgenerator.py:36-92) -/
inductive Cls (V : Type) where
  | container
  | gen (parent : Cls V) (spec : TSpec V)

/-- build/classgenerator.py:54-62 `not_inherited_fields` -/
def newFields {V : Type} (s : TSpec V) : List (String × FSpec V) :=
  s.attrs.filter (fun p => decide (p.1 ≠ "help") && !p.2.untypedGroup && !p.2.inherited)

/-- build/classgenerator.py:258-265 `_check_spec_optional`; `None` at the end is taken for false -/
def optional : List (Bool × Bool) → Bool
  | [] => false
  | (req, own) :: rest => if req then (if own then false else optional rest) else true

/-- the argument of `__init__` for a field (build/classgenerator.py:245-255); `(list, tuple, dict, type)` for many (build/classgenerator.py:399-406) -/
def fieldArg {V : Type} (x : String) (f : FSpec V) : Arg V :=
  ⟨x, fun v => match v with
      | .many cs => f.many || f.ok (.many cs)
      | v => f.ok v, if optional f.levels then some f.dflt else none⟩

/-- build/classgenerator.py:268-278 `_add_to_docval_args` -/
def addArg {V : Type} (a : Arg V) (as : List (Arg V)) : List (Arg V) :=
  if as.any (fun b => decide (b.name = a.name)) then as.map (fun b => if b.name = a.name then a else b) else as ++ [a]

/-- the arguments for the new fields, one after the other; none for a fixed value (build/classgenerator.py:66-72, 242-255, 396-406) -/
def addFields {V : Type} : List (String × FSpec V) → List (Arg V) → List (Arg V)
  | [], as => as
  | (x, f) :: fs, as => addFields fs (if f.many || f.value.isNone then addArg (fieldArg x f) as else as)

/-- a fixed name removes the argument `name` (build/classgenerator.py:295-300) -/
def fixName {V : Type} (name : Option V) (as : List (Arg V)) : List (Arg V) :=
  if name.isSome then as.filter (fun a => decide (a.name ≠ "name")) else as

/-- build/classgenerator.py:203-208 `_set_default_name` -/
def setDefaultName {V : Type} (d : Option V) (as : List (Arg V)) : List (Arg V) := match d with
  | none => as
  | some v => as.map (fun a => if a.name = "name" then ⟨a.name, a.ok, some (.one v none)⟩ else a)

/-- arguments without a default come first (utils.py:611-615) -/
def reorder {V : Type} (as : List (Arg V)) : List (Arg V) :=
  as.filter (fun a => a.dflt.isNone) ++ as.filter (fun a => a.dflt.isSome)

/-- `name` of `Container`: a string, here any object that is no container (container.py:301-312) -/
def nameArg (V : Type) : Arg V := ⟨"name", fun v => match v with
  | .one _ none => true
  | _ => false, none⟩

/-- the arguments of `__init__` (build/classgenerator.py:65-82, 281-303, 325-333); `skip_post_init` is kept apart from the others -/
def Cls.args {V : Type} : Cls V → List (Arg V)
  | .container => [nameArg V]
  | .gen p s => reorder (setDefaultName s.defaultName (fixName s.name (addFields (newFields s) p.args)))

/-- the names of the arguments (build/classgenerator.py:312-313) -/
def Cls.argNames {V : Type} (c : Cls V) : List String := c.args.map (fun a => a.name)

/-- the value of one argument: as given if the type allows it, `None` only if it is the default, else the default; the default is not checked
(utils.py:299-372) -/
def bindOne {V : Type} (a : Arg V) (given : Option (Val V)) : Except Err (Val V) := match given with
  | none => match a.dflt with
    | none => .error .typeError
    | some d => .ok d
  | some .none => match a.dflt with
    | some .none => .ok .none
    | _ => .error .typeError
  | some v => if a.ok v then .ok v else .error .typeError

/-- all arguments (utils.py:299-372) -/
def bindAll {V : Type} (kw : Dict String (Val V)) : List (Arg V) → Except Err (Dict String (Val V))
  | [] => .ok []
  | a :: as => match bindOne a (Dict.get? kw a.name) with
    | .error e => .error e
    | .ok v => match bindAll kw as with
      | .error e => .error e
      | .ok d => .ok ((a.name, v) :: d)

/-- keyword arguments as `docval` checks them; arguments not known are an error (utils.py:286-372); positional arguments are not modelled here -/
def bind {V : Type} (as : List (Arg V)) (kw : Dict String (Val V)) : Except Err (Dict String (Val V)) :=
  if kw.any (fun p => !(as.map (fun a => a.name)).contains p.1) then .error .typeError else bindAll kw as

/-- a property: without a setter, of a field, or of a dict of containers (container.py:74-92, 576-622, 1242-1270) -/
inductive Prop' where
  | readonly
  | plain (reqName : Option String)
  | multi
  deriving DecidableEq

/-- properties of `Container` without a setter (container.py:98, 407, 423, 436, 453, 465, 639, 660) -/
def readonlyNames : List String := ["data_type", "all_objects", "fields", "object_id", "modified", "children", "css_style", "js_script"]

/-- the public attributes and methods of `Container`; a field of such a name gets no property (container.py:34-570, 571-875,
build/classgenerator.py:88-89) -/
def containerAttrs : List String := readonlyNames ++ ["name", "link_resources", "get_linked_resources", "get_fields_conf", "read_io", "get_read_io",
  "get_ancestor", "all_children", "get_ancestors", "generate_new_id", "set_modified", "add_child", "type_hierarchy", "container_source", "parent",
  "reset_parent", "set_data_io", "post_init_method", "skip_post_init"]

/-- the property for a new field (container.py:262-267, 1311-1316) -/
def propOf {V : Type} (f : FSpec V) : Prop' :=
  if f.many then .multi else if f.value.isSome then .readonly else .plain f.reqName

/-- the property a name leads to: it is created only if the class does not have the attribute yet (container.py:262-267, 1311-1316).  Other attributes of
`Container` are not modelled -/
def lookup {V : Type} : Cls V → String → Option Prop'
  | .container, x => if x ∈ readonlyNames then some .readonly else none
  | .gen p s, x => match lookup p x with
    | some q => some q
    | none => match Dict.get? (newFields s) x with
      | none => none
      | some f => some (propOf f)

/-- a new container: its name, its fields, the calls of `post_init_method` with the arguments and the fields at that time
(build/classgenerator.py:334-367) -/
structure St (V : Type) where
  name : Val V
  fields : Dict String (Stored V)
  calls : List (Dict String (Val V) × Dict String (Stored V))
  deriving DecidableEq

/-- the containers added to a dict; ValueError for a name that is there already (container.py:1166-1182).  Parents are not modelled here -/
def addNames {V : Type} (d : Dict String V) : List (String × V) → Except Err (Dict String V)
  | [] => .ok d
  | (n, v) :: cs => if Dict.has d n then .error .valueError else addNames (Dict.set d n v) cs

/-- the containers stored for a field, none if there are none yet (container.py:1242-1257) -/
def stored {V : Type} (st : St V) (x : String) : Dict String V := match Dict.get? st.fields x with
  | some (.dict d) => d
  | _ => []

/-- `add_x` with a list of containers (container.py:1150-1184) -/
def addList {V : Type} (st : St V) (x : String) (cs : List (String × V)) : Except Err (St V) :=
  match addNames (stored st x) cs with
  | .error e => .error e
  | .ok d => .ok ⟨st.name, Dict.set st.fields x (.dict d), st.calls⟩

/-- `add_x` with a container or several (container.py:1150-1184) -/
def addMany {V : Type} (st : St V) (x : String) : Val V → Except Err (St V)
  | .many cs => addList st x cs
  | .one v (some n) => addList st x [(n, v)]
  | _ => .error .typeError

/-- whether the value has the name required (container.py:586-597) -/
def nameOk {V : Type} (r : Option String) (v : Val V) : Bool := match r with
  | none => true
  | some n => match v with
    | .one _ (some m) => decide (m = n)
    | _ => false

/-- `setattr(self, x, v)` of a field (container.py:82-91, 585-619, 1259-1270) -/
def setField {V : Type} (self : Cls V) (st : St V) (x : String) (v : Val V) : Except Err (St V) := match lookup self x with
  | none => .ok st
  | some .readonly => .error .attributeError
  | some (.plain r) => if v matches .none then .ok st
    else if nameOk r v then
      if Dict.has st.fields x then .error .attributeError else .ok ⟨st.name, Dict.set st.fields x (.plain v), st.calls⟩
    else .error .valueError
  | some .multi => match v with
    | .none => .ok st
    | .many cs => addList st x cs
    | .one _ _ => .error .typeError

/-- the fields that are new, set one after the other (build/classgenerator.py:356-358) -/
def setLoop {V : Type} (self : Cls V) : List (String × Val V) → St V → Except Err (St V)
  | [], st => .ok st
  | (x, v) :: xs, st => match setField self st x v with
    | .error e => .error e
    | .ok st' => setLoop self xs st'

/-- the fields with fixed values (build/classgenerator.py:360-363) -/
def setFixed {V : Type} : List (String × FSpec V) → St V → St V
  | [], st => st
  | (x, f) :: fs, st => match f.value with
    | none => setFixed fs st
    | some v => setFixed fs ⟨st.name, Dict.set st.fields x (.plain v), st.calls⟩

/-- the call of `post_init_method` of the class of the object (build/classgenerator.py:365-366, 470-471) -/
def callPost {V : Type} (post skip : Bool) (kw : Dict String (Val V)) (st : St V) : St V :=
  if post && !skip then ⟨st.name, st.fields, st.calls ++ [(kw, st.fields)]⟩ else st

/-- the names of the fields to set after the constructor of the base (build/classgenerator.py:316-326) -/
def attrsToSet {V : Type} (pargs : List String) (s : TSpec V) : List String :=
  ((newFields s).filter (fun p => p.2.value.isNone && !pargs.contains p.1)).map (fun p => p.1)

/-- the arguments with the fixed name (build/classgenerator.py:341-342) -/
def forceName {V : Type} (name : Option V) (kw : Dict String (Val V)) : Dict String (Val V) := match name with
  | none => kw
  | some v => Dict.set kw "name" (.one v none)

/-- the constructor made by `CustomClassGenerator`, after the arguments have been checked (build/classgenerator.py:335-366) -/
def body {V : Type} (post : Bool) (self : Cls V) (base : Dict String (Val V) → St V → Except Err (St V)) (pargs : List String) (s : TSpec V)
    (kw : Dict String (Val V)) (skip : Bool) (st : St V) : Except Err (St V) :=
  match base ((forceName s.name kw).filter (fun p => !(attrsToSet pargs s).contains p.1 && pargs.contains p.1)) st with
  | .error e => .error e
  | .ok st1 => match setLoop self ((attrsToSet pargs s).map (fun x => (x, (Dict.get? (forceName s.name kw) x).getD .none))) st1 with
    | .error e => .error e
    | .ok st2 => .ok (callPost post skip kw (setFixed (newFields s) st2))

/-- the fields of many containers (build/classgenerator.py:372-375, 388-395) -/
def manyFields {V : Type} (s : TSpec V) : List String := ((newFields s).filter (fun p => p.2.many)).map (fun p => p.1)

/-- the values for fields of many containers replaced by empty lists (build/classgenerator.py:443-461) -/
def emptied {V : Type} (ms : List String) (kw : Dict String (Val V)) : Dict String (Val V) :=
  kw.map (fun p => if ms.contains p.1 then (p.1, if p.2 matches .none then .none else .many []) else p)

/-- the containers added after the constructor (build/classgenerator.py:466-469) -/
def addLoop {V : Type} (kw : Dict String (Val V)) : List String → St V → Except Err (St V)
  | [], st => .ok st
  | x :: xs, st => match Dict.get? kw x with
    | none => addLoop kw xs st
    | some .none => addLoop kw xs st
    | some v => match addMany st x v with
      | .error e => .error e
      | .ok st' => addLoop kw xs st'

/-- the constructor of a class for an object of class `self`.  `common`: the generator of tables is registered too, as in `hdmf.common`; it comes last and
makes the constructor again with the method it inherits (build/classgenerator.py:77-80, common/io/table.py:48-122), so that the one made for fields of many
containers (build/classgenerator.py:433-475) is lost.  `post`: the class of the object has a `post_init_method`.  `skip`: `skip_post_init`
(build/classgenerator.py:309-367) -/
def init {V : Type} (common post : Bool) (self : Cls V) : Cls V → Dict String (Val V) → Bool → St V → Except Err (St V)
  | .container, kw, _, st => match bind [nameArg V] kw with
    | .error e => .error e
    | .ok b => .ok ⟨(Dict.get? b "name").getD .none, st.fields, st.calls⟩
  | .gen p s, kw, skip, st => match bind (Cls.args (.gen p s)) kw with
    | .error e => .error e
    | .ok b =>
      if common || (manyFields s).isEmpty then body post self (fun k t => init common post self p k false t) p.argNames s b skip st
      else if skip then .error .typeError
      else match bind (Cls.args (.gen p s)) (emptied (manyFields s) b) with
        | .error e => .error e
        | .ok b' => match body post self (fun k t => init common post self p k false t) p.argNames s b' true st with
          | .error e => .error e
          | .ok st1 => match addLoop b (manyFields s) st1 with
            | .error e => .error e
            | .ok st2 => .ok (callPost post false b st2)

/-- a new object (build/classgenerator.py:309-367) -/
def new {V : Type} (common post : Bool) (c : Cls V) (kw : Dict String (Val V)) (skip : Bool) : Except Err (St V) :=
  init common post c c kw skip ⟨.none, [], []⟩

/-! ## The fields of a class -/

/-- whether the class is a `MultiContainerInterface` (build/classgenerator.py:417-431) -/
def Cls.isMulti {V : Type} : Cls V → Bool
  | .container => false
  | .gen p s => p.isMulti || !(manyFields s).isEmpty

/-- the fields a specification adds to `__fields__` (build/classgenerator.py:230-240); fields of many containers are not among them -/
def ownFields {V : Type} (s : TSpec V) : List String := ((newFields s).filter (fun p => !p.2.many)).map (fun p => p.1)

/-- `__fields__` of a class (container.py:218-270).  The last base that is a container is the one whose fields are taken: with fields of many containers new
to a class generated before, this is `MultiContainerInterface`, which has none (build/classgenerator.py:420-431) -/
def Cls.fieldNames {V : Type} : Cls V → List String
  | .container => []
  | .gen p s =>
    if (ownFields s).isEmpty then p.fieldNames
    else if !(manyFields s).isEmpty && !p.isMulti then ownFields s
    else p.fieldNames.filter (fun x => !(ownFields s).contains x) ++ ownFields s

/-! ## Types of values -/

/-- `_spec_dtype_map` (build/classgenerator.py:112-138) -/
def specDtypeMap : Dict String (List String) := [
  ("float32", ["builtins.float", "numpy.float32", "numpy.float64"]),
  ("float", ["builtins.float", "numpy.float32", "numpy.float64"]),
  ("float64", ["builtins.float", "numpy.float64"]),
  ("double", ["builtins.float", "numpy.float64"]),
  ("int8", ["numpy.int8", "numpy.int16", "numpy.int32", "numpy.int64", "builtins.int"]),
  ("int16", ["numpy.int16", "numpy.int32", "numpy.int64", "builtins.int"]),
  ("short", ["numpy.int16", "numpy.int32", "numpy.int64", "builtins.int"]),
  ("int32", ["builtins.int", "numpy.int32", "numpy.int64"]),
  ("int", ["builtins.int", "numpy.int32", "numpy.int64"]),
  ("int64", ["numpy.int64"]),
  ("long", ["numpy.int64"]),
  ("uint8", ["numpy.uint8", "numpy.uint16", "numpy.uint32", "numpy.uint64"]),
  ("uint16", ["numpy.uint16", "numpy.uint32", "numpy.uint64"]),
  ("uint32", ["numpy.uint32", "numpy.uint64"]),
  ("uint64", ["numpy.uint64"]),
  ("numeric", ["builtins.float", "numpy.float32", "numpy.float64", "numpy.int8", "numpy.int16", "numpy.int32", "numpy.int64", "builtins.int",
    "numpy.uint8", "numpy.uint16", "numpy.uint32", "numpy.uint64"]),
  ("text", ["builtins.str"]), ("utf", ["builtins.str"]), ("utf8", ["builtins.str"]), ("utf-8", ["builtins.str"]),
  ("ascii", ["builtins.bytes"]), ("bytes", ["builtins.bytes"]),
  ("bool", ["builtins.bool", "numpy.bool_"]),
  ("isodatetime", ["datetime.datetime", "datetime.date"]),
  ("datetime", ["datetime.datetime", "datetime.date"])]

/-- `valid_primary_dtypes` (spec/spec.py:24-50) -/
def validDtypes : List String := ["float", "float32", "double", "float64", "int16", "short", "int32", "int", "int64", "long", "text", "utf", "utf8", "utf-8",
  "ascii", "bytes", "bool", "int8", "uint8", "uint16", "uint32", "uint", "uint64", "object", "region", "numeric", "isodatetime", "datetime", "date"]

/-- build/classgenerator.py:141-150 `_get_type_from_spec_dtype`; `none`: no dtype -/
def typeOfDtype (d : Option String) : Except Err (List String) := match d with
  | none => .error .valueError
  | some s => match Dict.get? specDtypeMap s with
    | none => .error .valueError
    | some ts => .ok ts

/-- whether the argument of a scalar field of the dtype takes the value (build/classgenerator.py:164-189, utils.py:70-115) -/
def takes (ts : List String) (v : Docval.Val) : Bool := ts.any (fun t => Docval.checkCls v ⟨t, ""⟩)

end Verif.ClassGen

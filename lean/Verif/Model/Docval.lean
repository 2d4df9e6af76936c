import Verif.Base.Py

/-!
# Model of `docval` argument parsing (utils.py:70-390, 596-676)

Simplifications: a Python value is reduced to what the parser looks at: `None`, an object with an identity, the classes
of its MRO and the shape reported by `get_data_shape` (utils.py:886-925), a shapeless object having one attribute, or a
`TermSetWrapper`.  `isinstance` is membership in the MRO (no virtual subclasses).  Error messages keep only their kind
and the argument name.  `copy.deepcopy` of defaults is the identity on values.  `FutureWarning`s are not modelled.
-/

namespace Verif.Docval

open Verif

/-- A class: `module.qualname` and `__name__`. (utils.py:70-115) -/
structure Cls where
  full : String
  name : String
  deriving DecidableEq, Repr

/-- The shape of a value or of an array argument: `None` stands for an unlimited dimension (utils.py:118-132) -/
abbrev Shape := List (Option Nat)   -- `None` = unlimited dimension (maxshape)

/-- A Python value as the parser sees it: `None`, or an object with identity, classes, possibly a shape, possibly wrapped in a DataIO or TermSetWrapper (utils.py:70-147, 191-390) -/
inductive Val where
  | none
  /-- an object with its MRO and shape -/
  | obj (id : Nat) (mro : List Cls) (shape : Option Shape)
  /-- an object without shape that has an attribute `a` with value `v` -/
  | objAttr (id : Nat) (mro : List Cls) (a : String) (v : Val)
  /-- `TermSetWrapper(value=v)` -/
  | wrapped (v : Val)
  deriving DecidableEq, Repr

/-- The classes of a value. The MRO of `None`'s class is never consulted (utils.py:84-85). -/
def Val.mro : Val → List Cls
  | .none => []
  | .obj _ m _ => m
  | .objAttr _ m _ _ => m
  | .wrapped _ => [⟨"hdmf.term_set.TermSetWrapper", "TermSetWrapper"⟩, ⟨"builtins.object", "object"⟩]

/-- An argument type: `None` (anything), a class, a string, or a tuple/list of types. (utils.py:70-115) -/
inductive Ty where
  | any
  | cls (c : Cls)
  | str (s : String)
  | alts (ts : List Ty)

/-- utils.py:30-43: the supported int/float/bool/uint classes (bool is a subclass of int, hence an int by MRO). -/
def boolClasses : List String := ["builtins.bool", "numpy.bool_"]
/-- utils.py:22-40, 135-136 -/
def uintClasses : List String := ["numpy.uint8", "numpy.uint16", "numpy.uint32", "numpy.uint64"]
/-- utils.py:22-40, 139-140 -/
def intClasses : List String := ["builtins.int", "numpy.int8", "numpy.int16", "numpy.int32", "numpy.int64"]
/-- utils.py:22-40, 143-144 -/
def floatClasses : List String :=
  ["builtins.float", "numpy.float16", "numpy.float32", "numpy.float64", "numpy.float128", "numpy.longdouble"]

/-- `isinstance(value, classes)` (utils.py:70-147) -/
def isinstanceOf (v : Val) (classes : List String) : Bool := v.mro.any (fun c => classes.contains c.full)

/-- The registered macros (utils.py:13-23, `docval_macro` 46-55): name ↦ classes. -/
abbrev Macros := Dict String (List Cls)

/-- utils.py:108-115: class given as a type object (`int`, `float`, `bool` are widened to the numpy classes). -/
def checkCls (v : Val) (c : Cls) : Bool :=
  if c.full = "builtins.int" then isinstanceOf v intClasses
  else if c.full = "builtins.float" then isinstanceOf v floatClasses
  else if c.full = "builtins.bool" then isinstanceOf v boolClasses
  else isinstanceOf v [c.full]

/-- utils.py:93-107: type given as a string. Macros map to lists of classes. -/
def checkStr (ms : Macros) (v : Val) (s : String) : Bool :=
  match Dict.get? ms s with
  | some cs => cs.any (checkCls v)
  | none =>
    if s = "uint" then isinstanceOf v uintClasses
    else if s = "int" then isinstanceOf v intClasses
    else if s = "float" then isinstanceOf v floatClasses
    else if s = "bool" then isinstanceOf v boolClasses
    else v.mro.any (fun c => c.full = s || c.name = s)

mutual
/-- utils.py:70-115 `check_type` for a value other than `None`. -/
def checkTyObj (ms : Macros) (v : Val) : Ty → Bool
  | .any => true
  | .cls c => checkCls v c
  | .str s => checkStr ms v s
  | .alts ts => checkTyAny ms v ts

/-- utils.py:82-83, 88-90: `any(check_type(value, i) for i in argtype)` -/
def checkTyAny (ms : Macros) (v : Val) : List Ty → Bool
  | [] => false
  | t :: ts => checkTyObj ms v t || checkTyAny ms v ts
end

/-- utils.py:70-115 `check_type(value, argtype, allow_none)`: `None` is decided by `allow_none` alone. -/
def checkType (ms : Macros) (v : Val) (t : Ty) (allowNone : Bool) : Bool :=
  match v with
  | .none => allowNone
  | v => checkTyObj ms v t

/-- A shape constraint: one shape or several alternatives. (utils.py:118-132) -/
inductive ShapeSpec where
  | single (dims : List (Option Nat))
  | multi (alts : List (List (Option Nat)))
  deriving DecidableEq, Repr

/-- utils.py:125-132 `__shape_okay` on the shape of the value. -/
def shapeOkay (valshape : Shape) (argshape : List (Option Nat)) : Bool :=
  if valshape.length = argshape.length then
    (valshape.zip argshape).all (fun (a, b) => b = a || b = none)
  else false

/-- utils.py:118-122 `__shape_okay_multi`; `argshape[0]` on an empty sequence is an uncaught IndexError. -/
def shapeOkayMulti (valshape : Shape) : ShapeSpec → Except Err Bool
  | .single [] => .error .indexError
  | .multi [] => .error .indexError
  | .single ds => .ok (shapeOkay valshape ds)
  | .multi as => .ok (as.any (shapeOkay valshape))

/-- A parameter of a docval signature. `default = none` means required. (utils.py:588-632) -/
structure Param where
  name : String
  ty : Ty
  default : Option Val := none
  allowNone : Bool := false
  shape : Option ShapeSpec := none
  enum : Option (List Val) := none

/-- Kinds of entries in `type_errors`. (utils.py:191-390) -/
inductive TErr where
  | tooMany
  | multiple (n : String)
  | missing (n : String)
  | badType (n : String)
  | unrecognized (n : String)
  deriving DecidableEq, Repr

/-- Kinds of entries in `value_errors`. (utils.py:191-390) -/
inductive VErr where
  | duplicated
  | noShape (n : String)
  | badShape (n : String)
  | badEnum (n : String)
  deriving DecidableEq, Repr

/-- `allow_positional` (utils.py:27) -/
inductive AllowPos where | allowed | warning | error
  deriving DecidableEq, Repr

/-- What the parser asks about types and shapes, kept as parameters (utils.py:70-147, 168-180) -/
structure Cfg where
  enforceType : Bool := true
  enforceShape : Bool := true
  allowExtra : Bool := false
  allowPos : AllowPos := .allowed
  macros : Macros := []

/-- The dict returned by `__parse_args`. (utils.py:386-390) -/
structure Parsed where
  args : Dict String Val
  terr : List TErr
  verr : List VErr
  serr : Bool            -- `syntax_errors` non-empty
  deriving DecidableEq, Repr

/-- The `while valshape is None` loop (utils.py:290-303 / 350-363): the value finally looked at, its shape if any, and
whether "cannot check shape" was reported. -/
def unpack (argname : String) : Val → Val × Option Shape × Bool
  | .none => (.none, none, false)
  | .obj i m (some s) => (.obj i m (some s), some s, false)
  | .obj i m none => (.obj i m none, none, true)
  | .objAttr i m a v => if a = argname then unpack argname v else (.objAttr i m a v, none, true)
  | .wrapped v => match unpack argname v with
    | (w, s, e) => (if w = v then .wrapped v else w, s, e)

/-- shape check common to both loops: (value after unpacking, value errors) (utils.py:262-283, 326-347) -/
def shapeCheck (p : Param) (ss : ShapeSpec) (v : Val) : Except Err (Val × List VErr) :=
  match unpack p.name v with
  | (w, none, e) => .ok (w, if e then [.noShape p.name] else [])
  | (w, some s, _) => do
    let okay ← shapeOkayMulti s ss
    .ok (w, if okay then [] else [.badShape p.name])

/-- utils.py:168-179 `__check_enum` -/
def enumCheck (p : Param) (v : Val) : List VErr :=
  match p.enum with
  | none => []
  | some vs => if vs.contains v then [] else [.badEnum p.name]

/-- `argval.value` if it is a TermSetWrapper (utils.py:275-279) -/
def unwrap : Val → Val
  | .wrapped v => v
  | v => v

/-- utils.py:270-317: check a value for a required parameter; returns the value stored in `ret`, which is the
*unpacked* one unless the argument was a TermSetWrapper. -/
def checkReq (cfg : Cfg) (p : Param) (given : Val) : Except Err (Val × List TErr × List VErr) := do
  let v := unwrap given
  let te := if cfg.enforceType && !checkType cfg.macros v p.ty false then [TErr.badType p.name] else []
  let (w, ve) ← (match p.shape with
    | some ss => if cfg.enforceShape then shapeCheck p ss v else .ok (v, [])
    | none => .ok (v, []))
  let ve := ve ++ enumCheck p w
  .ok (match given with | .wrapped g => .wrapped g | _ => w, te, ve)

/-- utils.py:334-371: check a value for a parameter with default `dflt`; `ret` keeps the value as given. -/
def checkOpt (cfg : Cfg) (p : Param) (dflt given : Val) : Except Err (List TErr × List VErr) := do
  let v := unwrap given
  let te := if cfg.enforceType && !checkType cfg.macros v p.ty (dflt = .none || p.allowNone)
    then [TErr.badType p.name] else []
  let (w, ve) ← (match p.shape with
    | some ss => if cfg.enforceShape && v ≠ .none then shapeCheck p ss v else .ok (v, [])
    | none => .ok (v, []))
  let ve := ve ++ (if w ≠ .none then enumCheck p w else [])
  .ok (te, ve)

/-- Loop state: `argsi`, `ret`, `extras`, errors. (utils.py:191-260) -/
structure St where
  argsi : Nat
  ret : Dict String Val
  extras : Dict String Val
  terr : List TErr
  verr : List VErr
  deriving DecidableEq, Repr

/-- utils.py:323-373: second loop, parameters with defaults.  A parameter without default here is an uncaught KeyError
(docval puts required parameters first, so this does not happen: utils.py:626-630). -/
def optLoop (cfg : Cfg) (args : List Val) (kwargs : Dict String Val) : List Param → St → Except Err St
  | [], st => .ok st
  | p :: ps, st =>
    match p.default with
    | none => .error .keyError
    | some dflt => do
      let (v, argsi, extras) := match Dict.get? kwargs p.name with
        | some v => (v, st.argsi, st.extras.del p.name)
        | none => match args[st.argsi]? with
          | some v => (v, st.argsi + 1, st.extras)
          | none => (dflt, st.argsi, st.extras)
      let (te, ve) ← checkOpt cfg p dflt v
      optLoop cfg args kwargs ps
        { argsi, ret := st.ret.set p.name v, extras, terr := st.terr ++ te, verr := st.verr ++ ve }

/-- utils.py:251-320: first loop, required parameters, up to the first parameter with a default. -/
def reqLoop (cfg : Cfg) (args : List Val) (kwargs : Dict String Val) : List Param → St → Except Err St
  | [], st => .ok st
  | p :: ps, st =>
    match p.default with
    | some _ => optLoop cfg args kwargs (p :: ps) st
    | none => do
      let (given?, te0, extras) := match Dict.get? kwargs p.name with
        | some v => (some v, if st.argsi < args.length then [TErr.multiple p.name] else [], st.extras.del p.name)
        | none => match args[st.argsi]? with
          | some v => (some v, [], st.extras)
          | none => (none, [TErr.missing p.name], st.extras)
      match given? with
      | none => reqLoop cfg args kwargs ps { st with argsi := st.argsi + 1, extras, terr := st.terr ++ te0 }
      | some given => do
        let (w, te, ve) ← checkReq cfg p given
        reqLoop cfg args kwargs ps
          { argsi := st.argsi + 1, ret := st.ret.set p.name w, extras,
            terr := st.terr ++ te0 ++ te, verr := st.verr ++ ve }

/-- utils.py:225-240: the checks before the loops. -/
def preCheck (cfg : Cfg) (sig : List Param) (args : List Val) (kwargs : Dict String Val) :
    List TErr × List VErr :=
  if ¬ (sig.map Param.name).Nodup then ([], [.duplicated])
  else if cfg.allowExtra then
    if args.length > sig.length then ([.tooMany], []) else ([], [])
  else if args.length + kwargs.length > sig.length then ([.tooMany], []) else ([], [])

/-- utils.py:191-390 `__parse_args`.  `.error` is an exception that `__parse_args` does not catch. -/
def parseArgs (cfg : Cfg) (sig : List Param) (args : List Val) (kwargs : Dict String Val) : Except Err Parsed := do
  let serr := decide (args ≠ [] ∧ cfg.allowPos = .error)
  let pre := preCheck cfg sig args kwargs
  if pre ≠ ([], []) then
    .ok { args := [], terr := pre.1, verr := pre.2, serr := false }
  else match sig with
    | [] => .ok { args := [], terr := [], verr := [], serr }      -- `next(it)` raises StopIteration, extras = {}
    | _ :: _ => do
      let st ← reqLoop cfg args kwargs sig { argsi := 0, ret := [], extras := kwargs, terr := [], verr := [] }
      if cfg.allowExtra then
        .ok { args := st.extras.foldl (fun r kv => r.set kv.1 kv.2) st.ret, terr := st.terr, verr := st.verr, serr }
      else
        .ok { args := st.ret, terr := st.terr ++ st.extras.map (fun kv => .unrecognized kv.1), verr := st.verr, serr }

/-- utils.py:626-631: required parameters first, then those with defaults. -/
def reorder (sig : List Param) : List Param :=
  sig.filter (fun p => p.default.isNone) ++ sig.filter (fun p => p.default.isSome)

/-- utils.py:633-665 `_check_args`: the kwargs handed to the decorated function, or the exception raised. -/
def call (cfg : Cfg) (sig : List Param) (args : List Val) (kwargs : Dict String Val) :
    Except Err (Dict String Val) := do
  let parsed ← parseArgs cfg (reorder sig) args kwargs
  if parsed.terr ≠ [] then .error .typeError
  else if parsed.verr ≠ [] then .error .valueError
  else if parsed.serr then .error .syntaxError
  else .ok parsed.args

end Verif.Docval

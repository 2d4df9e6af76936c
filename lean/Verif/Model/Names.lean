import Verif.Base.Py

/-!
# Model of the names which an `ObjectMapper` gives to specs (build/objectmapper.py)

A name is a list of characters.  A spec is a key of dictionaries by its identity (spec/spec.py:151-152), here the number `id`.  Letters are
ASCII letters; newlines, which `.` does not match, do not occur in names of types.
-/

namespace Verif.Names
open Verif

/-- a Python `str` (build/objectmapper.py:428-437) -/
abbrev Name := List Char

/-- `re.sub('(.)([A-Z][a-z]+)', r'\1_\2', name)`: matches from left to right that do not overlap; the fuel is the length of the name
(build/objectmapper.py:433) -/
def sub1 : Nat → Name → Name
  | 0, s => s
  | _ + 1, [] => []
  | _ + 1, [c] => [c]
  | f + 1, c :: u :: s =>
    if u.isUpper && !(s.takeWhile Char.isLower).isEmpty then
      c :: '_' :: u :: (s.takeWhile Char.isLower ++ sub1 f (s.dropWhile Char.isLower))
    else c :: sub1 f (u :: s)

/-- `re.sub('([a-z0-9])([A-Z])', r'\1_\2', s1)` (build/objectmapper.py:434) -/
def sub2 : Nat → Name → Name
  | 0, s => s
  | _ + 1, [] => []
  | _ + 1, [c] => [c]
  | f + 1, c :: u :: s =>
    if (c.isLower || c.isDigit) && u.isUpper then c :: '_' :: u :: sub2 f s else c :: sub2 f (u :: s)

/-- both substitutions and `lower()` (build/objectmapper.py:433-434) -/
def snake (t : Name) : Name := (sub2 (sub1 t.length t).length (sub1 t.length t)).map Char.toLower

/-- build/objectmapper.py:426-437 `convert_dt_name` for a spec of type `t`; the type is not empty -/
def convertDtName (t : Name) (many : Bool) : Name :=
  if (snake t).getLast? ≠ some 's' ∧ many = true then snake t ++ ['s'] else snake t

/-- a spec: its identity, name, type (of a link: the target type), whether there may be many, whether it is a group or dataset with a type,
and the specs below it (spec/spec.py:154-166, 314-362) -/
inductive Node where
  | mk (id : Nat) (name : Option Name) (type : Name) (many typed : Bool) (attributes datasets groups links : List Node)

/-- the parts of a spec (spec/spec.py:314-362, 875-901) -/
def Node.id : Node → Nat | .mk i _ _ _ _ _ _ _ _ => i
/-- spec/spec.py:154-166 -/
def Node.name : Node → Option Name | .mk _ n _ _ _ _ _ _ _ => n
/-- build/objectmapper.py:588-600 -/
def Node.type : Node → Name | .mk _ _ t _ _ _ _ _ _ => t
/-- spec/spec.py:314-362 -/
def Node.many : Node → Bool | .mk _ _ _ m _ _ _ _ _ => m
/-- build/objectmapper.py:450-451 -/
def Node.typed : Node → Bool | .mk _ _ _ _ t _ _ _ _ => t
/-- the specs below a spec (build/objectmapper.py:454-463) -/
def Node.subs : Node → List Node | .mk _ _ _ _ _ as ds gs ls => as ++ ds ++ gs ++ ls

/-- the own name of a spec (build/objectmapper.py:441-443) -/
def Node.own (n : Node) : Name := match n.name with
  | some m => m
  | none => convertDtName n.type n.many

/-- `'__'.join(name_stack)` (build/objectmapper.py:445) -/
def join : List Name → Name
  | [] => []
  | [n] => n
  | n :: m :: ns => n ++ '_' :: '_' :: join (m :: ns)

mutual
/-- build/objectmapper.py:439-464 `__get_fields`: the assignments to `all_names`, in order -/
def fields (stack : List Name) : Node → List (Name × Nat)
  | .mk id name type many typed as ds gs ls =>
    (join (stack ++ [Node.own (.mk id name type many typed as ds gs ls)]), id) ::
      (if typed then [] else
        fieldsL (stack ++ [Node.own (.mk id name type many typed as ds gs ls)]) as ++
        fieldsL (stack ++ [Node.own (.mk id name type many typed as ds gs ls)]) ds ++
        fieldsL (stack ++ [Node.own (.mk id name type many typed as ds gs ls)]) gs ++
        fieldsL (stack ++ [Node.own (.mk id name type many typed as ds gs ls)]) ls)
/-- the loops over the sub-specs (build/objectmapper.py:454-463) -/
def fieldsL (stack : List Name) : List Node → List (Name × Nat)
  | [] => []
  | n :: ns => fields stack n ++ fieldsL stack ns
end

/-- the assignments of `get_attr_names`, in order: here the groups come before the datasets (build/objectmapper.py:466-481) -/
def assignments : Node → List (Name × Nat)
  | .mk _ _ _ _ _ as ds gs ls => fieldsL [] as ++ fieldsL [] gs ++ fieldsL [] ds ++ fieldsL [] ls

/-- assigning to the keys of a dict in order (build/objectmapper.py:447-448) -/
def assign {K V : Type} [DecidableEq K] (d : Dict K V) (l : List (K × V)) : Dict K V := l.foldl (fun d p => Dict.set d p.1 p.2) d

/-- build/objectmapper.py:466-481 `get_attr_names` -/
def attrNames (n : Node) : Dict Name Nat := assign [] (assignments n)

/-- the four dicts of an `ObjectMapper` (build/objectmapper.py:411-414) -/
structure Mapper where
  spec2attr : Dict Nat Name
  attr2spec : Dict Name Nat
  spec2carg : Dict Nat Name
  carg2spec : Dict Name Nat

/-- the calls that change the mapping (build/objectmapper.py:488-528) -/
inductive Op where
  | mapAttr (attr : Name) (spec : Nat)
  | mapConstArg (arg : Name) (spec : Nat)
  | mapSpec (name : Name) (spec : Nat)
  | unmap (spec : Nat)
  deriving DecidableEq

/-- build/objectmapper.py:488-494 `map_attr` -/
def mapAttr (m : Mapper) (a : Name) (s : Nat) : Mapper :=
  { m with spec2attr := Dict.set m.spec2attr s a, attr2spec := Dict.set m.attr2spec a s }

/-- build/objectmapper.py:508-514 `map_const_arg` -/
def mapConstArg (m : Mapper) (a : Name) (s : Nat) : Mapper :=
  { m with spec2carg := Dict.set m.spec2carg s a, carg2spec := Dict.set m.carg2spec a s }

/-- build/objectmapper.py:523-528 `map_spec` -/
def mapSpec (m : Mapper) (a : Name) (s : Nat) : Mapper := mapAttr (mapConstArg m a s) a s

/-- build/objectmapper.py:516-521 `unmap` -/
def unmap (m : Mapper) (s : Nat) : Mapper :=
  { m with spec2attr := Dict.del m.spec2attr s, spec2carg := Dict.del m.spec2carg s }

/-- one call (build/objectmapper.py:488-528) -/
def step (m : Mapper) : Op → Mapper
  | .mapAttr a s => mapAttr m a s
  | .mapConstArg a s => mapConstArg m a s
  | .mapSpec a s => mapSpec m a s
  | .unmap s => unmap m s

/-- the mapping that the constructor makes (build/objectmapper.py:402-415, 483-486) -/
def init (n : Node) : Mapper := (attrNames n).foldl (fun m p => mapSpec m p.1 p.2) ⟨[], [], [], []⟩

/-- build/objectmapper.py:545-551 `get_attribute` -/
def getAttribute (m : Mapper) (s : Nat) : Option Name := Dict.get? m.spec2attr s
/-- build/objectmapper.py:496-500 `get_attr_spec` -/
def getAttrSpec (m : Mapper) (a : Name) : Option Nat := Dict.get? m.attr2spec a
/-- build/objectmapper.py:502-506 `get_carg_spec` -/
def getCargSpec (m : Mapper) (a : Name) : Option Nat := Dict.get? m.carg2spec a
/-- build/objectmapper.py:698-704 `get_const_arg` -/
def getCarg (m : Mapper) (s : Nat) : Option Name := Dict.get? m.spec2carg s

/-- a member of a class: its name, the argument or attribute it is decorated for (`true`: a constructor argument), the function
(build/objectmapper.py:340-386) -/
structure Member where
  name : String
  mark : Option (Bool × String)
  func : Nat

/-- `constructor_args` and `obj_attrs` of a class (build/objectmapper.py:388-401) -/
structure Procs where
  cargs : Dict String Nat
  attrs : Dict String Nat

/-- one member in the loop (build/objectmapper.py:397-401) -/
def gatherOne (p : Procs) (m : Member) : Procs := match m.mark with
  | none => p
  | some (true, a) => { p with cargs := Dict.set p.cargs a m.func }
  | some (false, a) => { p with attrs := Dict.set p.attrs a m.func }

/-- build/objectmapper.py:387-401 `__gather_procedures`: `found` is what `hasattr` and `cls.constructor_args` find in the base classes, the
dicts of the first one in the order of resolution -/
def gather (found : Procs) (members : List Member) : Procs := members.foldl gatherOne found

/-- the classes of a mapper in the order they derive from each other, the first one first (build/objectmapper.py:387-401) -/
def gatherChain (classes : List (List Member)) : Procs := classes.foldl gather ⟨[], []⟩

/-- build/objectmapper.py:530-537 `__get_override_carg`: the function called for an argument -/
def overrideCarg (p : Procs) (a : String) : Option Nat := Dict.get? p.cargs a

/-- build/objectmapper.py:539-543 `__get_override_attr` -/
def overrideAttr (p : Procs) (a : String) : Option Nat := Dict.get? p.attrs a

end Verif.Names

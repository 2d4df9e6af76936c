import Verif.Base.Py

/-!
# Loading namespaces

Models `NamespaceCatalog` (spec/namespace.py:225-543): `add_namespace`, `merge`, `get_namespace`, `get_types`,
`__load_spec_file`, `__resolve_includes`, `__load_namespace`, `__register_type`, `__register_dependent_types` and
`load_namespaces`; with the part of `SpecCatalog` they use (spec/catalog.py:33-48, 85-103).

Simplifications.
* A spec is kept as its names and a number standing for everything else; fields inherited on `build_spec` are not merged
  in (they are the subject of `Verif.Spec`).  What a spec uses — the types `__register_dependent_types` visits below it —
  is the list of those names in the order of the visit, and the specs nested in a file entry that `auto_register`
  registers are listed in its order.
* Reading files is a function that gives contents or raises.
* `types_to_load` is a set in the code (441); here it is the list given, in any order.
* The renaming of keys between spec languages (406–413) and the parent links of the catalog are left out.
-/

namespace Verif.Namespace
open Verif

/-- A spec with a `data_type_def`. (spec/namespace.py:373-404) -/
structure Entry where
  dfn : String
  inc : Option String
  /-- the types named below it, in the order of `__register_dependent_types_helper` (spec/namespace.py:487-499) -/
  uses : List String
  body : Nat
  deriving DecidableEq, Repr

/-- The part of `SpecCatalog` that matters here: specs and source files (spec/catalog.py:11-27). -/
structure Cat where
  specs : Dict String Entry := []
  sources : Dict String (Option String) := []
  deriving DecidableEq, Repr

/-- `SpecCatalog.register_spec` (spec/catalog.py:33-48). -/
def register (c : Cat) (e : Entry) (src : Option String) : Except Err Cat :=
  let new : Cat := ⟨Dict.set c.specs e.dfn e, Dict.set c.sources e.dfn src⟩
  match Dict.get? c.specs e.dfn with
  | none => .ok new
  | some old =>
    if old ≠ e then .error .valueError
    else match Dict.get? c.sources e.dfn with
      | none => .error .keyError
      | some s => if s ≠ src then .error .valueError else .ok new

/-- One entry of a spec file. (spec/namespace.py:373-404) -/
structure Item where
  /-- the value under the def key -/
  key : Option String
  /-- the types included by it or something below it that also defines a type (spec/namespace.py:415-431) -/
  needs : List String
  /-- what `build_spec` raises, if anything -/
  bad : Option Err
  /-- the specs `auto_register` registers for it, in order (spec/catalog.py:85-103) -/
  regs : List Entry
  deriving DecidableEq, Repr

/-- `auto_register`: register all, returning the names (spec/catalog.py:85-103). -/
def autoRegister (src : String) : Cat → List Entry → Except Err (Cat × List String)
  | c, [] => .ok (c, [])
  | c, e :: es => match register c e (some src) with
    | .error x => .error x
    | .ok c' => match autoRegister src c' es with
      | .error x => .error x
      | .ok (c'', l) => .ok (c'', e.dfn :: l)

/-- `__resolve_includes`: every included type must be in the catalog (spec/namespace.py:415-431). -/
def resolveIncludes (c : Cat) : List String → Except Err Unit
  | [] => .ok ()
  | t :: ts => if (Dict.get? c.specs t).isSome then resolveIncludes c ts else .error .valueError

/-- `types_to_load and dt_def not in types_to_load` (spec/namespace.py:383): an empty set asks for everything. -/
def skipped (types : Option (List String)) (d : String) : Bool :=
  match types with
  | none => false
  | some ts => !ts.isEmpty && !ts.contains d

/-- `__reg_spec` (spec/namespace.py:378-388).  `none`: the bare `return` for a type not asked for. -/
def regSpec (resolve : Bool) (types : Option (List String)) (src : String) (c : Cat) (i : Item) :
    Except Err (Cat × Option (List String)) :=
  match i.key with
  | none => .error .valueError
  | some d =>
    if skipped types d then .ok (c, none)
    else match (if resolve then resolveIncludes c i.needs else .ok ()) with
      | .error x => .error x
      | .ok () => match i.bad with
        | some x => .error x
        | none => match autoRegister src c i.regs with
          | .error x => .error x
          | .ok (c', l) => .ok (c', some l)

/-- `ret.update({k: None for k in l})` on a dict used as an ordered set (spec/namespace.py:396, 402). -/
def addAll (s : List String) : List String → List String
  | [] => s
  | x :: xs => addAll (if s.contains x then s else s ++ [x]) xs

/-- The two loops of `__load_spec_file` (spec/namespace.py:392-402).  Iterating over the `None` of a type not asked for is a
TypeError. -/
def regLoop (resolve : Bool) (types : Option (List String)) (src : String) :
    Cat → List String → List Item → Except Err (Cat × List String)
  | c, acc, [] => .ok (c, acc)
  | c, acc, i :: is => match regSpec resolve types src c i with
    | .error x => .error x
    | .ok (_, none) => .error .typeError
    | .ok (c', some l) => regLoop resolve types src c' (addAll acc l) is

/-- A `SpecNamespace`: name, version and catalog (spec/namespace.py:31-170). -/
structure NSpace where
  version : String
  cat : Cat
  deriving DecidableEq, Repr

/-- What is reported per namespace: the types included from each other namespace (spec/namespace.py:438, 459). -/
abbrev Included := Dict String (List String)

/-- The state of a `NamespaceCatalog` (spec/namespace.py:235-245). -/
structure State where
  namespaces : Dict String NSpace := []
  loaded : Dict (Option String) (List String) := []
  includedSpecs : Dict String (Dict String Included) := []
  includedSources : Dict String (List String) := []
  deriving DecidableEq, Repr

/-- One entry of the `schema` of a namespace: its source and its namespace (the code looks at the source first), and the
types asked for. (spec/namespace.py:433-466) -/
structure SchemaEl where
  source : Option String := none
  ns : Option String := none
  types : Option (List String) := none
  deriving DecidableEq, Repr

/-- The definition of a namespace in a namespace file; `bad`: what `build_namespace` raises, if anything.
(spec/namespace.py:40-68, 166-172) -/
structure NSDef where
  name : String
  version : String
  schema : List SchemaEl
  bad : Option Err := none
  deriving DecidableEq, Repr

/-- A `SpecReader`: its `source`, and what its two methods give.  `depth` is how deep Python follows the recursion of
`__register_type`; it travels with the reader for brevity. (spec/namespace.py:175-222) -/
structure Reader where
  depth : Nat
  dir : String
  readNs : String → Except Err (List NSDef)
  readSpec : String → Except Err (List Item)

/-- `__load_spec_file` (spec/namespace.py:373-404).  The datasets and then the groups of the file form one list. -/
def loadSpecFile (rd : Reader) (resolve : Bool) (st : State) (src : String) (c : Cat) (types : Option (List String)) :
    State × Except Err Cat :=
  match Dict.get? st.loaded (some src) with
  | some _ => (st, .error .valueError)
  | none => match rd.readSpec src with
    | .error x => (st, .error x)
    | .ok items => match regLoop resolve types src c [] items with
      | .error x => (st, .error x)
      | .ok (c', l) => ({ st with loaded := Dict.set st.loaded (some src) l }, .ok c')

/-- The loop over the types a spec uses, each handed to `__register_type` (spec/namespace.py:483-504). -/
def regUses (rec : String → Cat → List String → Except Err (Cat × List String)) :
    List String → Cat → List String → Except Err (Cat × List String)
  | [], c, done => .ok (c, done)
  | t :: ts, c, done => match rec t c done with
    | .error x => .error x
    | .ok (c', done') => regUses rec ts c' done'

/-- `__register_type` (spec/namespace.py:468-481) with the recursion through `__register_dependent_types` bounded
(RecursionError); `done` is `registered_types`. -/
def registerType (inc : Cat) : Nat → String → Cat → List String → Except Err (Cat × List String)
  | 0, _, _, _ => .error .runtimeError
  | n + 1, t, c, done =>
    if done.contains t then .ok (c, done)
    else match Dict.get? inc.specs t with
      | none => .error .valueError
      | some e => match regUses (registerType inc n) (e.inc.toList ++ e.uses) c done with
        | .error x => .error x
        | .ok (c', done') => match register c' e ((Dict.get? inc.sources t).join) with
          | .error x => .error x
          | .ok c'' => .ok (c'', if done'.contains t then done' else done' ++ [t])

/-- `sorted(registered_types)` on names: insertion into a sorted list. (spec/namespace.py:361-371) -/
def insertSorted (x : String) : List String → List String
  | [] => [x]
  | y :: ys => if x ≤ y then x :: y :: ys else y :: insertSorted x ys

/-- `sorted` (spec/namespace.py:459). -/
def sorted : List String → List String
  | [] => []
  | x :: xs => insertSorted x (sorted xs)

/-- The loop over the schema of `__load_namespace` (spec/namespace.py:439-461). -/
def schemaLoop (rd : Reader) (resolve : Bool) (name : String) :
    State → Cat → Included → List SchemaEl → State × Except Err (Cat × Included)
  | st, c, inc, [] => (st, .ok (c, inc))
  | st, c, inc, el :: els =>
    match el.source with
    | some src => match loadSpecFile rd resolve st src c el.types with
      | (st', .error x) => (st', .error x)
      | (st', .ok c') =>
        let srcs := (Dict.get? st'.includedSources name).getD [] ++ [src]
        schemaLoop rd resolve name { st' with includedSources := Dict.set st'.includedSources name srcs } c' inc els
    | none => match el.ns with
      | none => (st, .error .valueError)
      | some m => match Dict.get? st.namespaces m with
        | none => (st, .error .valueError)
        | some sp =>
          match regUses (registerType sp.cat rd.depth) (el.types.getD sp.cat.specs.keys) c [] with
          | .error x => (st, .error x)
          | .ok (c', done) => schemaLoop rd resolve name st c' (Dict.set inc m (sorted done)) els

/-- `__load_namespace` (spec/namespace.py:433-466). -/
def loadNamespace (rd : Reader) (resolve : Bool) (st : State) (d : NSDef) : State × Except Err Included :=
  if Dict.has st.namespaces d.name then (st, .error .keyError)
  else match schemaLoop rd resolve d.name st {} [] d.schema with
    | (st', .error x) => (st', .error x)
    | (st', .ok (c, inc)) => match d.bad with
      | some x => (st', .error x)
      | none => ({ st' with namespaces := Dict.set st'.namespaces d.name ⟨d.version, c⟩ }, .ok inc)

/-- The second loop of `load_namespaces` (spec/namespace.py:539-541). -/
def loadLoop (rd : Reader) (resolve : Bool) : State → Dict String Included → List NSDef →
    State × Except Err (Dict String Included)
  | st, ret, [] => (st, .ok ret)
  | st, ret, d :: ds => match loadNamespace rd resolve st d with
    | (st', .error x) => (st', .error x)
    | (st', .ok inc) => loadLoop rd resolve st' (Dict.set ret d.name inc) ds

/-- `load_namespaces` (spec/namespace.py:514-543).  The existence check of the file is part of `readNs`; the warning about
other versions is left out. -/
def load (rd : Reader) (resolve : Bool) (st : State) (path : String) :
    State × Except Err (Dict String Included) :=
  let key := rd.dir ++ "/" ++ path
  match Dict.get? st.includedSpecs key with
  | some r => (st, .ok r)
  | none => match rd.readNs path with
    | .error x => (st, .error x)
    | .ok defs =>
      match loadLoop rd resolve st [] (defs.filter (fun d => !Dict.has st.namespaces d.name)) with
      | (st', .error x) => (st', .error x)
      | (st', .ok ret) => ({ st' with includedSpecs := Dict.set st'.includedSpecs key ret }, .ok ret)

/-- The loop of `add_namespace` (spec/namespace.py:290-294). -/
def addTypes (cat : Cat) : Dict (Option String) (List String) → List String → Dict (Option String) (List String)
  | ld, [] => ld
  | ld, t :: ts =>
    let src := (Dict.get? cat.sources t).join
    let old := (Dict.get? ld src).getD []
    addTypes cat (Dict.set ld src (if old.contains t then old else old ++ [t])) ts

/-- `add_namespace` (spec/namespace.py:284-294). -/
def addNamespace (st : State) (name : String) (n : NSpace) : State × Except Err Unit :=
  if Dict.has st.namespaces name then (st, .error .keyError)
  else ({ st with namespaces := Dict.set st.namespaces name n,
                  loaded := addTypes n.cat st.loaded n.cat.specs.keys }, .ok ())

/-- `merge` (spec/namespace.py:258-260). -/
def mergeLoop : State → List (String × NSpace) → State × Except Err Unit
  | st, [] => (st, .ok ())
  | st, (name, n) :: l => match addNamespace st name n with
    | (st', .error x) => (st', .error x)
    | (st', .ok ()) => mergeLoop st' l

/-- `get_types(source)` (spec/namespace.py:361-371). -/
def getTypes (st : State) (src : String) : List String := (Dict.get? st.loaded (some src)).getD []

end Verif.Namespace

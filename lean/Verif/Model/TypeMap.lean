import Verif.Base.Py

/-!
# `TypeMap`: which class stands for which type

Model of `TypeMap` (/repo/build/manager.py:374-838): the registry that says which Python class is used for a
data type of a namespace, which data type a class is written as, and which `ObjectMapper` translates between them.

Classes are numbers, their method resolution orders a table in the state.  Class 0 is `Container`, class 1 is `Data`.
Recursion of `get_dt_container_cls` through the types a type depends on is bounded by a fuel argument; running out of
it is Python's `RecursionError` (`runtimeError`).
-/

namespace Verif.TypeMap

/-- names (build/manager.py:395-838) -/
abbrev Str := String
/-- classes, numbered (build/manager.py:395-838) -/
abbrev Cls := Nat
/-- a namespace name and a data type name (build/manager.py:404-424) -/
abbrev Key := Str × Str

/-- The parts of a resolved specification that `TypeMap` looks at: `data_type_inc`, `data_type_def`, target types of
attributes (and, for datasets, of the dataset itself) with a reference dtype, and the child specifications in the order
`groups + datasets + links`.  (`/repo/spec/spec.py` `GroupSpec`, `DatasetSpec`, `LinkSpec`.)
(build/manager.py:551-582) -/
inductive SpecT where
  | group (inc defn : Option Str) (refs : List Str) (children : List SpecT)
  | dataset (inc defn : Option Str) (refs : List Str)
  | link (target : Str)

/-- `spec.data_type_inc` (build/manager.py:584-601; spec/spec.py:496-504) -/
def SpecT.inc : SpecT → Option Str
  | .group i _ _ _ => i
  | .dataset i _ _ => i
  | .link _ => none

mutual
/-- `__check_dependent_types_helper` (build/manager.py:557-567): the types asked for while walking one child
specification, in order. -/
def childDeps : SpecT → List Str
  | .group i d _ cs => i.toList ++ d.toList ++ childrenDeps cs
  | .dataset i d _ => i.toList ++ d.toList
  | .link t => [t]
/-- the loop over `spec.groups + spec.datasets + spec.links` (565–567, 581–583) -/
def childrenDeps : List SpecT → List Str
  | [] => []
  | c :: cs => childDeps c ++ childrenDeps cs
end

/-- `__check_dependent_types` (build/manager.py:551-583): the types a type needs classes for, in the order the code
asks for them.  `refs` are the reference targets of its attributes followed by that of the dataset itself. -/
def deps : SpecT → List Str
  | .group i _ refs cs => i.toList ++ refs ++ childrenDeps cs
  | .dataset i _ refs => i.toList ++ refs
  | .link _ => []

/-- A value of `__container_types[ns]`: a class, or a `TypeSource` object (build/manager.py:374-393), which has an
identity of its own (`id`) because `__data_types` is keyed by it. -/
inductive Entry where
  | cls (c : Cls)
  | src (id : Nat) (ns dt : Str)
  deriving DecidableEq, Repr

/-- A constructed `ObjectMapper`: its class and the type whose specification it was given. (build/manager.py:729-752) -/
structure Mapper where
  cls : Nat
  ns : Str
  dt : Str
  deriving DecidableEq, Repr

/-- The state of a `TypeMap` (build/manager.py:405-427), plus the Python class objects it touches.
`cat` is the `NamespaceCatalog`: the specifications of each namespace.  `attrs` are the attributes
`data_type`/`namespace` set on class objects by `register_container_type` (767–768).  `next` numbers new objects. -/
structure St where
  cat : Dict Str (Dict Str SpecT)
  ct : Dict Str (Dict Str Entry)
  dts : Dict Entry Key
  attrs : Dict Cls Key
  mappers : Dict Cls Mapper
  mapperCls : Dict Cls Nat
  defaultMapper : Nat
  mro : Cls → List Cls
  next : Nat

/-- `NamespaceCatalog.get_spec` (spec/namespace.py:309-316) and `SpecNamespace.get_spec` (145–151). -/
def getSpec (cat : Dict Str (Dict Str SpecT)) (k : Key) : Except Err SpecT :=
  match cat.get? k.1 with
  | none => .error .keyError
  | some d =>
    match d.get? k.2 with
    | none => .error .valueError
    | some s => .ok s

/-- `self.__container_types[namespace][data_type]` when both keys are present. (build/manager.py:603-617) -/
def entry (ct : Dict Str (Dict Str Entry)) (k : Key) : Option Entry :=
  match ct.get? k.1 with
  | none => none
  | some d => d.get? k.2

/-- `self.__container_types.setdefault(namespace, dict()); self.__container_types[namespace][data_type] = e`
(build/manager.py:763-764). -/
def setEntry (ct : Dict Str (Dict Str Entry)) (k : Key) (e : Entry) : Dict Str (Dict Str Entry) :=
  ct.set k.1 (Dict.set ((ct.get? k.1).getD []) k.2 e)

/-- `setattr(container_cls, spec.type_key(), data_type); setattr(container_cls, 'namespace', namespace)`, done for
classes only (build/manager.py:766-768). -/
def setAttrs (attrs : Dict Cls Key) (k : Key) : Entry → Dict Cls Key
  | .cls c => attrs.set c k
  | .src _ _ _ => attrs

/-- `register_container_type` (build/manager.py:759-768). -/
def register (st : St) (k : Key) (e : Entry) : St × Except Err Unit :=
  match getSpec st.cat k with
  | .error err => (st, .error err)
  | .ok _ =>
    ({ st with ct := setEntry st.ct k e, dts := st.dts.setDefault e k, attrs := setAttrs st.attrs k e }, .ok ())

/-- Run a computation for each element of a list, stopping at the first exception. (the loops of build/manager.py:476-582) -/
def forAll {α : Type} (f : St → α → St × Except Err Unit) : List α → St → St × Except Err Unit
  | [], st => (st, .ok ())
  | a :: as, st =>
    match f st a with
    | (st1, .error e) => (st1, .error e)
    | (st1, .ok _) => forAll f as st1

/-- `SpecCatalog.get_hierarchy` without the type itself (spec/catalog.py:105-133 and build/manager.py:586-587):
follow `data_type_inc` upward; a type that includes itself has no parent (`register_spec`, spec/catalog.py:41-42).
A cyclic hierarchy would loop for ever; here the walk stops after as many steps as the fuel allows.
`cat` is the specifications of one namespace. -/
def ancestors (cat : Dict Str SpecT) : Nat → Str → List Str
  | 0, _ => []
  | f + 1, dt =>
    match cat.get? dt with
    | none => []
    | some s =>
      match s.inc with
      | none => []
      | some p => if p = dt then [] else p :: ancestors cat f p

/-- the default parent class by kind of specification (build/manager.py:593-599) -/
def defaultParent : SpecT → Except Err Cls
  | .group _ _ _ _ => .ok 0
  | .dataset _ _ _ => .ok 1
  | .link _ => .error .valueError

/-- `__get_parent_cls` (build/manager.py:585-602): the class of the nearest ancestor type that has one.  `get` is
`__get_container_cls`.  Simplified: every class is created by `ExtenderMeta`, so the check at 600–601 passes. -/
def parentCls (get : St → Str → St × Except Err (Option Cls)) (spec : SpecT) :
    List Str → St → St × Except Err Cls
  | [], st => (st, defaultParent spec)
  | t :: ts, st =>
    match get st t with
    | (st1, .error e) => (st1, .error e)
    | (st1, .ok (some c)) => (st1, .ok c)
    | (st1, .ok none) => parentCls get spec ts st1

/-- `__get_container_cls` (build/manager.py:604-616): the registered class; a `TypeSource` is replaced by the class of
the type it stands for (`get`, which is `get_dt_container_cls`). -/
def containerCls (get : St → Key → St × Except Err Cls) (st : St) (k : Key) : St × Except Err (Option Cls) :=
  match entry st.ct k with
  | none => (st, .ok none)
  | some (.cls c) => (st, .ok (some c))
  | some (.src _ s t) =>
    match get st (s, t) with
    | (st1, .error e) => (st1, .error e)
    | (st1, .ok c) =>
      match register st1 k (.cls c) with
      | (st2, .error e) => (st2, .error e)
      | (st2, .ok _) => (st2, .ok (some c))

/-- `generate_class` (build/classgenerator.py:41-92) as far as the registry is concerned: a new class object whose
method resolution order is itself followed by that of its parent.  Simplified: a second base class
(`MultiContainerInterface`, added by `MCIClassGenerator`) is left out, and the class body is not modelled. -/
def generate (st : St) (parent : Cls) : St × Cls :=
  ({ st with mro := fun c => if c = st.next then st.next :: st.mro parent else st.mro c, next := st.next + 1 }, st.next)

/-- The types of one namespace in the catalog, with their specifications. (build/manager.py:476-495) -/
def nsSpecs (cat : Dict Str (Dict Str SpecT)) (ns : Str) : Dict Str SpecT := (cat.get? ns).getD []

/-- Generate a class once the dependent types have theirs, and register it (build/manager.py:539-548). -/
def finish (get : St → Key → St × Except Err Cls) (spec : SpecT) (st : St) (k : Key) : St × Except Err Cls :=
  match parentCls (fun s t => containerCls get s (k.1, t)) spec
      (ancestors (nsSpecs st.cat k.1) ((nsSpecs st.cat k.1).length + 1) k.2) st with
  | (st1, .error e) => (st1, .error e)
  | (st1, .ok p) =>
    match register (generate st1 p).1 k (.cls (generate st1 p).2) with
    | (st2, .error e) => (st2, .error e)
    | (st2, .ok _) => (st2, .ok (generate st1 p).2)

/-- `get_dt_container_cls` with the namespace given and `autogen=True` (build/manager.py:515-549). -/
def getDt : Nat → St → Key → St × Except Err Cls
  | 0, st, _ => (st, .error .runtimeError)
  | f + 1, st, k =>
    match containerCls (getDt f) st k with
    | (st1, .error e) => (st1, .error e)
    | (st1, .ok (some c)) => (st1, .ok c)
    | (st1, .ok none) =>
      match getSpec st1.cat k with
      | .error e => (st1, .error e)
      | .ok spec =>
        match forAll (fun s d => ((getDt f s (k.1, d)).1, (getDt f s (k.1, d)).2.map fun _ => ())) (deps spec) st1 with
        | (st2, .error e) => (st2, .error e)
        | (st2, .ok _) => finish (getDt f) spec st2 k

/-- `get_dt_container_cls` with the namespace given and `autogen=False` (build/manager.py:533-549). -/
def getDtNoGen (f : Nat) (st : St) (k : Key) : St × Except Err (Option Cls) := containerCls (getDt f) st k

/-- The search for the namespace when none is given (build/manager.py:525-531). -/
def findNs (ct : Dict Str (Dict Str Entry)) (dt : Str) : Option Str :=
  match ct with
  | [] => none
  | (ns, d) :: rest => if d.has dt then some ns else findNs rest dt

/-- `get_dt_container_cls(data_type)` (build/manager.py:515-549) with `namespace=None` and `autogen=True`. -/
def getDtAny (f : Nat) (st : St) (dt : Str) : St × Except Err Cls :=
  match findNs st.ct dt with
  | none => (st, .error .valueError)
  | some ns => getDt f st (ns, dt)

/-- `get_container_cls_dt` (build/manager.py:710-716) on a method resolution order: `none` is `(None, None)`. -/
def clsDt (dts : Dict Entry Key) : List Cls → Option Key
  | [] => none
  | c :: cs =>
    match dts.get? (.cls c) with
    | some k => some k
    | none => clsDt dts cs

/-- `get_container_classes(namespace)` (build/manager.py:718-725): the keys of `__data_types`. -/
def containerClasses (st : St) (ns : Option Str) : List Entry :=
  match ns with
  | none => st.dts.keys
  | some n => (st.dts.filter fun p => decide (p.2.1 = n)).map Prod.fst

/-- `register_map` (build/manager.py:773-778). -/
def registerMap (st : St) (c : Cls) (m : Nat) : St × Except Err Unit :=
  match clsDt st.dts (st.mro c) with
  | none => (st, .error .valueError)
  | some _ => ({ st with mapperCls := st.mapperCls.set c m }, .ok ())

/-- The mapper class registered for the first class of a method resolution order that has one
(build/manager.py:745-750). -/
def nearestMapper (ms : Dict Cls Nat) (default : Nat) : List Cls → Nat
  | [] => default
  | c :: cs =>
    match ms.get? c with
    | some m => m
    | none => nearestMapper ms default cs

/-- The second half of `get_map` (build/manager.py:742-754): the cached mapper of the class, or a new one. -/
def mapFor (st : St) (c : Cls) (k : Key) : St × Except Err Mapper :=
  match st.mappers.get? c with
  | some m => (st, .ok m)
  | none =>
    match getSpec st.cat k with
    | .error e => (st, .error e)
    | .ok _ =>
      ({ st with mappers := st.mappers.set c ⟨nearestMapper st.mapperCls st.defaultMapper (st.mro c), k.1, k.2⟩ },
        .ok ⟨nearestMapper st.mapperCls st.defaultMapper (st.mro c), k.1, k.2⟩)

/-- `get_map(container)` (build/manager.py:733-737 and 742–754) for an instance of class `c`. -/
def getMapC (st : St) (c : Cls) : St × Except Err Mapper :=
  match clsDt st.dts (st.mro c) with
  | none => (st, .error .valueError)
  | some k => mapFor st c k

/-- `get_cls(builder)` (build/manager.py:662-672) for a builder with the given `namespace` and type attributes. -/
def getCls (f : Nat) (st : St) (ns dt : Option Str) : St × Except Err Cls :=
  match dt with
  | none => (st, .error .valueError)
  | some d =>
    match ns with
    | none => (st, .error .valueError)
    | some n => getDt f st (n, d)

/-- `get_map(builder)` (build/manager.py:738-754) for a builder with the given `namespace` and type attributes. -/
def getMapB (f : Nat) (st : St) (ns dt : Option Str) : St × Except Err Mapper :=
  match getCls f st ns dt with
  | (st1, .error e) => (st1, .error e)
  | (st1, .ok c) => mapFor st1 c (ns.getD "", dt.getD "")

/-- One dependency of a newly loaded namespace (build/manager.py:489-493): type `dt` of `new` comes from `src`. -/
def loadDep (f : Nat) (st : St) (new src dt : Str) : St × Except Err Unit :=
  match getDtNoGen f st (src, dt) with
  | (st1, .error e) => (st1, .error e)
  | (st1, .ok (some c)) => register st1 (new, dt) (.cls c)
  | (st1, .ok none) => register { st1 with next := st1.next + 1 } (new, dt) (.src st1.next src dt)

/-- `load_namespaces` (build/manager.py:477-494) after the catalog has loaded the files: `cat` is the catalog
afterwards, `ds` the returned dependencies as triples (new namespace, source namespace, type) in order. -/
def load (f : Nat) (st : St) (cat : Dict Str (Dict Str SpecT)) (ds : List (Str × Str × Str)) : St × Except Err Unit :=
  forAll (fun s d => loadDep f s d.1 d.2.1 d.2.2) ds { st with cat := cat }

/-- The registrations of a type map in the order `merge` visits them (build/manager.py:458-460). -/
def flat (ct : Dict Str (Dict Str Entry)) : List (Key × Entry) :=
  ct.flatMap fun p => p.2.map fun q => ((p.1, q.1), q.2)

/-- `merge(type_map)` with `ns_catalog=False` (build/manager.py:455-466).  Class generators are not modelled. -/
def merge (dst src : St) : St × Except Err Unit :=
  match forAll (fun s p => register s p.1 p.2) (flat src.ct) dst with
  | (st1, .error e) => (st1, .error e)
  | (st1, .ok _) => forAll (fun s p => registerMap s p.1 p.2) src.mapperCls st1

/-- A new `TypeMap` on the same catalog, mapper class and classes (build/manager.py:405-427). -/
def fresh (st : St) : St := { st with ct := [], dts := [], mappers := [], mapperCls := [] }

/-- `__copy__` and `__deepcopy__` (build/manager.py:437-445).  The copied catalog is taken to be equal to the
original (aliasing between the two catalogs is not modelled). -/
def copy (st : St) : St × Except Err Unit := merge (fresh st) st

/-- A Python class statement in user code (not hdmf code): a new class with the given rest of its method resolution
order. (before a call of build/manager.py:759-771) -/
def define (st : St) (bases : List Cls) : St :=
  { st with mro := fun c => if c = st.next then st.next :: bases else st.mro c, next := st.next + 1 }

/-- A type map right after construction (build/manager.py:405-427); the only classes are `Container` and `Data`. -/
def init (cat : Dict Str (Dict Str SpecT)) (mapper : Nat) : St :=
  { cat := cat, ct := [], dts := [], attrs := [], mappers := [], mapperCls := [], defaultMapper := mapper,
    mro := fun c => [c], next := 2 }

/-- One call of the public interface, or a class statement of the user.
(histories of the calls modelled from build/manager.py:395-838) -/
inductive Op where
  | define (bases : List Cls)
  | reg (k : Key) (c : Cls)
  | regMap (c : Cls) (m : Nat)
  | get (k : Key)
  | mapC (c : Cls)
  | mapB (ns dt : Option Str)
  | load (cat : Dict Str (Dict Str SpecT)) (ds : List (Str × Str × Str))

/-- The state left behind by one call, whether it returned or raised.  `f` is the recursion limit.
(histories of the calls modelled from build/manager.py:395-838) -/
def step (f : Nat) (st : St) : Op → St
  | .define bases => define st bases
  | .reg k c => (register st k (.cls c)).1
  | .regMap c m => (registerMap st c m).1
  | .get k => (getDt f st k).1
  | .mapC c => (getMapC st c).1
  | .mapB ns dt => (getMapB f st ns dt).1
  | .load cat ds => (load f st cat ds).1

/-- The state after a history of calls. (histories of the calls modelled from build/manager.py:395-838) -/
def run (f : Nat) (st : St) (ops : List Op) : St := ops.foldl (step f) st

end Verif.TypeMap

import Verif.Model.Namespace
import Verif.Model.TypeMap

/-!
# Copies and merges of catalogs and type maps

Models `NamespaceCatalog.__copy__` and what it shares (spec/namespace.py:247-255) together with the methods that write
into shared objects; the list of class generators of a type map (build/classgenerator.py:16-33) and how copying and
merging treat it (build/manager.py:405-466); `get_type_map` (common/__init__.py:160-193).

`Verif.Namespace` models one catalog whose dictionaries and lists are values.  Here the inner dictionaries of
`__loaded_specs` and the inner lists of `__included_sources` are objects in a heap, so that a catalog and its copy refer
to the same ones.

Simplifications.
* `SpecNamespace` objects and the dictionaries returned by `load_namespaces` are shared as well; no method of the catalog
  writes into them, so they are values here.
* Both kinds of inner objects are ordered lists of names (the dictionaries map every name to `None`).
-/

namespace Verif.Share
open Verif Verif.Namespace

/-! ## Catalogs with shared inner objects -/

/-- The inner objects: their contents, and the next unused address. (spec/namespace.py:235-245) -/
structure Heap where
  mem : Nat → List String
  next : Nat

/-- A new object (a dict or list display; spec/namespace.py:391, 294, 448). -/
def Heap.alloc (h : Heap) (v : List String) : Heap :=
  ⟨fun r => if r = h.next then v else h.mem r, h.next + 1⟩

/-- Writing into an object (`update`, `append`; spec/namespace.py:294, 448). -/
def Heap.put (h : Heap) (r : Nat) (v : List String) : Heap :=
  ⟨fun r' => if r' = r then v else h.mem r', h.next⟩

/-- A `NamespaceCatalog` (spec/namespace.py:235-245): inner objects by address. -/
structure CatR where
  namespaces : Dict String NSpace := []
  loaded : Dict (Option String) Nat := []
  includedSpecs : Dict String (Dict String Included) := []
  includedSources : Dict String Nat := []

/-- The addresses a catalog holds. (spec/namespace.py:235-245) -/
def CatR.refs (c : CatR) : List Nat := c.loaded.map Prod.snd ++ c.includedSources.map Prod.snd

/-- What the methods of a catalog show of it: `namespaces`, `get_namespace`, `get_sources`, `get_types`,
`get_namespace_sources` read exactly this (spec/namespace.py:261-371). -/
def view (h : Heap) (c : CatR) : State :=
  { namespaces := c.namespaces
    loaded := c.loaded.map fun p => (p.1, h.mem p.2)
    includedSpecs := c.includedSpecs
    includedSources := c.includedSources.map fun p => (p.1, h.mem p.2) }

/-- `__load_spec_file` (spec/namespace.py:373-404): a new dictionary for the source. -/
def loadSpecFileR (rd : Reader) (resolve : Bool) (h : Heap) (c : CatR) (src : String) (k : Cat)
    (types : Option (List String)) : (Heap × CatR) × Except Err Cat :=
  match Dict.get? c.loaded (some src) with
  | some _ => ((h, c), .error .valueError)
  | none => match rd.readSpec src with
    | .error x => ((h, c), .error x)
    | .ok items => match regLoop resolve types src k [] items with
      | .error x => ((h, c), .error x)
      | .ok (k', l) => ((h.alloc l, { c with loaded := Dict.set c.loaded (some src) h.next }), .ok k')

/-- `self.__included_sources.setdefault(ns_name, list()).append(s['source'])` (spec/namespace.py:448). -/
def appendSource (h : Heap) (c : CatR) (name src : String) : Heap × CatR :=
  match Dict.get? c.includedSources name with
  | some r => (h.put r (h.mem r ++ [src]), c)
  | none => (h.alloc [src], { c with includedSources := Dict.set c.includedSources name h.next })

/-- The loop over the schema of `__load_namespace` (spec/namespace.py:439-461). -/
def schemaLoopR (rd : Reader) (resolve : Bool) (name : String) :
    Heap → CatR → Cat → Included → List SchemaEl → (Heap × CatR) × Except Err (Cat × Included)
  | h, c, k, inc, [] => ((h, c), .ok (k, inc))
  | h, c, k, inc, el :: els =>
    match el.source with
    | some src => match loadSpecFileR rd resolve h c src k el.types with
      | ((h', c'), .error x) => ((h', c'), .error x)
      | ((h', c'), .ok k') =>
        schemaLoopR rd resolve name (appendSource h' c' name src).1 (appendSource h' c' name src).2 k' inc els
    | none => match el.ns with
      | none => ((h, c), .error .valueError)
      | some m => match Dict.get? c.namespaces m with
        | none => ((h, c), .error .valueError)
        | some sp =>
          match regUses (registerType sp.cat rd.depth) (el.types.getD sp.cat.specs.keys) k [] with
          | .error x => ((h, c), .error x)
          | .ok (k', done) => schemaLoopR rd resolve name h c k' (Dict.set inc m (sorted done)) els

/-- `__load_namespace` (spec/namespace.py:433-466). -/
def loadNamespaceR (rd : Reader) (resolve : Bool) (h : Heap) (c : CatR) (d : NSDef) :
    (Heap × CatR) × Except Err Included :=
  if Dict.has c.namespaces d.name then ((h, c), .error .keyError)
  else match schemaLoopR rd resolve d.name h c {} [] d.schema with
    | ((h', c'), .error x) => ((h', c'), .error x)
    | ((h', c'), .ok (k, inc)) => match d.bad with
      | some x => ((h', c'), .error x)
      | none => ((h', { c' with namespaces := Dict.set c'.namespaces d.name ⟨d.version, k⟩ }), .ok inc)

/-- The second loop of `load_namespaces` (spec/namespace.py:539-541). -/
def loadLoopR (rd : Reader) (resolve : Bool) : Heap → CatR → Dict String Included → List NSDef →
    (Heap × CatR) × Except Err (Dict String Included)
  | h, c, ret, [] => ((h, c), .ok ret)
  | h, c, ret, d :: ds => match loadNamespaceR rd resolve h c d with
    | ((h', c'), .error x) => ((h', c'), .error x)
    | ((h', c'), .ok inc) => loadLoopR rd resolve h' c' (Dict.set ret d.name inc) ds

/-- `load_namespaces` (spec/namespace.py:514-543). -/
def loadR (rd : Reader) (resolve : Bool) (h : Heap) (c : CatR) (path : String) :
    (Heap × CatR) × Except Err (Dict String Included) :=
  match Dict.get? c.includedSpecs (rd.dir ++ "/" ++ path) with
  | some r => ((h, c), .ok r)
  | none => match rd.readNs path with
    | .error x => ((h, c), .error x)
    | .ok defs =>
      match loadLoopR rd resolve h c [] (defs.filter (fun d => !Dict.has c.namespaces d.name)) with
      | ((h', c'), .error x) => ((h', c'), .error x)
      | ((h', c'), .ok ret) =>
        ((h', { c' with includedSpecs := Dict.set c'.includedSpecs (rd.dir ++ "/" ++ path) ret }), .ok ret)

/-- `self.__loaded_specs.setdefault(source, dict()).update({dt: None})` (spec/namespace.py:294). -/
def addType (h : Heap) (c : CatR) (src : Option String) (t : String) : Heap × CatR :=
  match Dict.get? c.loaded src with
  | some r => (h.put r (if (h.mem r).contains t then h.mem r else h.mem r ++ [t]), c)
  | none => (h.alloc [t], { c with loaded := Dict.set c.loaded src h.next })

/-- The loop of `add_namespace` (spec/namespace.py:290-294). -/
def addTypesR (k : Cat) : Heap → CatR → List String → Heap × CatR
  | h, c, [] => (h, c)
  | h, c, t :: ts =>
    addTypesR k (addType h c (Dict.get? k.sources t).join t).1 (addType h c (Dict.get? k.sources t).join t).2 ts

/-- `add_namespace` (spec/namespace.py:284-294). -/
def addNamespaceR (h : Heap) (c : CatR) (name : String) (n : NSpace) : (Heap × CatR) × Except Err Unit :=
  if Dict.has c.namespaces name then ((h, c), .error .keyError)
  else (addTypesR n.cat h { c with namespaces := Dict.set c.namespaces name n } n.cat.specs.keys, .ok ())

/-- `merge` (spec/namespace.py:257-259). -/
def mergeLoopR : Heap → CatR → List (String × NSpace) → (Heap × CatR) × Except Err Unit
  | h, c, [] => ((h, c), .ok ())
  | h, c, (name, n) :: l => match addNamespaceR h c name n with
    | ((h', c'), .error x) => ((h', c'), .error x)
    | ((h', c'), .ok ()) => mergeLoopR h' c' l

/-- `__copy__` (spec/namespace.py:247-255): the outer dictionaries are copied, the inner objects are the same. -/
def copyCat (c : CatR) : CatR :=
  { namespaces := c.namespaces, loaded := c.loaded, includedSpecs := c.includedSpecs,
    includedSources := c.includedSources }

/-- A call on one of the catalogs of a program, which are numbered in the order of their creation.
(spec/namespace.py:233-543) -/
inductive Op where
  | new
  | copy (i : Nat)
  | load (i : Nat) (rd : Reader) (resolve : Bool) (path : String)
  | add (i : Nat) (name : String) (n : NSpace)
  | merge (i j : Nat)

/-- The catalogs of a program. (spec/namespace.py:225-543) -/
structure World where
  heap : Heap
  cats : List CatR

/-- What the methods show of every catalog. (spec/namespace.py:261-371) -/
def World.views (w : World) : List State := w.cats.map (view w.heap)

/-- What a call gave. (spec/namespace.py:225-543) -/
inductive Res where
  | none
  | unit (r : Except Err Unit)
  | loaded (r : Except Err (Dict String Included))

/-- Catalog `i` after a call on it. (spec/namespace.py:225-543) -/
def World.put (w : World) (i : Nat) (hc : Heap × CatR) : World := ⟨hc.1, w.cats.set i hc.2⟩

/-- One call; numbers that are not in use do nothing. (spec/namespace.py:225-543) -/
def step (w : World) : Op → World × Res
  | .new => (⟨w.heap, w.cats ++ [{}]⟩, .none)
  | .copy i => match w.cats[i]? with
    | none => (w, .none)
    | some c => (⟨w.heap, w.cats ++ [copyCat c]⟩, .none)
  | .load i rd resolve path => match w.cats[i]? with
    | none => (w, .none)
    | some c => (w.put i (loadR rd resolve w.heap c path).1, .loaded (loadR rd resolve w.heap c path).2)
  | .add i name n => match w.cats[i]? with
    | none => (w, .none)
    | some c => (w.put i (addNamespaceR w.heap c name n).1, .unit (addNamespaceR w.heap c name n).2)
  | .merge i j => match w.cats[i]?, w.cats[j]? with
    | some c, some d =>
      (w.put i (mergeLoopR w.heap c d.namespaces).1, .unit (mergeLoopR w.heap c d.namespaces).2)
    | _, _ => (w, .none)

/-- The same call on catalogs that share nothing (each a `Verif.Namespace.State`; spec/namespace.py:225-543). -/
def stepV (cs : List State) : Op → List State × Res
  | .new => (cs ++ [{}], .none)
  | .copy i => match cs[i]? with
    | none => (cs, .none)
    | some c => (cs ++ [c], .none)
  | .load i rd resolve path => match cs[i]? with
    | none => (cs, .none)
    | some c => (cs.set i (Namespace.load rd resolve c path).1, .loaded (Namespace.load rd resolve c path).2)
  | .add i name n => match cs[i]? with
    | none => (cs, .none)
    | some c => (cs.set i (addNamespace c name n).1, .unit (addNamespace c name n).2)
  | .merge i j => match cs[i]?, cs[j]? with
    | some c, some d => (cs.set i (mergeLoop c d.namespaces).1, .unit (mergeLoop c d.namespaces).2)
    | _, _ => (cs, .none)

/-- A program of calls, with what each gave. (spec/namespace.py:225-543) -/
def run : World → List Op → World × List Res
  | w, [] => (w, [])
  | w, o :: os => ((run (step w o).1 os).1, (step w o).2 :: (run (step w o).1 os).2)

/-- The same program on catalogs that share nothing. (spec/namespace.py:225-543) -/
def runV : List State → List Op → List State × List Res
  | cs, [] => (cs, [])
  | cs, o :: os => ((runV (stepV cs o).1 os).1, (stepV cs o).2 :: (runV (stepV cs o).1 os).2)

/-- No catalogs, nothing allocated. (spec/namespace.py:225-543) -/
def World.empty : World := ⟨⟨fun _ => [], 0⟩, []⟩

/-! ## Class generators -/

/-- A class generator: a number for the class. -/
abbrev Gen := Nat

/-- `CustomClassGenerator` and `MCIClassGenerator`. (build/classgenerator.py:99-370) -/
def custom : Gen := 0

/-- `MCIClassGenerator` (build/classgenerator.py:370-375). -/
def mci : Gen := 1

/-- `register_generator` (build/classgenerator.py:23-33) of a subclass of `CustomClassGenerator`: `remove` takes the
first occurrence away. -/
def registerGen (l : List Gen) (g : Gen) : List Gen := g :: (if l.contains g then l.erase g else l)

/-- The generators of a new type map (build/manager.py:426-427). -/
def initGens : List Gen := registerGen (registerGen [] custom) mci

/-- The end of `merge` for another type map (build/manager.py:464-466). -/
def mergeGens (l : List Gen) (other : List Gen) : List Gen := other.reverse.foldl registerGen l

/-- The end of `merge` when the type map is merged with itself (build/manager.py:464-466): Python's reversed iterator
holds a position in the list that is being changed; `i` is that position plus one. -/
def selfMergeGens : Nat → List Gen → List Gen
  | 0, l => l
  | i + 1, l => match l[i]? with
    | none => l
    | some g => selfMergeGens i (registerGen l g)

/-- The generator that `generate_class` uses for a field (build/classgenerator.py:67-72): the first that applies. -/
def genFor (applies : Gen → Bool) (l : List Gen) : Option Gen := l.find? applies

/-- A type map: its registry and its generators (build/manager.py:405-427). -/
structure TM where
  st : TypeMap.St
  gens : List Gen

/-- `merge` with `ns_catalog=False` and another type map (build/manager.py:455-466): an error in a registration leaves
the generators alone. -/
def mergeTM (t u : TM) : TM × Except Err Unit :=
  match TypeMap.merge t.st u.st with
  | (st, .error e) => (⟨st, t.gens⟩, .error e)
  | (st, .ok ()) => (⟨st, mergeGens t.gens u.gens⟩, .ok ())

/-- `merge` of a type map with itself (build/manager.py:455-466). -/
def mergeSelf (t : TM) : TM × Except Err Unit :=
  match TypeMap.merge t.st t.st with
  | (st, .error e) => (⟨st, t.gens⟩, .error e)
  | (st, .ok ()) => (⟨st, selfMergeGens t.gens.length t.gens⟩, .ok ())

/-- `__copy__` and `__deepcopy__` (build/manager.py:437-445). -/
def copyTM (t : TM) : TM × Except Err Unit := mergeTM ⟨TypeMap.fresh t.st, initGens⟩ t

/-- An element of the list given to `get_type_map`: a namespace file, after the catalog has read it (as in
`TypeMap.load`), or a type map (common/__init__.py:180-188). -/
inductive Ext where
  | path (cat : Dict String (Dict String TypeMap.SpecT)) (deps : List (String × String × String))
  | map (t : TM)

/-- One element of the list of extensions (common/__init__.py:181-188). -/
def applyExt (f : Nat) (t : TM) : Ext → TM × Except Err Unit
  | .path cat ds => (⟨(TypeMap.load f t.st cat ds).1, t.gens⟩, (TypeMap.load f t.st cat ds).2)
  | .map u => mergeTM t u

/-- The loop over the list of extensions (common/__init__.py:180-188). -/
def applyExts (f : Nat) : TM → List Ext → TM × Except Err Unit
  | t, [] => (t, .ok ())
  | t, e :: es => match applyExt f t e with
    | (t', .error x) => (t', .error x)
    | (t', .ok ()) => applyExts f t' es

/-- `get_type_map(extensions=[...])` (common/__init__.py:166-193): `g` is the type map of the package. -/
def getTypeMapList (f : Nat) (g : TM) (es : List Ext) : TM × Except Err Unit :=
  match copyTM g with
  | (t, .error x) => (t, .error x)
  | (t, .ok ()) => applyExts f t es

/-- `get_type_map(extensions=t)` for a type map `t` (common/__init__.py:176-177, 191–192): `t` itself, merged with
itself. -/
def getTypeMapOf (t : TM) : TM × Except Err Unit := mergeSelf t

end Verif.Share

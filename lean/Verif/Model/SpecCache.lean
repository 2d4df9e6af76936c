import Verif.Model.Namespace

/-!
# Model of the namespaces cached in a file (backends/hdf5/h5tools.py)

The group of specifications of a file is a dict from names of namespaces to dicts from versions to contents; the content of a group
whose specs were not all written is `none`.  h5py lists the members of a group in alphabetical order.  What is read from a group is a
`Namespace.Reader`.
-/

namespace Verif.SpecCache
open Verif Namespace

/-- the group with the specifications (backends/hdf5/h5tools.py:399-417) -/
abbrev Cache (α : Type) := Dict String (Dict String (Option α))

/-- the names in a group, in alphabetical order (backends/hdf5/h5tools.py:267-271) -/
def listed {β : Type} (d : Dict String β) : List String := sorted (Dict.keys d)

/-- backends/hdf5/h5tools.py:272-284: which of the versions is used; IndexError if there is none -/
def latest (vs : List String) : Except Err String :=
  let v1 := if 1 < vs.length then vs.erase "unversioned" else vs
  let v2 := if 1 < v1.length then v1.erase "None" else v1
  match v2.getLast? with
  | none => .error .indexError
  | some v => .ok v

/-- the loop of `__get_namespaces` (backends/hdf5/h5tools.py:268-284) -/
def versionsLoop {α : Type} (c : Cache α) : Dict String String → List String → Except Err (Dict String String)
  | acc, [] => .ok acc
  | acc, ns :: rest => match latest (listed ((Dict.get? c ns).getD [])) with
    | .error e => .error e
    | .ok v => versionsLoop c (Dict.set acc ns v) rest

/-- backends/hdf5/h5tools.py:257-286 `__get_namespaces`; no group of specifications: the empty one -/
def getNamespaces {α : Type} (c : Cache α) : Except Err (Dict String String) := versionsLoop c [] (listed c)

/-- backends/hdf5/h5tools.py:307-317 `__order_deps_aux` on `order` and `deps`; each call that goes deeper removes a key from `deps`, so
the number of keys bounds the depth -/
def visit : Nat → String → List String × Dict String (List String) → List String × Dict String (List String)
  | 0, _, s => s
  | n + 1, k, s => match Dict.get? s.2 k with
    | none => s
    | some subs =>
      let r := subs.foldl (fun s' k' => visit n k' s') (s.1, Dict.del s.2 k)
      (r.1 ++ [k], r.2)

/-- backends/hdf5/h5tools.py:288-305 `_order_deps`; `visit` does nothing for a key that is no longer in `deps` -/
def orderDeps (deps : Dict String (List String)) : List String :=
  ((Dict.keys deps).foldl (fun s k => visit deps.length k s) ([], deps)).1

/-- the namespaces a namespace includes, in the order of its schema (backends/hdf5/h5tools.py:213-217) -/
def includes (d : NSDef) : List String := d.schema.filterMap SchemaEl.ns

/-- backends/hdf5/h5tools.py:212-217: each definition in the group starts anew, so that the last one stays; none: no entry -/
def depsOf (deps : Dict String (List String)) (ns : String) : List NSDef → Dict String (List String)
  | [] => deps
  | d :: ds => depsOf (Dict.set deps ns (includes d)) ns ds

/-- the name of the dataset with the namespace (backends/hdf5/h5tools.py:36-45) -/
def nsPath : String := "namespace"

/-- the loop over the namespaces asked for (backends/hdf5/h5tools.py:204-217): readers and dependencies -/
def readersLoop (c : Cache Reader) (vs : Dict String String) : Dict String Reader → Dict String (List String) → List String →
    Except Err (Dict String Reader × Dict String (List String))
  | rs, deps, [] => .ok (rs, deps)
  | rs, deps, ns :: rest => match Dict.get? vs ns with
    | none => .error .keyError
    | some v => match ((Dict.get? c ns).bind (fun g => Dict.get? g v)).join with
      | none => .error .keyError
      | some r => match r.readNs nsPath with
        | .error e => .error e
        | .ok defs => readersLoop c vs (Dict.set rs ns r) (depsOf deps ns defs) rest

/-- the loop that loads (backends/hdf5/h5tools.py:219-223); the report is not modelled -/
def loadLoop (rs : Dict String Reader) : State → List String → State × Except Err Unit
  | st, [] => (st, .ok ())
  | st, ns :: rest => match Dict.get? rs ns with
    | none => (st, .error .keyError)
    | some r => match Namespace.load r true st nsPath with
      | (st', .error e) => (st', .error e)
      | (st', .ok _) => loadLoop rs st' rest

/-- backends/hdf5/h5tools.py:191-223 `__load_namespaces` -/
def load (c : Cache Reader) (asked : Option (List String)) (st : State) : State × Except Err Unit :=
  match getNamespaces c with
  | .error e => (st, .error e)
  | .ok vs => match readersLoop c vs [] [] (asked.getD (listed c)) with
    | .error e => (st, .error e)
    | .ok (rs, deps) => loadLoop rs st (orderDeps deps)

/-- a namespace of the catalog: its name, its version, and what the export of its specs gives (backends/hdf5/h5tools.py:408-417) -/
structure Entry (α : Type) where
  name : String
  version : Option String
  content : Except Err α

/-- the name of the group of a version: `'%s' % None` is `None` (backends/hdf5/h5tools.py:412) -/
def versionName (v : Option String) : String := v.getD "None"

/-- one namespace of `__cache_spec` (backends/hdf5/h5tools.py:409-417); the group is there before the specs are written into it -/
def cacheOne {α : Type} (c : Cache α) (e : Entry α) : Cache α × Except Err Unit :=
  let g := (Dict.get? c e.name).getD []
  match Dict.get? g (versionName e.version) with
  | some _ => (c, .ok ())
  | none => match e.content with
    | .ok x => (Dict.set c e.name (Dict.set g (versionName e.version) (some x)), .ok ())
    | .error x => (Dict.set c e.name (Dict.set g (versionName e.version) none), .error x)

/-- backends/hdf5/h5tools.py:399-417 `__cache_spec` -/
def cacheSpec {α : Type} : Cache α → List (Entry α) → Cache α × Except Err Unit
  | c, [] => (c, .ok ())
  | c, e :: es => match cacheOne c e with
    | (c', .error x) => (c', .error x)
    | (c', .ok ()) => cacheSpec c' es

end Verif.SpecCache

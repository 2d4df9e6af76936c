import Verif.Model.NsWrite

/-!
# Converting a loaded namespace for the cache in a file

Model of `NamespaceToBuilderHelper.convert_namespace` and `get_source_name` (backends/utils.py:47-79) and of writing the result into
a group with `H5SpecWriter` (backends/hdf5/h5_utils.py:364-389), on top of `Verif.NsWrite`.

Simplifications.
* The namespace is given by its schema, by the types loaded from each source (`get_types`) and by the specs of its types; a spec says
  whether it is nested in another one (`spec.parent is not None`) and what its copy is written as.  Which parts of a spec are copied
  is modelled in `Verif.SpecCopy`.
* A group of the file is a dict of datasets; that JSON gives back what was written is assumed.
-/

namespace Verif.NsCache
open Verif Verif.Namespace Verif.NsWrite

/-- a spec of the namespace: is it nested in another one, and its copy (backends/utils.py:70-75) -/
structure CSpec where
  nested : Bool
  copy : BSpec
  deriving DecidableEq

/-- `os.path.splitext(source)[0]` (backends/utils.py:78-79): up to the last point of the last part of the path, unless only points are
before it -/
def sourceName (s : String) : String :=
  let cs := s.toList
  let ext := (cs.reverse.takeWhile fun c => c != '.' && c != '/').reverse
  let rest := (cs.take (cs.length - ext.length)).reverse
  match rest with
  | '.' :: before => if (before.takeWhile fun c => c != '/').all (· == '.') then s else String.ofList before.reverse
  | _ => s

/-- the loop over the types of a source (backends/utils.py:68-75) -/
def convertTypes (spec : String → Except Err CSpec) (src : String) : Builder → List String → Builder × Except Err Unit
  | b, [] => (b, .ok ())
  | b, t :: ts => match spec t with
    | .error e => (b, .error e)
    | .ok x =>
      if x.nested then convertTypes spec src b ts
      else match addSpec b (sourceName src) x.copy with
        | (b', .error e) => (b', .error e)
        | (b', .ok ()) => convertTypes spec src b' ts

/-- the loop over the schema (backends/utils.py:62-75); here a namespace is looked for before a source -/
def convertLoop (types : String → List String) (spec : String → Except Err CSpec) : Builder → List SchemaEl → Builder × Except Err Unit
  | b, [] => (b, .ok ())
  | b, el :: els => match el.ns with
    | some n => convertLoop types spec (includeNs b n) els
    | none => match el.source with
      | none => (b, .error .keyError)
      | some s => match convertTypes spec s b (types s) with
        | (b', .error e) => (b', .error e)
        | (b', .ok ()) => convertLoop types spec b' els

/-- `convert_namespace` (backends/utils.py:53-76); of what is kept about a namespace, the name and the version are modelled -/
def convert (name version : String) (types : String → List String) (spec : String → Except Err CSpec) (schema : List SchemaEl) :
    Builder × Except Err Unit :=
  convertLoop types spec ⟨name, version, [], [], {}⟩ schema

/-- `export` with an `H5SpecWriter` on a new group (spec/write.py:178-215, backends/hdf5/h5_utils.py:379-389): there can not be two
datasets of one name -/
def exportH5 (b : Builder) (path : String) : Dict String File × Except Err Unit := match exportSources [] b.sources with
  | (f, .error x) => (f, .error x)
  | (f, .ok els) =>
    if b.name.toList.any whitespace.contains then (f, .error .valueError)
    else if Dict.has f path then (f, .error .valueError)
    else (Dict.set f path (.ns b.name b.version (nsEls b ++ els)), .ok ())

/-- caching a namespace in a new group (backends/hdf5/h5tools.py:409-417) -/
def cacheNs (name version : String) (types : String → List String) (spec : String → Except Err CSpec) (schema : List SchemaEl) :
    Dict String File × Except Err Unit :=
  match convert name version types spec schema with
  | (_, .error e) => ([], .error e)
  | (b, .ok ()) => exportH5 b "namespace"

end Verif.NsCache

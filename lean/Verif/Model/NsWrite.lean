import Verif.Model.Namespace

/-!
# Model of writing namespaces

`NamespaceBuilder`, `SpecFileBuilder`, `YAMLSpecWriter` and `export_spec` (spec/write.py).  Files are kept by path; that JSON and YAML give back what was written is
assumed (the order of the keys is in `SortKeys`).  An entry of a spec file is the `Item` of `Namespace`; what reading makes of it does not depend on the file.
-/

namespace Verif.NsWrite
open Verif Verif.Namespace

/-- a spec that is added: a group or a dataset, and what the file will have for it (spec/write.py:129-137) -/
structure BSpec where
  isGroup : Bool
  item : Item
  deriving DecidableEq, Repr

/-- an entry of the types of a source: a name, or a spec (spec/write.py:137, 164, 197-201) -/
inductive Ty where
  | name (s : String)
  | spec (b : BSpec)
  deriving DecidableEq, Repr

/-- what is kept for a source; `title` may be there and be `None` (spec/write.py:149-155) -/
structure Src where
  doc : Option String := none
  title : Option (Option String) := none
  types : Option (List Ty) := none
  deriving DecidableEq, Repr

/-- a `NamespaceBuilder` (spec/write.py:121-127); of the arguments only the name and the version are kept -/
structure Builder where
  name : String
  version : String
  nss : Dict String (Option (List String))
  sources : Dict String Src
  cat : Cat
  deriving DecidableEq, Repr

/-- the constructor (spec/write.py:115-127) -/
def new (name : String) (version : Option String) : Except Err Builder := match version with
  | none => .error .valueError
  | some v => .ok ⟨name, v, [], [], {}⟩

/-- `auto_register`, with what is registered when it raises (spec/catalog.py:85-103) -/
def autoReg (src : String) : Cat → List Entry → Cat × Except Err Unit
  | c, [] => (c, .ok ())
  | c, e :: es => match register c e (some src) with
    | .error x => (c, .error x)
    | .ok c' => autoReg src c' es

/-- `'/' in source or source[0] == '.'` (spec/write.py:147-148) -/
def checkSource (s : String) : Except Err Unit :=
  if s.toList.contains '/' then .error .valueError
  else match s.toList with
    | [] => .error .indexError
    | c :: _ => if c = '.' then .error .valueError else .ok ()

/-- `setdefault(source, {'source': source})`, then `doc` and `title`: a title sets the title to `doc` (spec/write.py:149-155) -/
def putSource (d : Dict String Src) (s : String) (doc title : Option String) : Dict String Src :=
  let old := (Dict.get? d s).getD {}
  Dict.set d s ⟨match doc with
    | some x => some x
    | none => old.doc, if title.isSome then some doc else old.title, old.types⟩

/-- `add_source` (spec/write.py:139-155) -/
def addSource (b : Builder) (s : String) (doc title : Option String) : Builder × Except Err Unit := match checkSource s with
  | .error x => (b, .error x)
  | .ok () => (⟨b.name, b.version, b.nss, putSource b.sources s doc title, b.cat⟩, .ok ())

/-- `self.__sources[source].setdefault(key, list()).append(x)` (spec/write.py:137, 164) -/
def appendType (d : Dict String Src) (s : String) (x : Ty) : Dict String Src :=
  let old := (Dict.get? d s).getD {}
  Dict.set d s ⟨old.doc, old.title, some (old.types.getD [] ++ [x])⟩

/-- `add_spec` (spec/write.py:129-137): the spec is registered before the source is checked -/
def addSpec (b : Builder) (s : String) (sp : BSpec) : Builder × Except Err Unit := match autoReg s b.cat sp.item.regs with
  | (c, .error x) => (⟨b.name, b.version, b.nss, b.sources, c⟩, .error x)
  | (c, .ok ()) => match checkSource s with
    | .error x => (⟨b.name, b.version, b.nss, b.sources, c⟩, .error x)
    | .ok () => (⟨b.name, b.version, b.nss, appendType (putSource b.sources s none none) s (.spec sp), c⟩, .ok ())

/-- `include_namespace` (spec/write.py:172-176) -/
def includeNs (b : Builder) (n : String) : Builder := ⟨b.name, b.version, Dict.setDefault b.nss n none, b.sources, b.cat⟩

/-- `include_type` (spec/write.py:157-170) -/
def includeType (b : Builder) (t : String) (src ns : Option String) : Builder × Except Err Unit := match src with
  | some s => match checkSource s with
    | .error x => (b, .error x)
    | .ok () => (⟨b.name, b.version, b.nss, appendType (putSource b.sources s none none) s (.name t), b.cat⟩, .ok ())
  | none => match ns with
    | some n =>
      let old := (Dict.get? b.nss n).getD none
      (⟨b.name, b.version, Dict.set b.nss n (some (old.getD [] ++ [t])), b.sources, b.cat⟩, .ok ())
    | none => (b, .error .valueError)

/-- what is done to a builder (spec/write.py:129-176) -/
inductive Op where
  | spec (src : String) (s : BSpec)
  | source (src : String) (doc title : Option String)
  | type (t : String) (src ns : Option String)
  | ns (n : String)
  deriving DecidableEq, Repr

/-- one of these (spec/write.py:129-176) -/
def step (b : Builder) : Op → Builder × Except Err Unit
  | .spec s sp => addSpec b s sp
  | .source s d t => addSource b s d t
  | .type t s n => includeType b t s n
  | .ns n => (includeNs b n, .ok ())

/-- many of these; one that raises is passed over (spec/write.py:129-176) -/
def run (b : Builder) : List Op → Builder
  | [] => b
  | o :: os => run (step b o).1 os

/-! ## Export -/

/-- an entry of the schema, as it is written (spec/write.py:190-213) -/
structure El where
  el : SchemaEl
  doc : Option String
  title : Option (Option String)
  deriving DecidableEq, Repr

/-- a file: the specs of a `SpecFileBuilder`, or a namespace (spec/write.py:58-71, 224-232) -/
inductive File where
  | specs (groups datasets : List Item)
  | ns (name version : String) (schema : List El)
  deriving DecidableEq, Repr

/-- the names in the types of a source (spec/write.py:197-199) -/
def names : List Ty → List String
  | [] => []
  | .name s :: l => s :: names l
  | .spec _ :: l => names l

/-- the specs in the types of a source, those of groups or those of datasets (spec/write.py:200-201, 226-232) -/
def specs (isGroup : Bool) : List Ty → List Item
  | [] => []
  | .name _ :: l => specs isGroup l
  | .spec b :: l => if b.isGroup = isGroup then b.item :: specs isGroup l else specs isGroup l

/-- the loop over the sources (spec/write.py:193-213): the files and the entries of the schema -/
def exportSources : Dict String File → List (String × Src) → Dict String File × Except Err (List El)
  | fs, [] => (fs, .ok [])
  | fs, (p, i) :: l => match i.types with
    | none => (fs, .error .keyError)
    | some ts =>
      let out := !((specs true ts).isEmpty && (specs false ts).isEmpty)
      let dts := names ts
      if out && !dts.isEmpty then (fs, .error .valueError)
      else
        let fs' := if out then Dict.set fs p (.specs (specs true ts) (specs false ts)) else fs
        match exportSources fs' l with
        | (f, .error x) => (f, .error x)
        | (f, .ok els) => (f, .ok (⟨⟨some p, none, if dts.isEmpty then none else some dts⟩, i.doc, i.title⟩ :: els))

/-- `string.whitespace` (spec/namespace.py:45-46) -/
def whitespace : List Char := [' ', '\t', '\n', '\r', '\x0b', '\x0c']

/-- the entries for the namespaces that are included (spec/write.py:191-192) -/
def nsEls (b : Builder) : List El := b.nss.map (fun x => ⟨⟨none, some x.1, x.2⟩, none, none⟩)

/-- `export` (spec/write.py:178-215): the spec files are written one by one, then the namespace is made, then written -/
def «export» (b : Builder) (fs : Dict String File) (path : String) : Dict String File × Except Err Unit := match exportSources fs b.sources with
  | (f, .error x) => (f, .error x)
  | (f, .ok els) =>
    if b.name.toList.any whitespace.contains then (f, .error .valueError)
    else (Dict.set f path (.ns b.name b.version (nsEls b ++ els)), .ok ())

/-- the loop of `export_spec` (spec/write.py:256-257) -/
def addAllSpecs (b : Builder) (s : String) : List BSpec → Builder × Except Err Unit
  | [] => (b, .ok ())
  | sp :: l => match addSpec b s sp with
    | (b', .error x) => (b', .error x)
    | (b', .ok ()) => addAllSpecs b' s l

/-- `export_spec` (spec/write.py:235-259); without specs nothing is written -/
def exportSpec (b : Builder) (l : List BSpec) (fs : Dict String File) : Dict String File × Except Err Unit :=
  if l.isEmpty then (fs, .ok ())
  else match addAllSpecs b (b.name ++ ".extensions.yaml") l with
    | (_, .error x) => (fs, .error x)
    | (b', .ok ()) => «export» b' fs (b.name ++ ".namespace.yaml")

/-! ## Reading it again -/

/-- `YAMLSpecReader` on such files (spec/namespace.py:193-222): datasets come before groups when they are loaded -/
def readerOf (fs : Dict String File) (dir : String) (depth : Nat) : Reader where
  depth := depth
  dir := dir
  readNs p := match Dict.get? fs p with
    | none => .error .unsupported
    | some (.specs _ _) => .error .valueError
    | some (.ns n v s) => .ok [⟨n, v, s.map El.el, none⟩]
  readSpec p := match Dict.get? fs p with
    | none => .error .unsupported
    | some (.specs g d) => .ok (d ++ g)
    | some (.ns _ _ _) => .error .valueError

end Verif.NsWrite

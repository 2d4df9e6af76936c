import Verif.Base.Py

/-!
# Writing builders to a file

`HDF5IO.write_builder`, `write_group`, `write_dataset`, `write_link`, `set_attributes`, `__get_path`, `__get_ref`,
`__queue_ref` and `__add_refs` (`backends/hdf5/h5tools.py:828-1286, 1469-1535`), and `WriteStatusTracker`
(`backends/utils.py:7-43`).

What is simplified:

* A file is a dictionary from paths to objects.  A path is the list of its parts, the last part first; `[]` is the root.
  Names hold no slashes.  A reference is the path of the object it refers to.
* Exceptions are a field of the state: once it is set nothing happens any more.
* Builders are identified by a number; that of a builder stands for its id and name in the tracker.  What a builder knows
  about its place (parents, location, source) is given apart from the tree that is written (`Meta`).
* Data is opaque.  Left out: existing `h5py.Dataset`s as data, `DataIO` wrappers and iterators, compound types, region
  references, lists of references in attributes, data types and shapes.  `require_dataset` is taken to find the same
  shape and type if there is a dataset of the name.
* Paths that lead through links count as missing.
* Lists of names and file names are not normalised; the path of an external link is not made relative.
-/

namespace Verif.H5Write

open Verif

/-- A path, the last part first. -/
abbrev Path := List String

/-- The value of an attribute of a builder: data, or another builder.  `backends/hdf5/h5tools.py:957-985` -/
inductive WAttr where
  | data (d : String)
  | ref (t : Nat)
  deriving DecidableEq, Repr

/-- The data of a `DatasetBuilder`: data, an array of references, or one reference.
`backends/hdf5/h5tools.py:1183-1286` -/
inductive WData where
  | data (d : String)
  | refs (l : List Nat)
  | sref (t : Nat)
  deriving DecidableEq, Repr

/-- A `LinkBuilder`: its number, its name and the builder it leads to.  `build/builders.py:398-416` -/
structure WLink where
  id : Nat
  name : String
  target : Nat
  deriving DecidableEq, Repr

/-- A `GroupBuilder` or a `DatasetBuilder`.  `subs` holds the groups and then the datasets of a group.
`build/builders.py:144-172, 340-360` -/
inductive Bld where
  | node (id : Nat) (name : String) (isData : Bool) (attrs : Dict String WAttr) (data : WData) (links : List WLink)
      (subs : List Bld)

/-- What a builder knows about its place: its name, its name and those of its parents (without the topmost one), its
location and its source.  `build/builders.py:14-66`, `backends/hdf5/h5tools.py:1040-1060` -/
structure Meta where
  name : String
  chain : Path
  location : Option Path
  source : Option String
  deriving DecidableEq, Repr

/-- The builders there are, the source of a `LinkBuilder`, the name of the file that is written, and `export_source`.
`backends/hdf5/h5tools.py:1069-1104` -/
structure Env where
  info : Nat → Meta
  linkSource : Nat → Option String
  fname : String
  exportSource : Option String

/-- `__get_path`.  `backends/hdf5/h5tools.py:1040-1060` -/
def getPath (E : Env) (t : Nat) : Path :=
  match (E.info t).location with
  | some l => (E.info t).name :: l
  | none => (E.info t).chain

/-- The value of an HDF5 attribute.  `backends/hdf5/h5tools.py:957-985` -/
inductive HVal where
  | data (d : String)
  | ref (p : Path)
  deriving DecidableEq, Repr

/-- What is at a path; `nulls`: a dataset made for references that have not been filled in.
`backends/hdf5/h5tools.py:1086-1101, 1226-1286` -/
inductive HKind where
  | group
  | data (d : String)
  | nulls
  | refs (l : List Path)
  | sref (p : Path)
  | soft (p : Path)
  | ext (file : String) (p : Path)
  deriving DecidableEq, Repr

/-- An HDF5 object.  `backends/hdf5/h5tools.py:953-985` -/
structure Obj where
  kind : HKind
  attrs : Dict String HVal
  deriving DecidableEq, Repr

/-- The exceptions: a name is taken, something is missing (`KeyError`), `RuntimeError`, `ValueError`; `depth` marks that
the bound on the number of turns of `__add_refs` was too low.  `backends/hdf5/h5tools.py:889, 1019, 1104` -/
inductive Err where
  | taken | missing | runtime | value | depth
  deriving DecidableEq, Repr

/-- A call in the queue: set an attribute to a reference, or fill a dataset with references and then set its attributes.
`backends/hdf5/h5tools.py:987-1004, 1226-1286` -/
inductive Call where
  | attr (p : Path) (k : String) (t : Nat)
  | fill (p : Path) (d : WData) (attrs : Dict String WAttr)
  deriving DecidableEq, Repr

/-- The file, the builders that have been written, the queue of calls (with a mark if they have failed before), and the
exception.  `backends/hdf5/h5tools.py:103-110`, `backends/utils.py:7-43` -/
structure St where
  file : Dict Path Obj
  written : List Nat := []
  queue : List (Call × Bool) := []
  err : Option Err := none
  deriving DecidableEq, Repr

/-- Raise an exception. `backends/hdf5/h5tools.py:889, 985, 1104` -/
def St.raise (st : St) (e : Err) : St := if st.err.isSome then st else { st with err := some e }

/-- Make an object.  `backends/hdf5/h5tools.py:1019, 1105, 1362, 1468` -/
def St.create (st : St) (p : Path) (k : HKind) : St :=
  if st.err.isSome then st
  else if st.file.has p then st.raise .taken
  else { st with file := st.file.set p ⟨k, []⟩ }

/-- Change the object at a path.  `backends/hdf5/h5tools.py:972, 981, 1251` -/
def St.modify (st : St) (p : Path) (f : Obj → Obj) : St :=
  if st.err.isSome then st
  else match st.file.get? p with
  | none => st.raise .missing
  | some o => { st with file := st.file.set p (f o) }

/-- `obj.attrs[key] = value`.  `backends/hdf5/h5tools.py:972, 981, 1001` -/
def St.setAttr (st : St) (p : Path) (k : String) (v : HVal) : St :=
  st.modify p (fun o => { o with attrs := o.attrs.set k v })

/-- `__queue_ref`.  `backends/hdf5/h5tools.py:1520-1535` -/
def St.enqueue (st : St) (c : Call) : St :=
  if st.err.isSome then st else { st with queue := st.queue ++ [(c, false)] }

/-- `__set_written`.  `backends/hdf5/h5tools.py:524-531`, `backends/utils.py:22-32` -/
def St.mark (st : St) (id : Nat) : St :=
  if st.err.isSome then st else { st with written := st.written ++ [id] }

/-- `set_attributes`.  `backends/hdf5/h5tools.py:948-985` -/
def setAttributes (p : Path) : Dict String WAttr → St → St
  | [], st => st
  | (k, .data d) :: l, st => setAttributes p l (st.setAttr p k (.data d))
  | (k, .ref t) :: l, st => setAttributes p l (st.enqueue (.attr p k t))

/-- `write_source`: that of the link, or `export_source`.  `backends/hdf5/h5tools.py:1079-1082` -/
def writeSource (E : Env) (l : WLink) : Option String :=
  match E.exportSource with
  | none => E.linkSource l.id
  | some s => some s

/-- What a `LinkBuilder` becomes: a soft link within the file, or an external one; `none`: it is not known to which file.
`backends/hdf5/h5tools.py:1074-1104` -/
def linkKind (E : Env) (l : WLink) : Option HKind :=
  if (E.info l.target).source = writeSource E l ∨ (E.info l.target).source = some E.fname then
    some (.soft (getPath E l.target))
  else match (E.info l.target).source with
  | some f => some (.ext f (getPath E l.target))
  | none => none

/-- `write_link`.  `backends/hdf5/h5tools.py:1062-1107` -/
def writeLink (E : Env) (p : Path) (l : WLink) (st : St) : St :=
  if l.id ∈ st.written then st
  else match linkKind E l with
  | none => st.raise .value
  | some k => (st.create (l.name :: p) k).mark l.id

/-- The loop over the links of a group.  `backends/hdf5/h5tools.py:1031-1034` -/
def writeLinks (E : Env) (p : Path) : List WLink → St → St
  | [], st => st
  | l :: ls, st => writeLinks E p ls (writeLink E p l st)

/-- `require_dataset` for references.  `backends/hdf5/h5tools.py:1226, 1246, 1266, 1283` -/
def St.require (st : St) (p : Path) : St :=
  if st.err.isSome then st
  else match st.file.get? p with
  | none => { st with file := st.file.set p ⟨.nulls, []⟩ }
  | some o =>
    match o.kind with
    | .group => st.raise .taken
    | .soft _ => st.raise .taken
    | .ext _ _ => st.raise .taken
    | _ => st

/-- `write_dataset`.  `backends/hdf5/h5tools.py:1120-1343` -/
def writeDataset (p : Path) (id : Nat) (attrs : Dict String WAttr) (data : WData) (st : St) : St :=
  if id ∈ st.written then st
  else match data with
  | .data d => (setAttributes p attrs (st.create p (.data d))).mark id
  | d => ((st.require p).mark id).enqueue (.fill p d attrs)

/-- The start of `write_group`: take the group if it has been written, else make it.
`backends/hdf5/h5tools.py:1011-1019` -/
def openGroup (p : Path) (id : Nat) (st : St) : St :=
  if id ∈ st.written then
    match st.file.get? p with
    | none => st.raise .missing
    | some _ => st
  else st.create p .group

mutual
/-- `write_group` and `write_dataset`.  `backends/hdf5/h5tools.py:1010-1038, 1120` -/
def writeNode (E : Env) (p : Path) : Bld → St → St
  | .node id name isData attrs data links subs, st =>
    if isData then writeDataset (name :: p) id attrs data st
    else (setAttributes (name :: p) attrs (writeLinks E (name :: p) links
      (writeNodes E (name :: p) subs (openGroup (name :: p) id st)))).mark id

/-- The loops over the groups and the datasets of a group.  `backends/hdf5/h5tools.py:1020-1030` -/
def writeNodes (E : Env) (p : Path) : List Bld → St → St
  | [], st => st
  | t :: l, st => writeNodes E p l (writeNode E p t st)
end

/-- `self.__file[path]` in `__get_ref`, for one builder.  Simplified: a path at which there is a link counts as missing, while
h5py follows the link; this happens only for a builder that is not itself in the file.  `backends/hdf5/h5tools.py:1469-1502` -/
def resolve (E : Env) (f : Dict Path Obj) (t : Nat) : Option Path :=
  match f.get? (getPath E t) with
  | none => none
  | some o =>
    match o.kind with
    | .soft _ => none
    | .ext _ _ => none
    | _ => some (getPath E t)

/-- `__get_ref` for a list of builders.  `backends/hdf5/h5tools.py:1278-1281` -/
def resolveAll (E : Env) (f : Dict Path Obj) : List Nat → Option (List Path)
  | [] => some []
  | t :: l => (resolve E f t).bind (fun p => (resolveAll E f l).map (fun ps => p :: ps))

/-- The references to be filled in.  `backends/hdf5/h5tools.py:1251, 1278-1281` -/
def resolveData (E : Env) (f : Dict Path Obj) : WData → Option HKind
  | .data d => some (.data d)
  | .refs l => (resolveAll E f l).map HKind.refs
  | .sref t => (resolve E f t).map HKind.sref

/-- Carry out a call; `none`: a `KeyError`.  `backends/hdf5/h5tools.py:987-1004, 1246-1286` -/
def runCall (E : Env) (c : Call) (st : St) : Option St :=
  match c with
  | .attr p k t => (resolve E st.file t).map (fun q => st.setAttr p k (.ref q))
  | .fill p d attrs =>
    (resolveData E st.file d).map (fun k => setAttributes p attrs (st.modify p (fun o => { o with kind := k })))

/-- `__add_refs`; a call that fails is tried once more, after the others.  `n` bounds the number of turns.
`backends/hdf5/h5tools.py:866-889` -/
def drain (E : Env) : Nat → St → St
  | 0, st => st.raise .depth
  | n + 1, st =>
    if st.err.isSome then st
    else match st.queue with
    | [] => st
    | (c, failed) :: q =>
      match runCall E c { st with queue := q } with
      | some st' => drain E n st'
      | none =>
        if failed then ({ st with queue := q } : St).raise .runtime
        else drain E n { st with queue := q ++ [(c, true)] }

/-- `write_builder`.  `backends/hdf5/h5tools.py:846-864` -/
def writeBuilder (E : Env) (n : Nat) : Bld → St → St
  | .node id _ _ attrs _ links subs, st =>
    (drain E n (setAttributes [] attrs (writeLinks E [] links (writeNodes E [] subs st)))).mark id

/-- A newly made file.  `backends/hdf5/h5tools.py:774-790` -/
def newFile : St := { file := [([], ⟨.group, []⟩)] }

end Verif.H5Write

import Verif.Base.Py

/-!
# Reading a file into builders

`HDF5IO.read_builder`, `__read_group`, `__read_dataset`, `__read_attrs`, `__read_ref`, the cache of builders by HDF5
object and `get_builder` (`backends/hdf5/h5tools.py:503-748`), with the constructor of `GroupBuilder`
(`build/builders.py:144-172`).

What is simplified:

* A file is a graph of objects; an object is named by its file and HDF5 id.  Links are given with the object they lead
  to.  All link paths are absolute, as the code demands (`backends/hdf5/h5tools.py:627`).
* Builders live in a heap, so that it can be said whether two places hold the same builder.
* The cached specifications are left out wherever they are met (`ignore`); the code forgets this below a group that
  is reached by a reference.
* Data is opaque, and decoding of bytes, dtype, maxshape, source and location are left out.  Compound scalars count
  as opaque data.
-/

namespace Verif.H5Read

open Verif

/-- An HDF5 object: file name and id, given as a list of names.  `backends/hdf5/h5tools.py:537-547` -/
abbrev Oid := List String

/-- A single name. `backends/hdf5/h5tools.py:537-547` -/
instance : Coe String Oid := ⟨fun s => [s]⟩

/-- The place of a builder in the heap. -/
abbrev Addr := Nat

/-- The exceptions on the way.  `backends/hdf5/h5tools.py:577, 741, 766`, `build/builders.py:218-221`; `attribute`: a
`Group` has no `dtype`, `backends/hdf5/h5tools.py:674`. -/
inductive Err where
  | recursion | key | value | attribute
  deriving DecidableEq, Repr

/-- The value of an HDF5 attribute.  `backends/hdf5/h5tools.py:735-748` -/
inductive HVal where
  | data (d : String)
  | ref (o : Oid)
  | region (o : Oid)
  deriving DecidableEq, Repr

/-- The content of an HDF5 dataset: scalar or array data, an array of references, or a scalar reference.
`backends/hdf5/h5tools.py:683-722` -/
inductive HData where
  | data (d : String)
  | refs (l : List Oid)
  | sref (o : Oid)
  deriving DecidableEq, Repr

/-- A member of an HDF5 group: an object, or a soft or external link with the last part of its path and the object it
leads to (`none`: broken).  `backends/hdf5/h5tools.py:610-660` -/
inductive Entry where
  | hard (o : Oid)
  | link (base : String) (target : Option Oid)
  deriving DecidableEq, Repr

/-- An HDF5 group or dataset, with the last part of its name.  `backends/hdf5/h5tools.py:593-610, 672-682` -/
structure Node where
  isData : Bool
  name : String
  attrs : Dict String HVal
  members : Dict String Entry
  data : HData
  deriving Repr

/-- A file, with everything its links lead to, and the objects that hold cached specifications.
`backends/hdf5/h5tools.py:510-519` -/
structure File where
  objs : Oid → Option Node
  ignore : Oid → Bool

/-- The value of an attribute of a builder.  `backends/hdf5/h5tools.py:735-748` -/
inductive BAttr where
  | data (d : String)
  | bldr (a : Addr)
  deriving DecidableEq, Repr

/-- The data of a `DatasetBuilder`.  `backends/hdf5/h5tools.py:684-722` -/
inductive BData where
  | data (d : String)
  | refs (l : List Oid)
  | ref (a : Addr)
  deriving DecidableEq, Repr

/-- `GroupBuilder` and `DatasetBuilder`.  A link is given by its name and the builder it leads to.
`build/builders.py:144-172, 340-360, 398-416` -/
inductive BNode where
  | group (name : String) (attrs : Dict String BAttr) (groups dsets links : Dict String Addr)
  | dset (name : String) (attrs : Dict String BAttr) (data : BData)
  deriving DecidableEq, Repr

/-- `builder.name`.  `build/builders.py:41-44` -/
def BNode.name : BNode → String
  | .group n _ _ _ _ => n
  | .dset n _ _ => n

/-- The builders made so far and `self.__built`.  `backends/hdf5/h5tools.py:108, 537-547` -/
structure St where
  heap : List BNode
  built : Dict Oid Addr
  deriving DecidableEq, Repr

/-- `__set_built`.  `backends/hdf5/h5tools.py:537-547` -/
def St.setBuilt (st : St) (o : Oid) (a : Addr) : St := { st with built := st.built.setDefault o a }

/-- Make a builder.  `build/builders.py:144-172, 340-360` -/
def St.alloc (st : St) (b : BNode) : Addr × St := (st.heap.length, { st with heap := st.heap ++ [b] })

/-- The name of a builder.  `build/builders.py:41-44` -/
def St.nameAt (st : St) (a : Addr) : String := ((st.heap[a]?).map BNode.name).getD ""

/-- How a group or dataset is read: `__read_group` and `__read_dataset`.  `backends/hdf5/h5tools.py:593, 671` -/
abbrev Rec := Oid → Option String → St → Except Err (Addr × St)

/-- Take the builder of an object from the cache, or read the object and put it there.
`backends/hdf5/h5tools.py:624-632, 642-656, 750-761` -/
def fetch (rec : Rec) (o : Oid) (nm : Option String) (st : St) : Except Err (Addr × St) :=
  match st.built.get? o with
  | some a => .ok (a, st)
  | none => do
    let (a, st) ← rec o nm st
    .ok (a, st.setBuilt o a)

/-- One attribute of `__read_attrs`; `none` for the location of the cached specifications.
`backends/hdf5/h5tools.py:737-747` -/
def readAttr (rec : Rec) (k : String) (v : HVal) (st : St) : Except Err (Option BAttr × St) :=
  if k = ".specloc" then .ok (none, st)
  else match v with
  | .data d => .ok (some (.data d), st)
  | .region _ => .error .value
  | .ref o => do
    let (a, st) ← fetch rec o none st
    .ok (some (.bldr a), st)

/-- `ret[k] = ...`, unless the attribute is left out.  `backends/hdf5/h5tools.py:738, 744-747` -/
def putAttr (d : Dict String BAttr) (k : String) : Option BAttr → Dict String BAttr
  | none => d
  | some v => d.set k v

/-- `__read_attrs`.  `backends/hdf5/h5tools.py:735-748` -/
def readAttrs (rec : Rec) : Dict String HVal → Dict String BAttr → St → Except Err (Dict String BAttr × St)
  | [], acc, st => .ok (acc, st)
  | (k, v) :: l, acc, st => do
    let (w, st) ← readAttr rec k v st
    readAttrs rec l (putAttr acc k w) st

/-- `kwargs['groups']`, `kwargs['datasets']` and `kwargs['links']`.  The keys are names of builders, except for links,
which are kept under the last part of the path they lead to.  `backends/hdf5/h5tools.py:594-599, 636, 657, 663` -/
structure Parts where
  groups : Dict String Addr := []
  dsets : Dict String (Option Addr) := []
  links : Dict String (String × Addr) := []
  deriving DecidableEq, Repr

/-- One turn of the loop over the members of a group.  `backends/hdf5/h5tools.py:609-664` -/
def readMember (F : File) (rec : Rec) (k : String) (e : Entry) (p : Parts) (st : St) : Except Err (Parts × St) :=
  match e with
  | .link _ none => .ok ({ p with dsets := p.dsets.set k none }, st)
  | .link base (some o) =>
    if F.ignore o then .ok (p, st)
    else do
      let (a, st) ← fetch rec o (some base) st
      .ok ({ p with links := p.links.set base (k, a) }, st)
  | .hard o =>
    if F.ignore o then .ok (p, st)
    else do
      let (a, st) ← fetch rec o (some k) st
      .ok ((if ((F.objs o).map Node.isData).getD false then { p with dsets := p.dsets.set (st.nameAt a) (some a) }
        else { p with groups := p.groups.set (st.nameAt a) a }), st)

/-- The loop over the members of a group.  `backends/hdf5/h5tools.py:609-664` -/
def readMembers (F : File) (rec : Rec) : Dict String Entry → Parts → St → Except Err (Parts × St)
  | [], p, st => .ok (p, st)
  | (k, e) :: l, p, st => do
    let (p, st) ← readMember F rec k e p st
    readMembers F rec l p st

/-- The datasets that are not `None`.  `build/builders.py:167-169` -/
def someDsets (d : Dict String (Option Addr)) : Dict String Addr :=
  d.filterMap (fun q => q.2.map (fun a => (q.1, a)))

/-- `set_link` for every link.  `build/builders.py:170-171, 244-257` -/
def linkDict (d : Dict String (String × Addr)) : Dict String Addr :=
  d.foldl (fun e q => e.set q.2.1 q.2.2) []

/-- Two lists of names have none in common.  `build/builders.py:217-221` -/
def disjointB (a b : List String) : Bool := a.all (fun x => !b.contains x)

/-- The constructor of `GroupBuilder`: a name may be used for one kind of thing only.
`build/builders.py:144-172, 208-221, 244-257` -/
def mkGroup (name : String) (attrs : Dict String BAttr) (p : Parts) : Except Err BNode :=
  let ds := someDsets p.dsets
  let ls := linkDict p.links
  if disjointB p.groups.keys attrs.keys && disjointB ds.keys (attrs.keys ++ p.groups.keys) &&
      disjointB ls.keys (attrs.keys ++ p.groups.keys ++ ds.keys) then .ok (.group name attrs p.groups ds ls)
  else .error .value

/-- The data part of `__read_dataset`.  A scalar reference is read anew by `__read_dataset`, without a look into the
cache.  `backends/hdf5/h5tools.py:683-722` -/
def readData (F : File) (rec : Rec) (d : HData) (st : St) : Except Err (BData × St) :=
  match d with
  | .data s => .ok (.data s, st)
  | .refs l => .ok (.refs l, st)
  | .sref p =>
    match F.objs p with
    | none => .error .key
    | some nd =>
      if nd.isData then do
        let (a, st) ← rec p none st
        .ok (.ref a, st.setBuilt p a)
      else .error .attribute

/-- `__read_group` and `__read_dataset`; `n` is the recursion depth left.  `backends/hdf5/h5tools.py:593-669, 671-725` -/
def readObj (F : File) : Nat → Oid → Option String → St → Except Err (Addr × St)
  | 0, _, _, _ => .error .recursion
  | n + 1, o, nm, st =>
    match F.objs o with
    | none => .error .key
    | some nd => do
      let (attrs, st) ← readAttrs (readObj F n) nd.attrs [] st
      if nd.isData then do
        let (d, st) ← readData F (readObj F n) nd.data st
        .ok (st.alloc (.dset (nm.getD nd.name) attrs d))
      else do
        let (p, st) ← readMembers F (readObj F n) nd.members {} st
        let b ← mkGroup (nm.getD nd.name) attrs p
        .ok (st.alloc b)

/-- `read_builder` of a newly opened file.  The root is not entered into the cache.
`backends/hdf5/h5tools.py:503-523` -/
def readBuilder (F : File) (n : Nat) (root : Oid) : Except Err (Addr × St) :=
  readObj F n root (some "root") ⟨[], []⟩

/-- `get_builder`, by which the elements of a dataset of references are resolved.
`backends/hdf5/h5tools.py:566-579`, `backends/hdf5/h5_utils.py:147-169` -/
def getBuilder (st : St) (o : Oid) : Except Err Addr :=
  match st.built.get? o with
  | some a => .ok a
  | none => .error .value

end Verif.H5Read

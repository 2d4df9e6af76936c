import Verif.Model.H5Read
import Verif.Model.H5Write

/-!
# Opening a file that was written

What `h5py` shows of a file: the link between the files of `H5Write` and those of `H5Read`.

What is simplified: an object of the file is named by its path.  The target of an external link counts as missing, since it
is in another file, and so does a link that leads to a link.  There are no cached specifications.  Members come in the order
in which they were made.
-/

namespace Verif.H5RoundTrip

open Verif H5Write

/-- Is it a group or a dataset?  `backends/hdf5/h5tools.py:614-660` -/
def hardB : HKind → Bool
  | .soft _ => false
  | .ext _ _ => false
  | _ => true

/-- The value of an attribute.  `backends/hdf5/h5tools.py:735-748` -/
def openVal : HVal → H5Read.HVal
  | .data d => .data d
  | .ref p => .ref p

/-- The content of a dataset.  `backends/hdf5/h5tools.py:683-722` -/
def openData : HKind → H5Read.HData
  | .data d => .data d
  | .refs l => .refs l
  | .sref p => .sref p
  | .nulls => .refs []
  | _ => .data ""

/-- Is there a group or a dataset at a path?  `backends/hdf5/h5tools.py:614-616` -/
def there (f : Dict Path Obj) (p : Path) : Bool := ((f.get? p).map (fun o => hardB o.kind)).getD false

/-- A member of a group: `h5obj.get(k, getlink=True)`.  `backends/hdf5/h5tools.py:614-660` -/
def openEntry (f : Dict Path Obj) (q : Path) : HKind → H5Read.Entry
  | .soft p => .link (p.headD "") (if there f p then some p else none)
  | .ext _ p => .link (p.headD "") none
  | _ => .hard q

/-- An entry of the file as a member of the group at `p`.  `backends/hdf5/h5tools.py:609-616` -/
def member (f : Dict Path Obj) (p : Path) (x : Path × Obj) : Option (String × H5Read.Entry) :=
  match x.1 with
  | [] => none
  | k :: q => if q = p then some (k, openEntry f (k :: q) x.2.kind) else none

/-- The members of a group.  `backends/hdf5/h5tools.py:609-616` -/
def members (f : Dict Path Obj) (p : Path) : Dict String H5Read.Entry := f.filterMap (member f p)

/-- A group or a dataset.  `backends/hdf5/h5tools.py:593-610, 672-682` -/
def openNode (f : Dict Path Obj) (p : Path) (o : Obj) : H5Read.Node where
  isData := o.kind != .group
  name := p.headD ""
  attrs := o.attrs.map (fun q => (q.1, openVal q.2))
  members := if o.kind = .group then members f p else []
  data := openData o.kind

/-- Open a file.  `backends/hdf5/h5tools.py:774-800` -/
def openFile (f : Dict Path Obj) : H5Read.File where
  objs := fun p =>
    match f.get? p with
    | none => none
    | some o => if hardB o.kind then some (openNode f p o) else none
  ignore := fun _ => false

end Verif.H5RoundTrip

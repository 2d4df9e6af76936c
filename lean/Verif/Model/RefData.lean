import Verif.Base.Slice
import Verif.Model.Arrays

/-!
# Model of datasets of references and queries (backends/hdf5/h5_utils.py, query.py)

`HDMFDataset`, `H5Dataset`, `DatasetOfReferences` and its subclasses for objects, regions and tables, for builders and for
containers, and `Query` on sorted arrays.  HDF5 objects, builders and containers are numbers.
-/

namespace Verif.RefData
open Verif

/-- An HDF5 reference: to nothing, an object, or elements of a dataset. (backends/hdf5/h5_utils.py:149-150; 257-259) -/
inductive Ref where
  | null
  | obj (o : Nat)
  | reg (o : Nat) (sel : List Nat)
  deriving DecidableEq

/-- the object that `file[ref]` gives (backends/hdf5/h5_utils.py:149-150) -/
def Ref.target : Ref → Option Nat
  | .null => none
  | .obj o => some o
  | .reg o _ => some o

/-- whether references become builders or containers (backends/hdf5/h5_utils.py:160-184) -/
inductive Kind where
  | builder
  | container
  deriving DecidableEq

/-- what a reference becomes (backends/hdf5/h5_utils.py:160-184) -/
inductive Obj where
  | builder (b : Nat)
  | cont (c : Nat)
  deriving DecidableEq

/-- What the reader knows: the builders read for HDF5 objects (`__built`), the container that the manager constructs for a
builder, the elements of HDF5 datasets, the objects at paths of the file, the path of each builder, and the builder of a
container. (backends/hdf5/h5tools.py:547-604, 1040-1060; build/manager.py:262-267) -/
structure IO where
  built : Nat → Option Nat
  cont : Nat → Nat
  elems : Nat → List Int
  file : List String → Option Nat
  path : Nat → List String
  builder : Nat → Option Nat

/-- An index; a numpy array of integers is a list. (query.py:120-132) -/
inductive Key where
  | int (i : Int)
  | slice (s : PySlice)
  | list (l : List Int)
  | tup (l : List Int)
  deriving DecidableEq

/-- `__evaluate_key`: a tuple becomes a list, except the empty one (query.py:120-128) -/
def evaluateKey : Key → Key
  | .tup [] => .tup []
  | .tup l => .list l
  | k => k

/-- what indexing gives: an element or several (query.py:130-132) -/
inductive Sel (α : Type) where
  | one (a : α)
  | many (l : List α)
  deriving DecidableEq

/-- a function for each element, up to the first error (backends/hdf5/h5_utils.py:263-264) -/
def mapE {α β : Type} (f : α → Except Err β) : List α → Except Err (List β)
  | [] => .ok []
  | a :: l => match f a with
    | .error e => .error e
    | .ok b => match mapE f l with
      | .error e => .error e
      | .ok bs => .ok (b :: bs)

/-- is each number less than the next? (what h5py asks of a list of indices, used in query.py:130-132) -/
def increasing : List Nat → Bool
  | [] => true
  | [_] => true
  | a :: b :: l => decide (a < b) && increasing (b :: l)

/-- the position of an index in `h5py` (query.py:130-132) -/
def h5pos (n : Nat) (i : Int) : Except Err Nat :=
  match pyPos n i with
  | none => .error .indexError
  | some k => .ok k

/-- `dataset[key]` of `h5py` along the first axis (query.py:130-132): slices go forward, a list is increasing.  A tuple with one
index for a dataset with one axis is this index; longer tuples have too many indices. -/
def h5get {α : Type} (data : List α) : Key → Except Err (Sel α)
  | .int i => match pyGet data i with
    | .error e => .error e
    | .ok a => .ok (.one a)
  | .slice s => if s.step.getD 1 < 1 then .error .valueError else
    match s.range data.length with
    | .error e => .error e
    | .ok is => match mapE (pyGet data) is with
      | .error e => .error e
      | .ok l => .ok (.many l)
  | .list is => match mapE (h5pos data.length) is with
    | .error e => .error e
    | .ok ks => if increasing ks then .ok (.many (ks.filterMap (data[·]?))) else .error .typeError
  | .tup [] => .ok (.many data)
  | .tup [i] => match pyGet data i with
    | .error e => .error e
    | .ok a => .ok (.one a)
  | .tup _ => .error .typeError

/-- `HDMFDataset.__getitem__` (query.py:130-132) -/
def getitem {α : Type} (data : List α) (k : Key) : Except Err (Sel α) := h5get data (evaluateKey k)

/-- `_get_ref`: `get_object(file[ref])` (backends/hdf5/h5_utils.py:149-150, 166-184; backends/hdf5/h5tools.py:579-604); a null
reference is a ValueError of `h5py`. -/
def getRef (io : IO) (k : Kind) (r : Ref) : Except Err Obj :=
  match r.target with
  | none => .error .valueError
  | some o => match io.built o with
    | none => .error .valueError
    | some b => .ok (match k with | .builder => .builder b | .container => .cont (io.cont b))

/-- `AbstractH5ReferenceDataset.__getitem__`, one axis (backends/hdf5/h5_utils.py:259-266) -/
def refItem (io : IO) (k : Kind) (data : List Ref) (key : Key) : Except Err (Sel Obj) :=
  match getitem data key with
  | .error e => .error e
  | .ok (.one r) => match getRef io k r with
    | .error e => .error e
    | .ok o => .ok (.one o)
  | .ok (.many rs) => match mapE (getRef io k) rs with
    | .error e => .error e
    | .ok os => .ok (.many os)

/-- The same with two axes: of several rows, each is given to `file[…]`, which takes no arrays.
(backends/hdf5/h5_utils.py:259-266) -/
def refItem2 (io : IO) (k : Kind) (data : List (List Ref)) (key : Key) : Except Err (List Obj) :=
  match getitem data key with
  | .error e => .error e
  | .ok (.one row) => mapE (getRef io k) row
  | .ok (.many []) => .ok []
  | .ok (.many _) => .error .typeError

/-- `DatasetOfReferences.__iter__`, also for regions (backends/hdf5/h5_utils.py:152-154) -/
def refIter (io : IO) (k : Kind) (data : List Ref) : Except Err (List Obj) := mapE (getRef io k) data

/-- `obj[ref]`: a builder is a dict without such a key; the `Data` object of a dataset reads the elements
(backends/hdf5/h5_utils.py:238-240, 275-278; container.py:970-985). -/
def readRegion (io : IO) : Obj → Ref → Except Err (List Int)
  | .builder _, _ => .error .keyError
  | .cont _, .reg o sel => .ok (sel.filterMap ((io.elems o)[·]?))
  | .cont _, _ => .error .typeError

/-- `AbstractH5RegionDataset.__getitem__` (backends/hdf5/h5_utils.py:275-278); a list can not be indexed with references. -/
def regItem (io : IO) (k : Kind) (data : List Ref) (key : Key) : Except Err (List Int) :=
  match refItem io k data key with
  | .error e => .error e
  | .ok o => match h5get data key with
    | .error e => .error e
    | .ok r => match o, r with
      | .one o, .one r => readRegion io o r
      | _, _ => .error .typeError

/-- a field of a row of a compound dataset (backends/hdf5/h5_utils.py:186-250); bytes are those of a string -/
inductive Cell where
  | num (v : Int)
  | bytes (s : String)
  | str (s : String)
  | ref (r : Ref)
  deriving DecidableEq

/-- the types given to the constructor (backends/hdf5/h5_utils.py:196-206) -/
inductive Ty where
  | region
  | ref
  | str
  | other
  deriving DecidableEq

/-- a field of a row that is returned (backends/hdf5/h5_utils.py:228-240) -/
inductive Out where
  | num (v : Int)
  | bytes (s : String)
  | str (s : String)
  | ref (r : Ref)
  | obj (o : Obj)
  | vals (l : List Int)
  deriving DecidableEq

/-- a field for which there is no getter (backends/hdf5/h5_utils.py:223-226) -/
def Cell.out : Cell → Out
  | .num v => .num v
  | .bytes s => .bytes s
  | .str s => .str s
  | .ref r => .ref r

/-- the getter of a column (backends/hdf5/h5_utils.py:196-206, 228-240) -/
def getCell (io : IO) (k : Kind) : Ty → Cell → Except Err Out
  | .region, .ref r => match getRef io k r with
    | .error e => .error e
    | .ok o => match readRegion io o r with
      | .error e => .error e
      | .ok l => .ok (.vals l)
  | .ref, .ref r => match getRef io k r with
    | .error e => .error e
    | .ok o => .ok (.obj o)
  | .str, .bytes s => .ok (.str s)
  | .str, c => .ok c.out
  | .other, c => .ok c.out
  | _, _ => .error .typeError

/-- `__swap_refs` (backends/hdf5/h5_utils.py:223-226); the row has a field for each type -/
def swapRefs (io : IO) (k : Kind) : List Ty → List Cell → Except Err (List Out)
  | t :: ts, c :: cs => match getCell io k t c with
    | .error e => .error e
    | .ok o => match swapRefs io k ts cs with
      | .error e => .error e
      | .ok os => .ok (o :: os)
  | _, cs => .ok (cs.map Cell.out)

/-- `AbstractH5TableDataset.__getitem__` (backends/hdf5/h5_utils.py:214-221) -/
def tblItem (io : IO) (k : Kind) (tys : List Ty) (data : List (List Cell)) (key : Key) : Except Err (Sel (List Out)) :=
  match getitem data key with
  | .error e => .error e
  | .ok (.one row) => match swapRefs io k tys row with
    | .error e => .error e
    | .ok r => .ok (.one r)
  | .ok (.many rows) => match mapE (swapRefs io k tys) rows with
    | .error e => .error e
    | .ok rs => .ok (.many rs)

/-- `resolve` (backends/hdf5/h5_utils.py:242-243) -/
def tblResolve (io : IO) (k : Kind) (tys : List Ty) (data : List (List Cell)) : Except Err (Sel (List Out)) :=
  tblItem io k tys data (.slice ⟨some 0, some data.length, none⟩)

/-- a row by its number, as `__iter__` asks for it (backends/hdf5/h5_utils.py:245-247) -/
def tblRow (io : IO) (k : Kind) (tys : List Ty) (data : List (List Cell)) (i : Nat) : Except Err (List Out) :=
  match tblItem io k tys data (.int i) with
  | .error e => .error e
  | .ok (.one r) => .ok r
  | .ok (.many _) => .error .typeError

/-- `AbstractH5TableDataset.__iter__` (backends/hdf5/h5_utils.py:245-247) -/
def tblIter (io : IO) (k : Kind) (tys : List Ty) (data : List (List Cell)) : Except Err (List (List Out)) :=
  mapE (tblRow io k tys data) (List.range data.length)

/-- `get_inverse_class` (backends/hdf5/h5_utils.py:286-355) -/
def Kind.inverse : Kind → Kind
  | .builder => .container
  | .container => .builder

/-- A dataset object: what it resolves to and its attributes. (backends/hdf5/h5_utils.py:134-147) -/
structure Dset where
  kind : Kind
  attrs : Dict String Nat

/-- `invert` (backends/hdf5/h5_utils.py:134-147) with the number of the next new object: the object returned, the attributes
afterwards and the next number.  The name in `hasattr` is a string and not mangled. -/
def invert (d : Dset) (next : Nat) : Nat × Dset × Nat :=
  let d' := if d.attrs.has "__inverted" then (d, next)
    else ({ d with attrs := d.attrs.set "_DatasetOfReferences__inverted" next }, next + 1)
  ((d'.1.attrs.get? "_DatasetOfReferences__inverted").getD 0, d'.1, d'.2)

/-- `H5Dataset.append` (backends/hdf5/h5_utils.py:108-122; backends/hdf5/h5tools.py:1508-1543; data_utils.py:35-40): the
builder of the container, the reference to what is in the file at its path, and a row more, if the dataset can be resized.
Without the latter `h5py` raises a TypeError. -/
def append (io : IO) (resizable : Bool) (data : List Ref) (c : Nat) : Except Err (List Ref) :=
  match io.builder c with
  | none => .error .valueError
  | some b => match io.file (io.path b) with
    | none => .error .keyError
    | some o => if resizable then .ok (data ++ [.obj o]) else .error .typeError

/-! ### Queries -/

/-- the operators of a Query (query.py:10-17, 88-95) -/
inductive Op where
  | lt
  | le
  | gt
  | ge
  | eq
  | ne
  deriving DecidableEq

variable {α : Type} [LT α] [DecidableLT α] [DecidableEq α]

/-- what a query evaluates to, if not to a single thing (query.py:56-65) -/
inductive Found where
  | res (r : Arrays.Res)
  | list (rs : List Arrays.Res)
  deriving DecidableEq

/-- `__evalhelper` for a dataset that is a sorted array and a value (query.py:56-65) -/
def evalQuery (data : List α) (op : Op) (v : α) : Except Err Found :=
  match op with
  | .lt => (Arrays.lt (Arrays.sortedArray data) v).map .res
  | .le => (Arrays.le (Arrays.sortedArray data) v).map .res
  | .gt => (Arrays.gt (Arrays.sortedArray data) v).map .res
  | .ge => (Arrays.ge (Arrays.sortedArray data) v).map .res
  | .eq => (Arrays.eq (Arrays.sortedArray data) v).map .res
  | .ne => (Arrays.ne (Arrays.sortedArray data) v).map .list

/-- `Array.__getitem__` with what a query gives (array.py:33-47).  `None` in an index of a numpy array, in which the elements
are, is a new axis: all elements; in a list of indices it can not be turned into a number. -/
def arrItem (data : List α) : Found → Except Err (Sel α)
  | .res (.pos i) => match pyGet data i with
    | .error e => .error e
    | .ok a => .ok (.one a)
  | .res .none => .ok (.many data)
  | .res r => match mapE (pyGet data) (r.positions data.length) with
    | .error e => .error e
    | .ok l => .ok (.many l)
  | .list rs => match mapE (pyGet data) (Arrays.positionsAll data.length rs) with
    | .error e => .error e
    | .ok l => .ok (.many l)

/-- `ds[ds op v]` (query.py:56-65, 120-132) -/
def queried (data : List α) (op : Op) (v : α) : Except Err (Sel α) :=
  match evalQuery data op v with
  | .error e => .error e
  | .ok f => arrItem data f

/-- the two results that a Query keeps (query.py:38-39, 44-54) -/
structure Cache where
  expanded : Option Found := none
  collapsed : Option Found := none

/-- `evaluate` with `expand` (query.py:44-52): what was found first is kept.  The collapsed form has pairs in place of slices,
which is not distinguished here. -/
def evaluate (data : List α) (op : Op) (v : α) (c : Cache) (expand : Bool) : Except Err (Found × Cache) :=
  match if expand then c.expanded else c.collapsed with
  | some f => .ok (f, c)
  | none => match evalQuery data op v with
    | .error e => .error e
    | .ok f => .ok (f, if expand then { c with expanded := some f } else { c with collapsed := some f })

end Verif.RefData

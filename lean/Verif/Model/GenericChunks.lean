import Verif.Base.Py

/-!
# Model of `GenericDataChunkIterator` (data_utils.py:149-468)

Shapes are lists of naturals (the constructor converts with `int`, negative extents are not modelled).  Divisions written
with `/` and `math.ceil`/`math.floor` are exact here (they go through floats in the code: exact below 2^53).
`_get_data` is an abstract method: it is taken to return the part of the source array designated by its argument, which
is its documented contract.  Progress bars are not modelled.
-/

namespace Verif.GenericChunks
open Verif

/-- Python's `range(lo, hi, step)` for `step > 0`. (data_utils.py:282-318) -/
def pyRange (lo hi step : Nat) : List Nat :=
  (List.range ((hi - lo + step - 1) / step)).map (fun k => lo + step * k)

/-- `itertools.product(*ls)`: last axis fastest. (data_utils.py:282-318) -/
def product {α : Type} : List (List α) → List (List α)
  | [] => [[]]
  | l :: ls => l.flatMap (fun x => (product ls).map (x :: ·))

/-- `math.ceil(a / b)` (data_utils.py:268-280) -/
def ceilDiv (a b : Nat) : Nat := (a + b - 1) / b

/-- A selection: one `slice(lo, hi)` per axis. (data_utils.py:282-318) -/
abbrev Sel := List (Nat × Nat)

/-- data_utils.py:255-275: the assertions on the shapes. `zip` stops at the shorter sequence.
`buffer_axis % chunk_axis` with `chunk_axis = 0` is a ZeroDivisionError, i.e. not accepted either. -/
def accepts (maxshape chunk buffer : List Nat) : Bool :=
  buffer.all (fun b => decide (0 < b)) &&
  (chunk.zip maxshape).all (fun x => decide (x.1 ≤ x.2)) &&
  (buffer.zip maxshape).all (fun x => decide (x.1 ≤ x.2)) &&
  (chunk.zip buffer).all (fun x => decide (x.1 ≤ x.2)) &&
  (chunk.zip (buffer.zip maxshape)).all (fun x => decide (x.2.1 = x.2.2) || (decide (x.1 ≠ 0) && decide (x.2.1 % x.1 = 0)))

/-- data_utils.py:277-282 `num_buffers` -/
def numBuffers (maxshape buffer : List Nat) : Nat :=
  ((buffer.zip maxshape).map (fun x => ceilDiv x.2 x.1)).foldr (· * ·) 1

/-- data_utils.py:293-295: the lower bounds of one axis -/
def lowers (m b : Nat) : List Nat := pyRange 0 m b

/-- data_utils.py:299-301: the upper bounds of one axis -/
def uppers (m b : Nat) : List Nat := pyRange b m b ++ [m]

/-- data_utils.py:283-304 `buffer_selection_generator`: all selections in the order generated. -/
def selections (maxshape buffer : List Nat) : List Sel :=
  ((product ((maxshape.zip buffer).map (fun x => lowers x.1 x.2))).zip
   (product ((maxshape.zip buffer).map (fun x => uppers x.1 x.2)))).map (fun lu => lu.1.zip lu.2)

/-! ### Reading and writing buffers -/

/-- An n-dimensional array as a function of the index. (data_utils.py:418-433) -/
abbrev Arr (α : Type) := List Nat → α

/-- `index - lower bound` per axis; axes beyond the selection are whole (data_utils.py:391-410) -/
def relIndex : Sel → List Nat → List Nat
  | s :: ss, i :: is => (i - s.1) :: relIndex ss is
  | _, is => is

/-- `lower bound + index` per axis (data_utils.py:391-410) -/
def absIndex : Sel → List Nat → List Nat
  | s :: ss, i :: is => (s.1 + i) :: absIndex ss is
  | _, is => is

/-- numpy/h5py: does the tuple of slices select this index? Axes not mentioned are selected completely.
(data_utils.py:391-410) -/
def inSel : Sel → List Nat → Bool
  | s :: ss, i :: is => decide (s.1 ≤ i ∧ i < s.2) && inSel ss is
  | _, _ => true

/-- `DataChunk(data=self._get_data(sel), selection=sel)` (data_utils.py:409): the buffer, indexed from 0. -/
def getData {α : Type} (src : Arr α) (sel : Sel) : Arr α := fun j => src (absIndex sel j)

/-- `dset[chunk.selection] = chunk.data` (backends/hdf5/h5_utils.py:55); `none` = not yet written -/
def writeSel {α : Type} (ds : Arr (Option α)) (sel : Sel) (data : Arr α) : Arr (Option α) :=
  fun i => if inSel sel i then some (data (relIndex sel i)) else ds i

/-- write the buffers of the given selections one after the other into an empty dataset
(data_utils.py:391-410; backends/hdf5/h5_utils.py:59-84) -/
def writeAll {α : Type} (src : Arr α) (sels : List Sel) : Arr (Option α) :=
  sels.foldl (fun ds sel => writeSel ds sel (getData src sel)) (fun _ => none)

/-! ### Default shapes -/

/-- data_utils.py:381-386 `_get_default_buffer_shape`: `k` is the (floating point) scale factor. -/
def defaultBufferShape (k : Nat) (chunk maxshape : List Nat) : List Nat :=
  (chunk.zip maxshape).map (fun x => min (max (k * x.1) x.1) x.2)

/-- `min(x for x in v if x != 1)`; only called when some element differs from 1 (data_utils.py:332-386) -/
def nonUnitMin (v : List Nat) : Nat := ((v.filter (fun x => decide (x ≠ 1))).min?).getD 1

/-- one iteration of the loop data_utils.py:348-351 -/
def shrink (v : List Nat) : List Nat := v.map (fun x => if x ≠ 1 then x / nonUnitMin v else x)

/-- `np.prod` of a list (data_utils.py:332-386) -/
def prod (v : List Nat) : Nat := v.foldr (· * ·) 1

/-- the loop data_utils.py:348-351 with an explicit bound on the number of iterations (`C65_loop_terminates` shows that
`prod v` iterations are enough) -/
def shrinkLoop (itemsize chunkBytes : Nat) : Nat → List Nat → List Nat
  | 0, v => v
  | fuel + 1, v =>
    if prod v * itemsize > chunkBytes ∧ prod v ≠ 1 then shrinkLoop itemsize chunkBytes fuel (shrink v) else v

/-- data_utils.py:346: `v` before the loop; `min_maxshape = min(self.maxshape)` -/
def ratios (maxshape : List Nat) : List Nat := maxshape.map (fun m => m / (maxshape.min?.getD 1))

/-- data_utils.py:332-353 `_get_default_chunk_shape`; `k` is the (floating point) scale factor of line 352. -/
def defaultChunkShape (itemsize chunkBytes k : Nat) (maxshape : List Nat) : List Nat :=
  ((shrinkLoop itemsize chunkBytes (prod (ratios maxshape)) (ratios maxshape)).zip maxshape).map
    (fun x => min (k * x.1) x.2)

end Verif.GenericChunks

import Verif.Base.Py

/-!
# Model of `DataChunkIterator`, `DataChunk.get_min_bounds` (data_utils.py:471-825) and of the chunk write queue
`HDF5IODataChunkIteratorQueue` (backends/hdf5/h5_utils.py:27-84)

Only the iteration axis is modelled: an item of the stream (`α`, one array piece per call of `next` on the wrapped
iterable) occupies one position of that axis; the other axes are always selected in full (`slice(None)`), data_utils.py:620.
`None` items (gaps) are `none`.
-/

namespace Verif.ChunkStream
open Verif

variable {α : Type}

/-- A `DataChunk`: the slice start along the iteration axis and the pieces (the slice is `start ... start + data.length`,
data_utils.py:621-622). -/
structure Chunk (α : Type) where
  start : Nat
  data : List α
  deriving DecidableEq, Repr

/-- The `while len(iter_pieces) < self.buffer_size` loop, data_utils.py:596-611: remaining stream, pieces so far,
`curr_chunk_offset`; returns pieces, offset, `read_next_empty` and the remaining stream. -/
def readLoop (buf : Nat) : List (Option α) → List α → Nat → List α × Nat × Bool × List (Option α)
  | [], pieces, off => (pieces, off, false, [])                 -- StopIteration
  | d :: ds, pieces, off =>
    if pieces.length < buf then
      match d with
      | none => if pieces.length = 0 then readLoop buf ds pieces (off + 1) else (pieces, off, true, ds)
      | some x => readLoop buf ds (pieces ++ [x]) off
    else (pieces, off, false, d :: ds)

/-- The state of a `DataChunkIterator` over a general iterable: what the wrapped iterator still yields,
`__next_chunk` (with `data is None` as `none`), `__next_chunk_start`, and whether `__maxshape` is known.
(data_utils.py:503-563) -/
structure State (α : Type) where
  rest : List (Option α)
  next : Option (Chunk α)
  start : Nat
  shapeKnown : Bool
  deriving Repr

/-- data_utils.py:573-646 `_read_next_chunk`, branch `self.__data_iter is not None`.  Evaluating `self.maxshape` while the
selection is computed (line 620) fixes `__maxshape`. -/
def readNext (buf : Nat) (s : State α) : State α :=
  let (pieces, off, readEmpty, rest) := readLoop buf s.rest [] 0
  if pieces.length = 0 then { s with rest := rest, next := none }
  else
    let stop := s.start + off + pieces.length
    { rest := rest, next := some ⟨s.start + off, pieces⟩,
      start := if readEmpty then stop + 1 else stop, shapeKnown := true }

/-- The constructor, data_utils.py:500-562: the first chunk is read if the dtype is not given. -/
def init (buf : Nat) (stream : List (Option α)) (dtypeGiven shapeKnown : Bool) : State α :=
  let s : State α := ⟨stream, none, 0, shapeKnown⟩
  if dtypeGiven then s else readNext buf s

/-- data_utils.py:648-678 `__next__`; `none` is StopIteration. -/
def pull (buf : Nat) (s : State α) : State α × Option (Chunk α) :=
  let s1 := if s.next.isNone then readNext buf s else s
  match s1.next with
  | none => (s1, none)
  | some c => ({ s1 with next := none }, some c)

/-- data_utils.py:704-743 `maxshape` property: reads a chunk if the shape is not known and none is pending. -/
def peek (buf : Nat) (s : State α) : State α :=
  if s.shapeKnown then s else if s.next.isNone then readNext buf s else { s with shapeKnown := true }

/-- What a user can do with the iterator: take the next chunk or ask for the shape.
(histories of the calls modelled from data_utils.py:648-750) -/
inductive Op | pull | peek
  deriving DecidableEq, Repr

/-- One user operation: the new state and, for `pull`, what it returned (`some none` = StopIteration).
(histories of the calls modelled from data_utils.py:648-750) -/
def step (buf : Nat) (s : State α) : Op → State α × Option (Option (Chunk α))
  | .pull => let r := pull buf s; (r.1, some r.2)
  | .peek => (peek buf s, none)

/-- A history: final state and the chunks yielded, in order. (histories of the calls modelled from data_utils.py:648-750) -/
def run (buf : Nat) (s : State α) : List Op → State α × List (Chunk α)
  | [] => (s, [])
  | op :: ops =>
    let r := step buf s op
    let q := run buf r.1 ops
    (q.1, match r.2 with
      | some (some c) => c :: q.2
      | _ => q.2)

/-! ### The branch for an HDF5 dataset as source (data_utils.py:579-592) -/

/-- state: `chunk_index` and the pending chunk (data_utils.py:529-563) -/
structure H5State (α : Type) where
  idx : Nat
  next : Option (Chunk α)
  deriving Repr

/-- data_utils.py:579-592, 645: the chunk with number `chunk_index` of the dataset `data` (restricted to the iteration
axis). -/
def h5Read (data : List α) (buf : Nat) (s : H5State α) : H5State α :=
  let start := s.idx * buf
  let stop := min (start + buf) data.length
  if start ≥ data.length then ⟨s.idx + 1, none⟩
  else ⟨s.idx + 1, some ⟨start, (data.drop start).take (stop - start)⟩⟩

/-- data_utils.py:648-678 for the HDF5 branch -/
def h5Pull (data : List α) (buf : Nat) (s : H5State α) : H5State α × Option (Chunk α) :=
  let s1 := if s.next.isNone then h5Read data buf s else s
  match s1.next with
  | none => (s1, none)
  | some c => ({ s1 with next := none }, some c)

/-- `n` calls of `next`: the chunks yielded (histories of the calls modelled from data_utils.py:648-680) -/
def h5Run (data : List α) (buf : Nat) (s : H5State α) : Nat → H5State α × List (Chunk α)
  | 0 => (s, [])
  | n + 1 =>
    let r := h5Pull data buf s
    let q := h5Run data buf r.1 n
    (q.1, match r.2 with
      | some c => c :: q.2
      | none => q.2)

/-! ### `DataChunk.get_min_bounds` (data_utils.py:803-825) -/

/-- One entry of a selection tuple: a slice with optional stop (start defaults to 0) or an integer. (data_utils.py:803-825) -/
inductive SelItem
  | slice (start : Nat) (stop : Option Nat)
  | int (i : Nat)
  deriving DecidableEq, Repr

/-- data_utils.py:811-813 `x.stop or 0 if isinstance(x, slice) else x+1`.  (The single int and single slice cases,
814-817, are the same for a one-element selection.) -/
def minBound : SelItem → Nat
  | .slice _ stop => stop.getD 0
  | .int i => i + 1

/-- data_utils.py:803-825 -/
def minBounds (sel : List SelItem) : List Nat := sel.map minBound

/-- `dset.id.extend(bounds)` (h5py `H5Dextend`, called in backends/hdf5/h5_utils.py:59): every axis grows to at least the given bound
and never shrinks. -/
def extend : List Nat → List Nat → List Nat
  | d :: ds, b :: bs => max d b :: extend ds bs
  | ds, _ => ds

/-! ### The write queue (backends/hdf5/h5_utils.py:27-84) -/

section Queue
variable {χ δ : Type}

/-- The queue: dataset (an identifier) and what its iterator still yields, plus the datasets' contents.
(backends/hdf5/h5_utils.py:27-84) -/
structure QState (χ δ : Type) where
  queue : List (Nat × List χ)
  store : Nat → δ

/-- backends/hdf5/h5_utils.py:70-73, one iteration of `exhaust_queue`; `w` is the effect of `_write_chunk` (39-63) on one dataset
(extend and assign). `none` when the queue is empty. -/
def qStep (w : δ → χ → δ) (s : QState χ δ) : Option (QState χ δ) :=
  match s.queue with
  | [] => none
  | (_, []) :: q => some ⟨q, s.store⟩                                         -- StopIteration: dropped
  | (d, c :: cs) :: q => some ⟨q ++ [(d, cs)], fun i => if i = d then w (s.store d) c else s.store i⟩

/-- backends/hdf5/h5_utils.py:65-73: the loop, with a bound on the number of iterations (`C10_terminates` shows a sufficient one). -/
def exhaust (w : δ → χ → δ) : Nat → QState χ δ → QState χ δ
  | 0, s => s
  | n + 1, s => match qStep w s with
    | none => s
    | some s' => exhaust w n s'

end Queue

end Verif.ChunkStream

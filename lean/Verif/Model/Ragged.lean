import Verif.Base.Slice

/-!
# Model of ragged columns: `VectorIndex` over `VectorData`, to any depth of nesting

common/table.py:84-204 (`VectorIndex`), :46-77 (`VectorData.add_row/get/extend`), container.py:948-985
(`Data.get/append/extend`), data_utils.py:20-69 (`append_data`, `extend_data`).

Depth 0 is a plain `VectorData`; depth `n+1` is a `VectorIndex` whose target is a column of depth `n` (a `VectorData` for
`n = 0`, another `VectorIndex` otherwise).  The value of one row of depth `n+1` is a list of values of depth `n`.
-/

namespace Verif.Ragged
open Verif

/-- Where the index values are kept: a list or numpy array, whose width the code can change, or an HDF5 dataset of a
fixed width (bits). (common/table.py:125-155) -/
inductive Storage
  | adjustable
  | fixed (w : Nat)
  deriving DecidableEq, Repr

/-- The `VectorIndex` itself: `__uint` / `__maxval` (as a number of bits) and its data. (common/table.py:84-112) -/
structure Index where
  bits : Nat
  data : List Nat
  storage : Storage := .adjustable
  deriving DecidableEq, Repr

/-- `__maxval` for a width: 255 initially (common/table.py:107) and `2 ** nbits - 1` with `nbits` a float (common/table.py:135,140), so
that for 64 bits it is rounded to 2^64. -/
def maxval (bits : Nat) : Nat := if bits = 64 then 2 ^ 64 else 2 ^ bits - 1

/-- The `while idx > self.__maxval` loop, common/table.py:133-140; the widths are 8, 16, 32, 64 so three rounds suffice.
`none` is the ValueError for more than 64 bits. -/
def widen (idx : Nat) : Nat → Nat → Option Nat
  | 0, _ => none
  | fuel + 1, bits =>
    if idx > maxval bits then (if bits * 2 = 128 then none else widen idx fuel (bits * 2)) else some bits

/-- common/table.py:144-156 `__adjust_precision`: every value is cast to the unsigned type of that width (a cast reduces modulo
2^bits); anything but a list or numpy array is a ValueError. -/
def adjust (ix : Index) (bits : Nat) : Index × Except Err Unit :=
  match ix.storage with
  | .adjustable => ({ ix with data := ix.data.map (· % 2 ^ bits) }, .ok ())
  | .fixed _ => (ix, .error .valueError)

/-- common/table.py:125-142 `__check_precision`.  The width is changed before `__adjust_precision` may raise. -/
def checkPrecision (ix : Index) (idx : Nat) : Index × Except Err Nat :=
  if idx > maxval ix.bits then
    match widen idx 4 ix.bits with
    | none => (ix, .error .valueError)
    | some b =>
      let r := adjust { ix with bits := b } b
      (r.1, match r.2 with
        | .ok _ => .ok (idx % 2 ^ b)
        | .error e => .error e)
  else (ix, .ok (idx % 2 ^ ix.bits))

/-- `self.append(v)`, container.py:964-966 and data_utils.py:20-44.  Writing into an HDF5 dataset of `w` bits converts the
value; HDF5 clips to the largest representable value. -/
def appendIx (ix : Index) (v : Nat) : Index :=
  match ix.storage with
  | .adjustable => { ix with data := ix.data ++ [v] }
  | .fixed w => { ix with data := ix.data ++ [min v (2 ^ w - 1)] }

/-- common/table.py:99-111 the constructor over a target with `targetLen` elements, for list or array data -/
def mkIndex (data : List Nat) (targetLen : Nat) : Index × Except Err Unit :=
  let ix : Index := { bits := 8, data := data }
  let r := if data.length > 0 then checkPrecision ix targetLen else (ix, .ok 0)
  match r.2 with
  | .error e => (r.1, .error e)
  | .ok _ => adjust r.1 r.1.bits

variable {α : Type}

/-- The value of one row of a column of the given depth. -/
@[reducible] def Val (α : Type) : Nat → Type
  | 0 => α
  | n + 1 => List (Val α n)

/-- A column of the given depth. -/
@[reducible] def Col (α : Type) : Nat → Type
  | 0 => List α
  | n + 1 => Index × Col α n

/-- `len(column)`, container.py:942: the length of its own data -/
def len : (n : Nat) → Col α n → Nat
  | 0, l => List.length l
  | _ + 1, (ix, _) => ix.data.length

/-- a sequence of additions, stopping at the first that raises (histories of the calls modelled from common/table.py:113-161) -/
def addMany (add : γ → ν → γ × Except Err Unit) : γ → List ν → γ × Except Err Unit
  | c, [] => (c, .ok ())
  | c, v :: vs =>
    let r := add c v
    match r.2 with
    | .error e => (r.1, .error e)
    | .ok _ => addMany add r.1 vs

/-- Adding one row value.  Depth 0: `VectorData.add_row` (common/table.py:49-53) on a list.  Depth `n+1`: `VectorIndex.add_vector`
(common/table.py:113-123): first the target is extended with the elements (for a `VectorIndex` target by `add_vector` of each, for
a `VectorData` target by `extend`, which appends each), then the new length of the target is checked and appended. -/
def addVal : (n : Nat) → Col α n → Val α n → Col α n × Except Err Unit
  | 0, l, v => (l ++ [v], .ok ())
  | n + 1, (ix, t), vs =>
    let r := addMany (addVal n) t vs
    match r.2 with
    | .error e => ((ix, r.1), .error e)
    | .ok _ =>
      let p := checkPrecision ix (len n r.1)
      match p.2 with
      | .error e => ((p.1, r.1), .error e)
      | .ok v => ((appendIx p.1 v, r.1), .ok ())

/-- a loop that collects results and stops at the first error (the `for i in indices` loop of common/table.py:200-203) -/
def collect (f : ι → Except Err β) : List ι → Except Err (List β)
  | [] => .ok []
  | i :: is => match f i with
    | .error e => .error e
    | .ok x => match collect f is with
      | .error e => .error e
      | .ok xs => .ok (x :: xs)

/-- common/table.py:163-173 `__getitem_helper(arg)`: `start = 0 if arg == 0 else self.data[arg-1]`, `end = self.data[arg]`, then
the target's rows `start:end`. -/
def helper (getSlice : Nat → Nat → Except Err β) (ix : Index) (arg : Int) : Except Err β :=
  match (if arg = 0 then .ok 0 else pyGet ix.data (arg - 1)) with
  | .error e => .error e
  | .ok start => match pyGet ix.data arg with
    | .error e => .error e
    | .ok stop => getSlice start stop

/-- `column.get(slice(a, b))`: list slicing for depth 0 (container.py:955-962), `VectorIndex.get` with a slice
(common/table.py:193-203) otherwise. -/
def getSlice : (n : Nat) → Col α n → Nat → Nat → Except Err (List (Val α n))
  | 0, l, a, b => .ok ((l.drop a).take (b - a))
  | n + 1, (ix, t), a, b =>
    collect (fun i : Nat => helper (getSlice n t) ix i) ((List.range (min b ix.data.length)).drop a)

/-- `column.get(i)` for an integer: common/table.py:191-192 -/
def get : (n : Nat) → Col α n → Int → Except Err (Val α n)
  | 0, l, i => pyGet l i
  | n + 1, (ix, t), i => helper (getSlice n t) ix i

/-- What `VectorIndex.get` accepts beside an integer (common/table.py:193-199). -/
inductive Sel
  | slice (s : PySlice)
  | ints (l : List Int)
  | mask (l : List Bool)
  deriving DecidableEq, Repr

/-- `np.where(mask)[0]` (common/table.py:184-204) -/
def whereTrue : Nat → List Bool → List Int
  | _, [] => []
  | k, true :: bs => (k : Int) :: whereTrue (k + 1) bs
  | k, false :: bs => whereTrue (k + 1) bs

/-- common/table.py:193-199: the row numbers visited.  `arg[0]` of an empty list or mask raises IndexError. -/
def selIndices (n : Nat) : Sel → Except Err (List Int)
  | .slice s => s.range n
  | .ints [] => .error .indexError
  | .ints l => .ok l
  | .mask [] => .error .indexError
  | .mask l => .ok (whereTrue 0 l)

/-- common/table.py:184-204 `VectorIndex.get` for a selection -/
def getSel (n : Nat) (c : Col α (n + 1)) (s : Sel) : Except Err (List (Val α (n + 1))) :=
  match selIndices (len (n + 1) c) s with
  | .error e => .error e
  | .ok is => collect (get (n + 1) c) is

/-- data_utils.py:61-62 `extend_data` on a 1-D numpy array: `np.vstack((data, arg))` makes both rows of a 2-D array, and
raises ValueError unless they have the same length. -/
def extendArray1 (data arg : List α) : Except Err (List (List α)) :=
  if data.length = arg.length then .ok [data, arg] else .error .valueError

/-- data_utils.py:63-68 `extend_data` on an HDF5 dataset: resize, then `data[-len(arg):] = arg`; for an empty `arg` the
slice `-0:` is the whole dataset, and assigning an empty list to a non-empty dataset raises. -/
def extendH5 (data arg : List α) : List α × Except Err Unit :=
  if arg.length = 0 ∧ data.length ≠ 0 then (data, .error .typeError) else (data ++ arg, .ok ())

/-- an empty column of any depth: a `VectorData` without data and a `VectorIndex` over it for each level
(common/table.py:100-112) -/
def emptyCol (α : Type) : (n : Nat) → Col α n
  | 0 => []
  | n + 1 => ((mkIndex [] (len n (emptyCol α n))).1, emptyCol α n)

/-- number of values at all levels of a row value (counts what common/table.py:113-161 adds) -/
def size : (n : Nat) → Val α n → Nat
  | 0, _ => 1
  | n + 1, vs => 1 + ((vs : List (Val α n)).map (size n)).sum

/-- number of values at all levels of a column (counts what common/table.py:113-161 adds) -/
def total : (n : Nat) → Col α n → Nat
  | 0, l => List.length l
  | n + 1, (ix, t) => ix.data.length + total n t

end Verif.Ragged

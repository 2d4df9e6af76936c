import Verif.Base.Slice
import Mathlib.Data.List.Sort
import Mathlib.Data.Rat.Floor

/-!
# Model of the sorted arrays (array.py)

Elements are values of a linear order (no NaN); `LinSpace` computes with exact rationals (floating-point rounding is not
modelled).
-/

namespace Verif.Arrays
open Verif

/-- array.py:51-159: what an `AbstractSortedArray` supplies: its length, `find_point` and `__getidx__` -/
structure Arr (α : Type u) where
  len : Nat
  find : α → Int
  idx : Int → Except Err α

/-- the result of a comparison: a position, a slice or `None` (array.py:73-152) -/
inductive Res
  | pos (i : Int)
  | slc (lo hi : Int)
  | none
  deriving DecidableEq, Repr

/-- `np.searchsorted(data, val)` (array.py:172-173), numpy's left binary search on `[lo, hi)`; `n` bounds the number of rounds -/
def bsearch [LT α] [DecidableLT α] (data : List α) (v : α) : Nat → Nat → Nat → Nat
  | 0, lo, _ => lo
  | n + 1, lo, hi =>
    if lo < hi then
      match data[lo + (hi - lo) / 2]? with
      | some x => if x < v then bsearch data v n (lo + (hi - lo) / 2 + 1) hi else bsearch data v n lo (lo + (hi - lo) / 2)
      | Option.none => lo
    else lo

/-- array.py:162-173 `SortedArray` -/
def sortedArray [LT α] [DecidableLT α] (data : List α) : Arr α where
  len := data.length
  find := fun v => bsearch data v data.length 0 data.length
  idx := fun i => pyGet data i

/-- Python `int(x)`: truncation towards zero (array.py:188-194) -/
def trunc (q : ℚ) : Int := if 0 ≤ q then ⌊q⌋ else ⌈q⌉

/-- array.py:176-197 `LinSpace` (`step` is not zero) -/
def linSpace (start stop step : ℚ) : Arr ℚ where
  len := (trunc ((stop - start) / step)).toNat
  find := fun v =>
    let nsteps := (v - start) / step
    if (trunc nsteps : ℚ) = nsteps then trunc nsteps else trunc nsteps + 1
  idx := fun i => .ok (start + step * i)

variable [DecidableEq α]

/-- array.py:69-70: the loop of `__upper`; `n` bounds the number of rounds -/
def upperLoop (a : Arr α) (v : α) : Nat → Int → Except Err Int
  | 0, _ => .error .runtimeError
  | n + 1, ins => match a.idx ins with
    | .error e => .error e
    | .ok x => if x = v then upperLoop a v n (ins + 1) else .ok ins

/-- array.py:67-71 `__upper` -/
def upper (a : Arr α) (v : α) : Except Err Int := upperLoop a v (a.len + 2) (a.find v)

/-- array.py:73-75 `__lt__` -/
def lt (a : Arr α) (v : α) : Except Err Res := .ok (.slc 0 (a.find v))

/-- array.py:77-79 `__le__` -/
def le (a : Arr α) (v : α) : Except Err Res := (upper a v).map fun u => .slc 0 u

/-- array.py:81-83 `__gt__` -/
def gt (a : Arr α) (v : α) : Except Err Res := (upper a v).map fun u => .slc u a.len

/-- array.py:85-87 `__ge__` -/
def ge (a : Arr α) (v : α) : Except Err Res := .ok (.slc (a.find v) a.len)

/-- array.py:144-152 `__eq__` with a single value -/
def eq (a : Arr α) (v : α) : Except Err Res :=
  (upper a v).map fun u =>
    if u - a.find v = 1 then .pos (a.find v) else if u - a.find v = 0 then .none else .slc (a.find v) u

/-- array.py:134-142 `__eq__` with a tuple: elements from `lo` up to, not including, `hi` -/
def eqRange (a : Arr α) (lo hi : α) : Except Err Res :=
  .ok (if a.find lo = a.find hi then .pos (a.find lo) else .slc (a.find lo) (a.find hi))

/-- array.py:98-101: the comparisons with the values of the list -/
def eqEach (a : Arr α) : List α → Except Err (List Res)
  | [] => .ok []
  | v :: vs => match eq a v with
    | .error e => .error e
    | .ok r => match eqEach a vs with
      | .error e => .error e
      | .ok rs => .ok (r :: rs)

/-- the element of `ret` the merge loop has arrived at: a position or a pair it made (array.py:96-152) -/
inductive Item
  | one (i : Int)
  | pair (p q : Int)
  deriving DecidableEq

/-- array.py:128-131: what the last element adds -/
def Item.res : Item → Res
  | .one i => .pos i
  | .pair p q => .slc p q

/-- array.py:104-131: the merge loop (no pairs among `b`; 113-118: `a` is a pair; 124-127: it is not; 116 is a comparison
without effect) -/
def mergeLoop : Item → List Int → List Res
  | it, [] => [it.res]
  | .pair p q, b :: rest =>
    if b > q then .slc p q :: mergeLoop (.one b) rest
    else if b = q then mergeLoop (.one b) rest
    else mergeLoop (.pair p q) rest
  | .one i, b :: rest =>
    if b - i = 1 then mergeLoop (.pair i b) rest
    else .pos i :: mergeLoop (.one b) rest

/-- the positions, if all results are positions (array.py:96-152) -/
def allPos : List Res → Option (List Int)
  | [] => some []
  | .pos i :: rs => (allPos rs).map (i :: ·)
  | _ :: _ => Option.none

/-- array.py:96-133 `__eq__` with a list.  Several results that are not all positions cannot be ordered or subtracted (102,
124): TypeError; no result: `ret[-1]` (128) is an IndexError. -/
def eqList (a : Arr α) (vs : List α) : Except Err (List Res) :=
  match eqEach a vs with
  | .error e => .error e
  | .ok [] => .error .indexError
  | .ok [r] => .ok [r]
  | .ok rs => match allPos rs with
    | Option.none => .error .typeError
    | some is => match is.insertionSort (· ≤ ·) with
      | [] => .error .indexError
      | i :: rest => .ok (mergeLoop (.one i) rest)

/-- array.py:154-159 `__ne__` with a single value -/
def ne (a : Arr α) (v : α) : Except Err (List Res) :=
  match eq a v with
  | .error e => .error e
  | .ok (.pos i) => .ok [.slc 0 i, .slc (i + 1) a.len]
  | .ok _ => .error .typeError

/-- the positions a result selects as an index (array.py:32-47 `__getitem__`: `range(*slice.indices(len))` for a slice) -/
def Res.positions (n : Nat) : Res → List Int
  | .pos i => [i]
  | .slc lo hi => match PySlice.range ⟨some lo, some hi, Option.none⟩ n with
    | .ok l => l
    | .error _ => []
  | .none => []

/-- array.py:33-40: a list of positions and slices -/
def positionsAll (n : Nat) (rs : List Res) : List Int := rs.flatMap (Res.positions n)

end Verif.Arrays

import Verif.Base.Slice

/-!
# Model of `assertEqualShape` (data_utils.py:828-927)

A shape is `None` (not determined) or the list of its dimensions, each a length or `None` (unlimited).  Messages are not
modelled.  Axes are already lists (an int is a list of one, 868-869).
-/

namespace Verif.Shape
open Verif

/-- the length of a dimension, or unlimited (data_utils.py:828-927) -/
abbrev Dim := Option Nat

/-- data_utils.py:940-944: the kinds of error (`NUM_DIMS_ERROR` is never given) -/
inductive ShapeError | numAxes | outOfBounds | axisLen
  deriving DecidableEq, Repr

/-- data_utils.py:930-994 `ShapeValidatorResult` (without message and shapes) -/
structure Result where
  result : Bool
  error : Option ShapeError
  unmatched : List (Int × Int)
  ignored : List (Int × Int)
  deriving DecidableEq, Repr

/-- `np.max` of a list: ValueError if it is empty (data_utils.py:880-890) -/
def npMax : List Int → Except Err Int
  | [] => .error .valueError
  | i :: is => .ok (is.foldl max i)

/-- data_utils.py:896-903: the comparison of the axes; the pairs not matched and the pairs ignored -/
def compareAxes (s1 s2 : List Dim) (ignore : Bool) : List (Int × Int) → Except Err (List (Int × Int) × List (Int × Int))
  | [] => .ok ([], [])
  | (a, b) :: rest => match pyGet s1 a, pyGet s2 b with
    | .error e, _ => .error e
    | .ok _, .error e => .error e
    | .ok d1, .ok d2 => match compareAxes s1 s2 ignore rest with
      | .error e => .error e
      | .ok (un, ig) =>
        if d1 = d2 then .ok (un, ig)
        else if ignore = true ∧ (d1 = none ∨ d2 = none) then .ok (un, (a, b) :: ig)
        else .ok ((a, b) :: un, ig)

/-- data_utils.py:868-869: `list(range(num_dims))` if no axes are given -/
def axesOf (s : List Dim) : Option (List Int) → List Int
  | some axes => axes
  | none => (List.range s.length).map fun k : Nat => (k : Int)

/-- data_utils.py:884: some axis is beyond the dimensions of either array (`or`: the second is not looked at if the first is) -/
def beyond (s1 s2 : List Dim) (a1 a2 : List Int) : Except Err Bool :=
  match npMax a1 with
  | .error e => .error e
  | .ok m1 => if m1 ≥ s1.length then .ok true
    else match npMax a2 with
      | .error e => .error e
      | .ok m2 => .ok (decide (m2 ≥ s2.length))

/-- data_utils.py:828-927 `assertEqualShape`.  An undetermined shape is a TypeError when it is stored (859-860, 979: `tuple(None)`).
The first test (872) is never true: the axes are tuples by then. -/
def assertEqualShape (shape1 shape2 : Option (List Dim)) (axes1 axes2 : Option (List Int)) (ignore : Bool) : Except Err Result :=
  match shape1, shape2 with
  | none, _ => .error .typeError
  | some _, none => .error .typeError
  | some s1, some s2 =>
    if (axesOf s1 axes1).length ≠ (axesOf s2 axes2).length then
      .ok { result := false, error := some .numAxes, unmatched := [], ignored := [] }
    else match beyond s1 s2 (axesOf s1 axes1) (axesOf s2 axes2) with
      | .error e => .error e
      | .ok true => .ok { result := false, error := some .outOfBounds, unmatched := [], ignored := [] }
      | .ok false => match compareAxes s1 s2 ignore ((axesOf s1 axes1).zip (axesOf s2 axes2)) with
        | .error e => .error e
        | .ok ([], ig) => .ok { result := true, error := none, unmatched := [], ignored := ig }
        | .ok (un, ig) => .ok { result := false, error := some .axisLen, unmatched := un, ignored := ig }

end Verif.Shape

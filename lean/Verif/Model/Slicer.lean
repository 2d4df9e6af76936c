import Verif.Base.Slice

/-!
# Model of `ListSlicer` (region.py)

A dataset is the list of its elements; what subscribing an element with an index does is a parameter (`sub`).
-/

namespace Verif.Slicer
open Verif

/-- a region, or the argument of `__getitem__`: one index, a list or tuple of indices, or a slice (region.py:54-90) -/
inductive Idx
  | one (i : Int)
  | many (is : List Int)
  | slc (s : PySlice)
  deriving DecidableEq

/-- a value read: one element or a sequence of them (region.py:69-87) -/
inductive Out (α : Type u)
  | one (x : α)
  | many (l : List α)
  deriving DecidableEq

/-- `[seq[i] for i in is]` (region.py:69-87) -/
def getAll (l : List α) : List Int → Except Err (List α)
  | [] => .ok []
  | i :: is => match pyGet l i with
    | .error e => .error e
    | .ok x => match getAll l is with
      | .error e => .error e
      | .ok xs => .ok (x :: xs)

/-- `operator.itemgetter(...)(l)` for a list or tuple `l`: `itemgetter()` is a TypeError, one index gives one element, several
give a tuple, a slice gives a list (region.py:59-75) -/
def itemgetter (l : List α) : Idx → Except Err (Out α)
  | .one i => (pyGet l i).map .one
  | .many [] => .error .typeError
  | .many [i] => (pyGet l i).map .one
  | .many is => (getAll l is).map .many
  | .slc s => match s.range l.length with
    | .error e => .error e
    | .ok is => (getAll l is).map .many

/-- region.py:54-69: the attributes of a slicer; the dataset is given to `get` again, as it may change in between -/
structure Slicer (α : Type u) where
  region : Idx
  len : Nat
  read : Option (Out α) := none

/-- region.py:57-68 `__init__`; the region is a slice or a list (`itemgetter(*region)` of an empty list is a TypeError) -/
def make (ds : List α) : Idx → Except Err (Slicer α)
  | .one _ => .error .typeError
  | .many [] => .error .typeError
  | .many is => .ok { region := .many is, len := is.length }
  | .slc s => match s.range ds.length with
    | .error e => .error e
    | .ok is => .ok { region := .slc s, len := is.length }

/-- region.py:70-76 `__read_region` -/
def readRegion (s : Slicer α) (ds : List α) : Slicer α × Except Err (Out α) :=
  match s.read with
  | some r => (s, .ok r)
  | none => match itemgetter ds s.region with
    | .error e => (s, .error e)
    | .ok r => ({ s with read := some r }, .ok r)

/-- region.py:78-88 `__getitem__` -/
def get (sub : α → Idx → Except Err (Out α)) (s : Slicer α) (ds : List α) (idx : Idx) : Slicer α × Except Err (Out α) :=
  match readRegion s ds with
  | (s', .error e) => (s', .error e)
  | (s', .ok (.many l)) => (s', itemgetter l idx)
  | (s', .ok (.one x)) => match idx with
    | .many [] => (s', .error .typeError)
    | _ => (s', sub x idx)

/-- several reads, with whatever the dataset has become (histories of the calls modelled from region.py:77-90) -/
def run (sub : α → Idx → Except Err (Out α)) (s : Slicer α) : List (List α × Idx) → Slicer α
  | [] => s
  | (ds, i) :: rest => run sub (get sub s ds i).1 rest

end Verif.Slicer

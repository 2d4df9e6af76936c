import Verif.Base.Py

/-!
# Model of the short form of what a query finds (query.py:67-79)

Simplified: bounds and steps of slices are natural numbers.
-/

namespace Verif.Collapse
open Verif

/-- an index: a slice with its step, a pair of bounds, which stands for a slice, or a position (query.py:67-79) -/
inductive Idx
  | slice (start stop : Option Nat) (step : Option Nat)
  | pair (start stop : Option Nat)
  | at (i : Nat)
  deriving DecidableEq

/-- what a query finds: one index or a list of them (query.py:68-79) -/
inductive Found
  | one (i : Idx)
  | list (l : List Idx)
  deriving DecidableEq

/-- an element of a list (query.py:73-76) -/
def short : Idx → Idx
  | .slice a b s => if s = none ∨ s = some 1 then .pair a b else .slice a b s
  | i => i

/-- query.py:67-79 `__collapse` -/
def collapse : Found → Found
  | .one (.slice a b _) => .one (.pair a b)
  | .list l => .list (l.map short)
  | r => r

end Verif.Collapse

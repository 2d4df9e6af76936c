/-!
# Dynamic Python values: `None`, scalars and (nested) lists
-/

namespace Verif

/-- `None`, a scalar (any non-iterable value; identified by a number) or a list of values. -/
inductive Value where
  | null
  | atom (k : Int)
  | list (l : List Value)
  deriving Repr, Inhabited

namespace Value

mutual
/-- decidable equality -/
def decEq : (a b : Value) → Decidable (a = b)
  | .null, .null => .isTrue rfl
  | .atom a, .atom b => if h : a = b then .isTrue (by rw [h]) else .isFalse (by intro e; injection e; contradiction)
  | .list a, .list b => match decEqL a b with
    | .isTrue h => .isTrue (by rw [h])
    | .isFalse h => .isFalse (by intro e; injection e; contradiction)
  | .null, .atom _ => .isFalse (by intro e; cases e)
  | .null, .list _ => .isFalse (by intro e; cases e)
  | .atom _, .null => .isFalse (by intro e; cases e)
  | .atom _, .list _ => .isFalse (by intro e; cases e)
  | .list _, .null => .isFalse (by intro e; cases e)
  | .list _, .atom _ => .isFalse (by intro e; cases e)
def decEqL : (a b : List Value) → Decidable (a = b)
  | [], [] => .isTrue rfl
  | a :: as, b :: bs => match decEq a b with
    | .isFalse h => .isFalse (by intro e; injection e; contradiction)
    | .isTrue h => match decEqL as bs with
      | .isTrue h2 => .isTrue (by rw [h, h2])
      | .isFalse h2 => .isFalse (by intro e; injection e; contradiction)
  | [], _ :: _ => .isFalse (by intro e; cases e)
  | _ :: _, [] => .isFalse (by intro e; cases e)
end

instance : DecidableEq Value := decEq

end Value

example : Value.list [.atom 1, .list []] ≠ .list [.atom 1, .list [.null]] := by decide

end Verif

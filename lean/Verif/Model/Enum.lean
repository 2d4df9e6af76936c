import Verif.Base.Slice
import Mathlib.Data.Nat.Log

/-!
# Model of `EnumData` (common/table.py:1544-1656)

List-backed data and elements.  `τ` is the type of terms.  `np.log2` is exact here (it is for the sizes possible in
practice).
-/

namespace Verif.Enum
open Verif

variable {τ : Type} [DecidableEq τ]

/-- `_uint_precision`, common/table.py:1544-1549: `8 * max(1, int(2 ** ceil((ceil(log2(n)) - 8) / 8)))`; `np.dtype` raises
TypeError for widths above 64 bits (`none`). -/
def precision (n : Nat) : Option Nat :=
  let c := Nat.clog 2 n
  let w := 8 * max 1 (if c ≤ 8 then 1 else 2 ^ ((c - 8 + 7) / 8))
  if w ≤ 64 then some w else none

/-- The column: `elements.data`, `data`, `__uint` (number of bits, `None` before the first term) and `__revidx`.
(common/table.py:1558-1606) -/
structure EnumCol (τ : Type) where
  elements : List τ
  data : List Int
  bits : Option Nat
  rev : Dict τ Nat

/-- `uint(x)`: conversion to an unsigned integer of `b` bits (wraps around; numpy 2 raises OverflowError instead
for negative Python integers) (common/table.py:1552-1555, 1600-1603) -/
def cast (b : Nat) (x : Int) : Int := x % (2 ^ b : Nat)

/-- `_map_elements`, common/table.py:1552-1554: term to index; of equal terms the last wins.  `k` is the position of the first. -/
def mapElements (b : Nat) (k : Nat) : List τ → Dict τ Nat → Dict τ Nat
  | [], d => d
  | t :: ts, d => mapElements b (k + 1) ts (d.set t (k % 2 ^ b))

/-- the constructor, common/table.py:1570-1584 -/
def construct (data : List Int) (elements : List τ) : Except Err (EnumCol τ) :=
  if elements.length > 0 then
    match precision elements.length with
    | none => .error .typeError
    | some b => .ok ⟨elements, data, some b, mapElements b 0 elements []⟩
  else .ok ⟨elements, data, none, []⟩

/-- `__add_term`, common/table.py:1586-1606 -/
def addTerm (s : EnumCol τ) (t : τ) : EnumCol τ × Except Err Int :=
  match Dict.get? s.rev t with
  | some i => (s, .ok i)
  | none =>
    let els := s.elements ++ [t]
    match precision els.length with
    | none => ({ s with elements := els }, .error .typeError)
    | some b =>
      let s' := if s.bits = some b then { s with elements := els, rev := s.rev.set t ((els.length - 1) % 2 ^ b) }
        else { elements := els, bits := some b, rev := mapElements b 0 els [], data := s.data.map (cast b) }
      (s', match Dict.get? s'.rev t with
        | some i => .ok i
        | none => .error .keyError)

/-- argument of `add_row`: a term, or an index (`index=True`) (common/table.py:1643-1656) -/
inductive Arg (τ : Type)
  | term (t : τ)
  | index (i : Int)

/-- `add_row`, common/table.py:1647-1656 -/
def addRow (s : EnumCol τ) : Arg τ → EnumCol τ × Except Err Unit
  | .index i => ({ s with data := s.data ++ [i] }, .ok ())
  | .term t =>
    let r := addTerm s t
    match r.2 with
    | .error e => (r.1, .error e)
    | .ok i => ({ r.1 with data := r.1.data ++ [i] }, .ok ())

/-- `column.get(i)`, common/table.py:1614-1645 for an integer: the term -/
def get (s : EnumCol τ) (i : Int) : Except Err τ :=
  match pyGet s.data i with
  | .error e => .error e
  | .ok k => pyGet s.elements k

/-- a history of successful additions (histories of the calls modelled from common/table.py:1643-1656) -/
def runOk : EnumCol τ → List (Arg τ) → Option (EnumCol τ)
  | s, [] => some s
  | s, a :: as => match addRow s a with
    | (s', .ok _) => runOk s' as
    | (_, .error _) => none

end Verif.Enum

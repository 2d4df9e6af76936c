import Verif.Base.Py
import Verif.Base.Tac

/-!
# Python integer indexing and slices

Models of the language features `seq[i]`, `slice.indices` and `range`; nothing here models hdmf code.
-/

namespace Verif

/-- the natural-number position of Python index `i` in a sequence of length `n` -/
def pyPos (n : Nat) (i : Int) : Option Nat :=
  if 0 ≤ i then (if i.toNat < n then some i.toNat else none)
  else (if 0 ≤ i + n then some (i + n).toNat else none)

/-- `l[i]` for a Python list -/
def pyGet {α : Type u} (l : List α) (i : Int) : Except Err α :=
  match pyPos l.length i with
  | none => .error .indexError
  | some k => match l[k]? with
    | some x => .ok x
    | none => .error .indexError

/-- a Python slice object -/
structure PySlice where
  start : Option Int
  stop : Option Int
  step : Option Int
  deriving DecidableEq, Repr

/-- `range(start, stop, step)` for a positive step -/
def rangeUp (start stop step : Int) : List Int :=
  (List.range ((stop - start + step - 1) / step).toNat).map fun k : Nat => start + step * k

/-- `range(start, stop, step)` for a negative step -/
def rangeDown (start stop step : Int) : List Int :=
  (List.range ((start - stop + (-step) - 1) / (-step)).toNat).map fun k : Nat => start + step * k

/-- `slice.indices(n)` (language reference, CPython `PySlice_AdjustIndices`) -/
def PySlice.indices (s : PySlice) (n : Nat) : Except Err (Int × Int × Int) :=
  let step := s.step.getD 1
  if step = 0 then .error .valueError
  else
    let lower : Int := if step > 0 then 0 else -1
    let upper : Int := if step > 0 then n else n - 1
    let clip : Int → Int := fun v => if v < 0 then max (v + n) lower else min v upper
    let start := match s.start with
      | none => if step > 0 then lower else upper
      | some v => clip v
    let stop := match s.stop with
      | none => if step > 0 then upper else lower
      | some v => clip v
    .ok (start, stop, step)

/-- `list(range(*s.indices(n)))` -/
def PySlice.range (s : PySlice) (n : Nat) : Except Err (List Int) :=
  match s.indices n with
  | .error e => .error e
  | .ok (start, stop, step) => .ok (if step > 0 then rangeUp start stop step else rangeDown start stop step)

/-- a slice only ever selects existing positions -/
theorem PySlice.mem_range {s : PySlice} {n : Nat} {is : List Int} (h : s.range n = .ok is) :
    ∀ i ∈ is, 0 ≤ i ∧ i < n := by
  unfold PySlice.range PySlice.indices at h
  by_cases h0 : s.step.getD 1 = 0
  · simp [h0] at h
  · simp only [h0, if_false] at h
    generalize s.step.getD 1 = step at h h0
    simp only [Except.ok.injEq] at h
    intro i hi
    by_cases hp : step > 0
    · simp only [hp, if_true] at h
      generalize hst : (match s.start with
        | none => (0 : Int)
        | some v => if v < 0 then max (v + n) 0 else min v n) = start at h
      generalize hsp : (match s.stop with
        | none => (n : Int)
        | some v => if v < 0 then max (v + n) 0 else min v n) = stop at h
      have h1 : 0 ≤ start := by
        rw [← hst]; split
        · exact Int.le_refl _
        · split <;> omega
      have h2 : stop ≤ n := by
        rw [← hsp]; split
        · exact Int.le_refl _
        · split <;> omega
      rw [← h] at hi
      obtain ⟨k, hk, rfl⟩ := List.mem_map.1 hi
      have hk := List.mem_range.1 hk
      have hk' : (k : Int) + 1 ≤ (stop - start + step - 1) / step := by omega
      have := (Int.le_ediv_iff_mul_le hp).1 hk'
      have e : ((k : Int) + 1) * step = step * k + step := by ring
      have hnn : 0 ≤ step * (k : Int) := Int.mul_nonneg (by omega) (by omega)
      omega
    · have hn : step < 0 := by omega
      simp only [hp, if_false] at h
      generalize hst : (match s.start with
        | none => (n : Int) - 1
        | some v => if v < 0 then max (v + n) (-1) else min v ((n : Int) - 1)) = start at h
      generalize hsp : (match s.stop with
        | none => (-1 : Int)
        | some v => if v < 0 then max (v + n) (-1) else min v ((n : Int) - 1)) = stop at h
      have h1 : start ≤ (n : Int) - 1 := by
        rw [← hst]; split
        · exact Int.le_refl _
        · split <;> omega
      have h2 : -1 ≤ stop := by
        rw [← hsp]; split
        · exact Int.le_refl _
        · split <;> omega
      rw [← h] at hi
      obtain ⟨k, hk, rfl⟩ := List.mem_map.1 hi
      have hk := List.mem_range.1 hk
      have hk' : (k : Int) + 1 ≤ (start - stop + (-step) - 1) / (-step) := by omega
      have := (Int.le_ediv_iff_mul_le (by omega : (0 : Int) < -step)).1 hk'
      have e : ((k : Int) + 1) * (-step) = -(step * k) + -step := by ring
      have hnn : step * (k : Int) ≤ 0 := Int.mul_nonpos_of_nonpos_of_nonneg (by omega) (by omega)
      omega

end Verif

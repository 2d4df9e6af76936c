import Verif.Model.Collapse

/-!
# The short form of what a query finds (C263)
-/

namespace Verif.Collapse
open Verif

/-- the positions from a start, up to a stop and at distances of a step -/
def Between (a b : Option Nat) (s : Nat) (x : Nat) : Prop :=
  a.getD 0 ≤ x ∧ (∀ e, b = some e → x < e) ∧ s ∣ (x - a.getD 0)

/-- the positions an index stands for -/
def Idx.Sel : Idx → Nat → Prop
  | .slice a b s, x => Between a b (s.getD 1) x
  | .pair a b, x => Between a b 1 x
  | .at i, x => x = i

/-- the indices that were found, in order -/
def Found.items : Found → List Idx
  | .one i => [i]
  | .list l => l

/-- a slice alone has no step or the step one -/
def NoStep : Found → Prop
  | .one (.slice _ _ s) => s = none ∨ s = some 1
  | _ => True

theorem short_sel (i : Idx) (x : Nat) : (short i).Sel x ↔ i.Sel x := by
  cases i with
  | slice a b s =>
    simp only [short]
    by_cases h : s = none ∨ s = some 1
    · rw [if_pos h]
      rcases h with rfl | rfl <;> exact Iff.rfl
    · rw [if_neg h]
  | pair a b => exact Iff.rfl
  | «at» i => exact Iff.rfl

/-- **C263 (short form).** The short form of what a query finds has as many indices, in the same order, and each stands for the same
positions; no slice is left in it that has no step.  Missing: a slice alone that has a step (`C263_same_fails`). -/
theorem C263_same_partial (r : Found) (h : NoStep r) :
    (collapse r).items.length = r.items.length ∧
    (∀ (k : Nat) i j, r.items[k]? = some i → (collapse r).items[k]? = some j → ∀ x, j.Sel x ↔ i.Sel x) ∧
    (∀ a b s, Idx.slice a b s ∈ (collapse r).items → s ≠ none ∧ s ≠ some 1) ∧
    (∀ i, Idx.at i ∈ (collapse r).items ↔ Idx.at i ∈ r.items) := by
  have hshort : collapse r = match r with | .one i => .one (short i) | .list l => .list (l.map short) := by
    cases r with
    | one i =>
      cases i with
      | slice a b s => simp only [NoStep] at h; simp only [collapse, short]; rw [if_pos h]
      | pair a b => rfl
      | «at» i => rfl
    | list l => rfl
  have hitems : (collapse r).items = r.items.map short := by
    rw [hshort]
    cases r <;> rfl
  rw [hitems]
  refine ⟨List.length_map _, ?_, ?_, ?_⟩
  · intro k i j hi hj x
    rw [List.getElem?_map, hi] at hj
    cases hj
    exact short_sel i x
  · intro a b s hm
    obtain ⟨i, -, hi⟩ := List.mem_map.1 hm
    cases i with
    | slice a' b' s' =>
      simp only [short] at hi
      split at hi
      · cases hi
      · rename_i hne
        cases hi
        exact ⟨fun e => hne (.inl e), fun e => hne (.inr e)⟩
    | pair a' b' => cases hi
    | «at» i => cases hi
  · intro i
    rw [List.mem_map]
    constructor
    · rintro ⟨j, hj, e⟩
      cases j with
      | slice a b s =>
        simp only [short] at e
        split at e <;> cases e
      | pair a b => cases e
      | «at» j => cases e; exact hj
    · intro hm
      exact ⟨_, hm, rfl⟩

/-- non-vacuity: a list with slices of all kinds and a position, and a slice alone -/
example : NoStep (.list [.slice (some 1) (some 5) none, .slice (some 0) (some 9) (some 2), .at 7]) ∧ NoStep (.one (.slice none (some 3) none)) ∧
    collapse (.list [.slice (some 1) (some 5) none, .slice (some 0) (some 9) (some 2), .at 7]) =
      .list [.pair (some 1) (some 5), .slice (some 0) (some 9) (some 2), .at 7] ∧
    collapse (.one (.slice none (some 3) none)) = .one (.pair none (some 3)) :=
  ⟨trivial, .inl rfl, rfl, rfl⟩

/-- **C263 (violated).** Of a slice alone the step is lost, though it is kept in a list: of every second position, all between become
found. -/
theorem C263_same_fails : ∃ i j, collapse (.one i) = .one j ∧ collapse (.list [i]) = .list [i] ∧ j.Sel 1 ∧ ¬ i.Sel 1 := by
  refine ⟨.slice (some 0) (some 4) (some 2), .pair (some 0) (some 4), rfl, rfl, ?_, ?_⟩
  · exact ⟨by decide, by simp, by decide⟩
  · rintro ⟨-, -, h⟩
    exact absurd h (by decide)

end Verif.Collapse

import Verif.Model.Slicer

/-!
# Properties of region slicers
-/

namespace Verif.Slicer
open Verif

theorem getAll_ok {l : List α} {is : List Int} {xs : List α} (h : getAll l is = .ok xs) :
    xs.length = is.length ∧ ∀ (k : Nat) i x, is[k]? = some i → xs[k]? = some x → pyGet l i = .ok x := by
  induction is generalizing xs with
  | nil => simp only [getAll, Except.ok.injEq] at h; subst h; simp
  | cons i is ih =>
    simp only [getAll] at h
    split at h
    · simp at h
    · rename_i x hx
      split at h
      · simp at h
      · rename_i ys hys
        simp only [Except.ok.injEq] at h
        subst h
        obtain ⟨h1, h2⟩ := ih hys
        refine ⟨by simp [h1], ?_⟩
        intro k i' x' hi hx'
        cases k with
        | zero => simp at hi hx'; rw [← hi, ← hx']; exact hx
        | succ k => simp at hi hx'; exact h2 k i' x' hi hx'

theorem getAll_exists {l : List α} {is : List Int} (h : ∀ i ∈ is, -(l.length : Int) ≤ i ∧ i < l.length) : ∃ xs, getAll l is = .ok xs := by
  induction is with
  | nil => exact ⟨[], rfl⟩
  | cons i is ih =>
    obtain ⟨xs, hxs⟩ := ih (fun j hj => h j (by simp [hj]))
    have hi := h i (by simp)
    have : ∃ x, pyGet l i = .ok x := by
      unfold pyGet pyPos
      by_cases h0 : 0 ≤ i
      · rw [if_pos h0, if_pos (by omega)]
        have : i.toNat < l.length := by omega
        simp [this]
      · rw [if_neg h0, if_pos (by omega)]
        have : (i + l.length).toNat < l.length := by omega
        simp [this]
    obtain ⟨x, hx⟩ := this
    exact ⟨x :: xs, by simp only [getAll, hx, hxs]⟩

/-- the dataset restricted to a region: what the slicer is expected to stand for -/
def Restricted (ds : List α) (region : Idx) (sel : List α) : Prop :=
  ∃ is : List Int, (match region with | .slc s => s.range ds.length = .ok is | .many l => is = l | .one _ => False) ∧
    sel.length = is.length ∧ ∀ (k : Nat) i x, is[k]? = some i → sel[k]? = some x → pyGet ds i = .ok x

/-- **C59 (slices).** For every dataset and slice with a step other than 0, the slicer is made, its length is the number of elements
selected, and after any reads before (the dataset unchanged) `slicer[i]`, `slicer[[i, ...]]` and `slicer[a:b]` are those of the list
of the selected elements. -/
theorem C59_slice (sub : α → Idx → Except Err (Out α)) (ds : List α) (s : PySlice) (hstep : s.step ≠ some 0) :
    ∃ sl sel, make ds (.slc s) = .ok sl ∧ Restricted ds (.slc s) sel ∧ sl.len = sel.length ∧
      ∀ (before : List Idx) (idx : Idx),
        (get sub (run sub sl (before.map (ds, ·))) ds idx).2 = itemgetter sel idx := by
  have hr : ∃ is, s.range ds.length = .ok is := by
    unfold PySlice.range PySlice.indices
    have : ¬ s.step.getD 1 = 0 := by
      cases h : s.step with
      | none => simp
      | some v => simp only [Option.getD_some]; rintro rfl; exact hstep h
    simp only [this, if_false]
    exact ⟨_, rfl⟩
  obtain ⟨is, his⟩ := hr
  obtain ⟨sel, hsel⟩ := getAll_exists (l := ds) (is := is) (fun i hi => by
    have := PySlice.mem_range his i hi
    omega)
  obtain ⟨h1, h2⟩ := getAll_ok hsel
  refine ⟨{ region := .slc s, len := is.length }, sel, by simp only [make, his], ⟨is, his, h1, h2⟩, by simp [h1], ?_⟩
  have hrun : ∀ (before : List Idx) (sl : Slicer α), sl.region = .slc s → (sl.read = none ∨ sl.read = some (.many sel)) →
      (run sub sl (before.map (ds, ·))).region = .slc s ∧
        ((run sub sl (before.map (ds, ·))).read = none ∨ (run sub sl (before.map (ds, ·))).read = some (.many sel)) := by
    intro before
    induction before with
    | nil => intro sl a b; exact ⟨a, b⟩
    | cons i before ih =>
      intro sl a b
      simp only [List.map_cons, run]
      apply ih
      · unfold get readRegion
        rcases b with b | b
        · simp only [b, a, itemgetter, his, hsel, Except.map]
        · simp only [b, a]
      · unfold get readRegion
        rcases b with b | b
        · simp only [b, a, itemgetter, his, hsel, Except.map]; simp
        · simp only [b]; simp
  intro before idx
  obtain ⟨a, b⟩ := hrun before { region := .slc s, len := is.length } rfl (.inl rfl)
  unfold get readRegion
  rcases b with b | b
  · simp only [b, a, itemgetter, his, hsel, Except.map]
  · simp only [b]

/-- **C59 (index lists, partial).** The same for a list of at least two valid indices; what is missing is a list of one index
(`C59_single_fails`). -/
theorem C59_list_partial (sub : α → Idx → Except Err (Out α)) (ds : List α) (is : List Int) (h2 : 2 ≤ is.length)
    (hv : ∀ i ∈ is, -(ds.length : Int) ≤ i ∧ i < ds.length) :
    ∃ sl sel, make ds (.many is) = .ok sl ∧ Restricted ds (.many is) sel ∧ sl.len = sel.length ∧
      ∀ (before : List Idx) (idx : Idx),
        (get sub (run sub sl (before.map (ds, ·))) ds idx).2 = itemgetter sel idx := by
  obtain ⟨sel, hsel⟩ := getAll_exists (l := ds) (is := is) hv
  obtain ⟨h1, h3⟩ := getAll_ok hsel
  have hm : make ds (.many is) = .ok { region := .many is, len := is.length } := by
    match is, h2 with
    | a :: b :: r, _ => rfl
  have hg : itemgetter ds (.many is) = .ok (.many sel) := by
    match is, h2 with
    | a :: b :: r, _ => simp only [itemgetter, hsel, Except.map]
  refine ⟨_, sel, hm, ⟨is, rfl, h1, h3⟩, by simp [h1], ?_⟩
  have hrun : ∀ (before : List Idx) (sl : Slicer α), sl.region = .many is → (sl.read = none ∨ sl.read = some (.many sel)) →
      (run sub sl (before.map (ds, ·))).region = .many is ∧
        ((run sub sl (before.map (ds, ·))).read = none ∨ (run sub sl (before.map (ds, ·))).read = some (.many sel)) := by
    intro before
    induction before with
    | nil => intro sl a b; exact ⟨a, b⟩
    | cons i before ih =>
      intro sl a b
      simp only [List.map_cons, run]
      apply ih
      · unfold get readRegion
        rcases b with b | b
        · simp only [b, a, hg]
        · simp only [b, a]
      · unfold get readRegion
        rcases b with b | b
        · simp only [b, a, hg]; simp
        · simp only [b]; simp
  intro before idx
  obtain ⟨a, b⟩ := hrun before { region := .many is, len := is.length } rfl (.inl rfl)
  unfold get readRegion
  rcases b with b | b
  · simp only [b, a, hg]
  · simp only [b]

/-- elements that are not subscriptable -/
def atom : Int → Idx → Except Err (Out Int) := fun _ _ => .error .typeError

/-- non-vacuity -/
example : (make [10, 11, 12, 13, 14] (.slc ⟨some 3, none, some (-1)⟩)).map (fun sl => (sl.len,
      (get atom sl [10, 11, 12, 13, 14] (.one (-1))).2, (get atom sl [10, 11, 12, 13, 14] (.one 4)).2)) =
      .ok (4, .ok (.one 10), .error .indexError) ∧
    (make [10, 11, 12] (.many [2, -3])).map (fun sl => (sl.len, (get atom sl [10, 11, 12] (.many [1, 0])).2)) =
      .ok (2, .ok (.many [10, 12])) := by decide

/-- **C59 fails** for a region of one index: its length is 1 but `slicer[0]` subscribes the element itself; and an empty region
cannot be made. -/
theorem C59_single_fails : ∃ sl : Slicer Int, make [10, 11, 12] (.many [1]) = .ok sl ∧ sl.len = 1 ∧
    (get atom sl [10, 11, 12] (.one 0)).2 = .error .typeError ∧ make [10, 11, 12] (.many []) = (.error .typeError : Except Err (Slicer Int)) :=
  ⟨_, rfl, rfl, rfl, rfl⟩

/-- **C59 (what was read stays).** Once the region was read, later changes of the dataset are not seen. -/
theorem C59_stable (sub : α → Idx → Except Err (Out α)) (s : Slicer α) (r : Out α) (h : s.read = some r) (ds ds' : List α)
    (between : List (List α × Idx)) (idx : Idx) :
    (get sub (run sub s between) ds idx).2 = (get sub s ds' idx).2 := by
  have hs : ∀ (between : List (List α × Idx)), run sub s between = s := by
    intro between
    induction between with
    | nil => rfl
    | cons p rest ih =>
      obtain ⟨d, i⟩ := p
      simp only [run]
      have : (get sub s d i).1 = s := by
        unfold get readRegion
        rw [h]
        cases r with
        | many l => rfl
        | one x => cases i with
          | one i => rfl
          | many l => cases l <;> rfl
          | slc s => rfl
      rw [this, ih]
  rw [hs]
  unfold get readRegion
  rw [h]

end Verif.Slicer

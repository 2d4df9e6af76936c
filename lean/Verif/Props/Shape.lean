import Verif.Model.Shape

/-!
# Properties of shape comparison
-/

namespace Verif.Shape
open Verif

theorem foldl_max_lt (is : List Int) (i n : Int) : is.foldl max i < n ↔ ∀ j ∈ i :: is, j < n := by
  induction is generalizing i with
  | nil => simp
  | cons a is ih =>
    simp only [List.foldl_cons, ih, List.mem_cons, forall_eq_or_imp]
    constructor
    · rintro ⟨h1, h2⟩; exact ⟨by omega, by omega, h2⟩
    · rintro ⟨h1, h2, h3⟩; exact ⟨by omega, h3⟩

theorem npMax_lt {is : List Int} {m : Int} (h : npMax is = .ok m) (n : Int) : m < n ↔ ∀ j ∈ is, j < n := by
  cases is with
  | nil => simp [npMax] at h
  | cons i is => simp only [npMax, Except.ok.injEq] at h; subst h; exact foldl_max_lt is i n

/-- the dimension an axis (possibly negative, counted from the end) stands for -/
def dimAt (s : List Dim) (a : Int) (d : Dim) : Prop :=
  ∃ k : Nat, (k : Int) = (if 0 ≤ a then a else a + s.length) ∧ s[k]? = some d

theorem pyGet_dim {s : List Dim} {a : Int} (h : -(s.length : Int) ≤ a ∧ a < s.length) :
    ∃ d, pyGet s a = .ok d ∧ ∀ d', dimAt s a d' ↔ d' = d := by
  have hk : ∃ k : Nat, (k : Int) = (if 0 ≤ a then a else a + s.length) ∧ k < s.length := by
    by_cases h0 : 0 ≤ a
    · rw [if_pos h0]; exact ⟨a.toNat, by omega, by omega⟩
    · rw [if_neg h0]; exact ⟨(a + s.length).toNat, by omega, by omega⟩
  obtain ⟨k, hk1, hk2⟩ := hk
  refine ⟨s[k], ?_, ?_⟩
  · unfold pyGet pyPos
    by_cases h0 : 0 ≤ a
    · rw [if_pos h0] at hk1
      have : a.toNat = k := by omega
      rw [if_pos h0, this, if_pos hk2]
      simp [hk2]
    · rw [if_neg h0] at hk1
      have : (a + s.length).toNat = k := by omega
      rw [if_neg h0, if_pos (by omega), this]
      simp [hk2]
  · intro d'
    constructor
    · rintro ⟨k', h1, h2⟩
      have : k' = k := by omega
      subst this
      rw [List.getElem?_eq_getElem hk2] at h2
      simpa using h2.symm
    · rintro rfl
      exact ⟨k, hk1, List.getElem?_eq_getElem hk2⟩

/-- two axes do not match: their dimensions differ, and are not to be ignored -/
def Differ (s1 s2 : List Dim) (ignore : Bool) (p : Int × Int) : Prop :=
  ∃ d1 d2, dimAt s1 p.1 d1 ∧ dimAt s2 p.2 d2 ∧ d1 ≠ d2 ∧ ¬ (ignore = true ∧ (d1 = none ∨ d2 = none))

/-- two axes are ignored: their dimensions differ, one is unlimited -/
def Ignored (s1 s2 : List Dim) (ignore : Bool) (p : Int × Int) : Prop :=
  ∃ d1 d2, dimAt s1 p.1 d1 ∧ dimAt s2 p.2 d2 ∧ d1 ≠ d2 ∧ ignore = true ∧ (d1 = none ∨ d2 = none)

theorem compareAxes_ok (s1 s2 : List Dim) (ignore : Bool) (ps : List (Int × Int))
    (h : ∀ p ∈ ps, (-(s1.length : Int) ≤ p.1 ∧ p.1 < s1.length) ∧ (-(s2.length : Int) ≤ p.2 ∧ p.2 < s2.length)) :
    ∃ un ig, compareAxes s1 s2 ignore ps = .ok (un, ig) ∧ un.Sublist ps ∧ ig.Sublist ps ∧
      (∀ p, p ∈ un ↔ p ∈ ps ∧ Differ s1 s2 ignore p) ∧ (∀ p, p ∈ ig ↔ p ∈ ps ∧ Ignored s1 s2 ignore p) := by
  induction ps with
  | nil => exact ⟨[], [], rfl, List.Sublist.refl _, List.Sublist.refl _, by simp, by simp⟩
  | cons p ps ih =>
    obtain ⟨un, ig, h1, h2, h3, h4, h5⟩ := ih (fun q hq => h q (by simp [hq]))
    obtain ⟨a, b⟩ := p
    obtain ⟨ha, hb⟩ := h (a, b) (by simp)
    obtain ⟨d1, g1, e1⟩ := pyGet_dim ha
    obtain ⟨d2, g2, e2⟩ := pyGet_dim hb
    have hD : Differ s1 s2 ignore (a, b) ↔ d1 ≠ d2 ∧ ¬ (ignore = true ∧ (d1 = none ∨ d2 = none)) := by
      unfold Differ
      simp only [e1, e2]
      constructor
      · rintro ⟨x, y, rfl, rfl, h⟩; exact h
      · intro h; exact ⟨_, _, rfl, rfl, h⟩
    have hI : Ignored s1 s2 ignore (a, b) ↔ d1 ≠ d2 ∧ ignore = true ∧ (d1 = none ∨ d2 = none) := by
      unfold Ignored
      simp only [e1, e2]
      constructor
      · rintro ⟨x, y, rfl, rfl, h⟩; exact h
      · intro h; exact ⟨_, _, rfl, rfl, h⟩
    simp only [compareAxes, g1, g2, h1]
    by_cases hd : d1 = d2
    · rw [if_pos hd]
      refine ⟨un, ig, rfl, h2.cons _, h3.cons _, ?_, ?_⟩
      · intro q
        rw [h4, List.mem_cons]
        constructor
        · rintro ⟨x, y⟩; exact ⟨.inr x, y⟩
        · rintro ⟨rfl | x, y⟩
          · exact absurd hd (hD.1 y).1
          · exact ⟨x, y⟩
      · intro q
        rw [h5, List.mem_cons]
        constructor
        · rintro ⟨x, y⟩; exact ⟨.inr x, y⟩
        · rintro ⟨rfl | x, y⟩
          · exact absurd hd (hI.1 y).1
          · exact ⟨x, y⟩
    · rw [if_neg hd]
      by_cases hi : ignore = true ∧ (d1 = none ∨ d2 = none)
      · rw [if_pos hi]
        refine ⟨un, (a, b) :: ig, rfl, h2.cons _, h3.cons_cons _, ?_, ?_⟩
        · intro q
          rw [h4, List.mem_cons]
          constructor
          · rintro ⟨x, y⟩; exact ⟨.inr x, y⟩
          · rintro ⟨rfl | x, y⟩
            · exact absurd hi (hD.1 y).2
            · exact ⟨x, y⟩
        · intro q
          rw [List.mem_cons, h5, List.mem_cons]
          constructor
          · rintro (rfl | ⟨x, y⟩)
            · exact ⟨.inl rfl, hI.2 ⟨hd, hi⟩⟩
            · exact ⟨.inr x, y⟩
          · rintro ⟨x | x, y⟩
            · exact .inl x
            · exact .inr ⟨x, y⟩
      · rw [if_neg hi]
        refine ⟨(a, b) :: un, ig, rfl, h2.cons_cons _, h3.cons _, ?_, ?_⟩
        · intro q
          rw [List.mem_cons, h4, List.mem_cons]
          constructor
          · rintro (rfl | ⟨x, y⟩)
            · exact ⟨.inl rfl, hD.2 ⟨hd, hi⟩⟩
            · exact ⟨.inr x, y⟩
          · rintro ⟨x | x, y⟩
            · exact .inl x
            · exact .inr ⟨x, y⟩
        · intro q
          rw [h5, List.mem_cons]
          constructor
          · rintro ⟨x, y⟩; exact ⟨.inr x, y⟩
          · rintro ⟨rfl | x, y⟩
            · exact absurd (hI.1 y).2 hi
            · exact ⟨x, y⟩

/-- the axes to compare: those given, or all -/
def Axes (s : List Dim) (given : Option (List Int)) (axes : List Int) : Prop :=
  given = some axes ∨ (given = none ∧ axes.length = s.length ∧ ∀ k (hk : k < axes.length), axes[k] = (k : Int))

theorem axes_eq {s : List Dim} {given : Option (List Int)} {axes : List Int} (h : Axes s given axes) : axesOf s given = axes := by
  rcases h with rfl | ⟨rfl, h1, h2⟩
  · rfl
  · apply List.ext_getElem
    · simp [axesOf, h1]
    · intro k h3 h4
      rw [h2 k h4]
      simp [axesOf]

/-- **C57 (partial).** For all determined shapes and non-empty lists of axes, none of them below minus the number of dimensions, the
comparison returns, and: it reports a wrong number of axes iff the lists differ in length; else an axis out of bounds iff some axis
does not exist; else the unmatched (ignored) axes are exactly, in order, the pairs whose dimensions differ and are not (are) to be
ignored, and the result is true iff no pair is unmatched.  (Empty lists and lower axes raise: `C57_fails`.) -/
theorem C57_exact_partial (s1 s2 : List Dim) (g1 g2 : Option (List Int)) (a1 a2 : List Int) (ignore : Bool)
    (h1 : Axes s1 g1 a1) (h2 : Axes s2 g2 a2) (hne : a1 ≠ [] ∧ a2 ≠ []) (hb1 : ∀ a ∈ a1, -(s1.length : Int) ≤ a)
    (hb2 : ∀ a ∈ a2, -(s2.length : Int) ≤ a) :
    ∃ r, assertEqualShape (some s1) (some s2) g1 g2 ignore = .ok r ∧
      (r.error = some .numAxes ↔ a1.length ≠ a2.length) ∧
      (r.error = some .outOfBounds ↔ a1.length = a2.length ∧ ((∃ a ∈ a1, a ≥ s1.length) ∨ ∃ a ∈ a2, a ≥ s2.length)) ∧
      (r.result = true ↔ r.error = none) ∧
      (r.result = true ↔ a1.length = a2.length ∧ (∀ a ∈ a1, a < s1.length) ∧ (∀ a ∈ a2, a < s2.length) ∧
        ∀ p ∈ a1.zip a2, ¬ Differ s1 s2 ignore p) ∧
      (a1.length = a2.length → (∀ a ∈ a1, a < s1.length) → (∀ a ∈ a2, a < s2.length) →
        r.unmatched.Sublist (a1.zip a2) ∧ r.ignored.Sublist (a1.zip a2) ∧
        ∀ p, (p ∈ r.unmatched ↔ p ∈ a1.zip a2 ∧ Differ s1 s2 ignore p) ∧
          (p ∈ r.ignored ↔ p ∈ a1.zip a2 ∧ Ignored s1 s2 ignore p)) := by
  unfold assertEqualShape
  simp only [axes_eq h1, axes_eq h2]
  by_cases hl : a1.length = a2.length
  · rw [if_neg (by simpa using hl)]
    have hm1 : ∃ m, npMax a1 = .ok m := by
      cases a1 with
      | nil => exact absurd rfl hne.1
      | cons i is => exact ⟨_, rfl⟩
    have hm2 : ∃ m, npMax a2 = .ok m := by
      cases a2 with
      | nil => exact absurd rfl hne.2
      | cons i is => exact ⟨_, rfl⟩
    obtain ⟨m1, hm1⟩ := hm1
    obtain ⟨m2, hm2⟩ := hm2
    have l1 := npMax_lt hm1 s1.length
    have l2 := npMax_lt hm2 s2.length
    by_cases hok : (∀ a ∈ a1, a < s1.length) ∧ ∀ a ∈ a2, a < s2.length
    · have hb : beyond s1 s2 a1 a2 = .ok false := by
        simp only [beyond, hm1, hm2]
        have := l1.2 hok.1
        have := l2.2 hok.2
        rw [if_neg (by omega)]
        simp only [Except.ok.injEq, decide_eq_false_iff_not]; omega
      rw [hb]
      obtain ⟨un, ig, c1, c2, c3, c4, c5⟩ := compareAxes_ok s1 s2 ignore (a1.zip a2) (fun p hp => by
        obtain ⟨p1, p2⟩ := p
        obtain ⟨q1, q2⟩ := List.of_mem_zip hp
        exact ⟨⟨hb1 _ q1, hok.1 _ q1⟩, ⟨hb2 _ q2, hok.2 _ q2⟩⟩)
      simp only [c1]
      have hno : ¬ ((∃ a ∈ a1, a ≥ (s1.length : Int)) ∨ ∃ a ∈ a2, a ≥ (s2.length : Int)) := by
        rintro (⟨a, ha, hb⟩ | ⟨a, ha, hb⟩)
        · have := hok.1 a ha; omega
        · have := hok.2 a ha; omega
      cases un with
      | nil =>
        refine ⟨_, rfl, ⟨by simp, by simp [hl]⟩, ⟨by simp, fun h => absurd h.2 hno⟩, by simp, ?_, fun _ _ _ => ⟨c2, c3, fun p => ⟨c4 p, c5 p⟩⟩⟩
        simp only [true_iff]
        exact ⟨hl, hok.1, hok.2, fun p hp hd => by simpa using (c4 p).2 ⟨hp, hd⟩⟩
      | cons u us =>
        refine ⟨_, rfl, ⟨by simp, by simp [hl]⟩, ⟨by simp, fun h => absurd h.2 hno⟩, by simp, ?_, fun _ _ _ => ⟨c2, c3, fun p => ⟨c4 p, c5 p⟩⟩⟩
        simp only [Bool.false_eq_true, false_iff]
        rintro ⟨-, -, -, h⟩
        have := (c4 u).1 (by simp)
        exact h u this.1 this.2
    · have hb : beyond s1 s2 a1 a2 = .ok true := by
        simp only [beyond, hm1, hm2]
        by_cases hx : m1 < s1.length
        · have : ¬ m2 < s2.length := fun hy => hok ⟨l1.1 hx, l2.1 hy⟩
          rw [if_neg (by omega)]
          simp only [Except.ok.injEq, decide_eq_true_eq]; omega
        · rw [if_pos (by omega)]
      rw [hb]
      have hsome : (∃ a ∈ a1, a ≥ (s1.length : Int)) ∨ ∃ a ∈ a2, a ≥ (s2.length : Int) := by
        by_contra hn
        apply hok
        constructor
        · intro a ha
          by_contra hc
          exact hn (.inl ⟨a, ha, by omega⟩)
        · intro a ha
          by_contra hc
          exact hn (.inr ⟨a, ha, by omega⟩)
      refine ⟨_, rfl, by simp [hl], by simp only [true_iff]; exact ⟨hl, hsome⟩, by simp, ?_, fun _ h3 h4 => absurd ⟨h3, h4⟩ hok⟩
      simp only [Bool.false_eq_true, false_iff]
      rintro ⟨-, h3, h4, -⟩
      exact hok ⟨h3, h4⟩
  · rw [if_pos hl]
    refine ⟨_, rfl, by simp [hl], ⟨by simp, fun h => absurd h.1 hl⟩, by simp, ?_, fun h => absurd h hl⟩
    simp only [Bool.false_eq_true, false_iff]
    rintro ⟨h, -⟩
    exact hl h

/-- non-vacuity: 3x(unlimited)x5 against 3x4x6, then against two axes from the end -/
example : assertEqualShape (some [some 3, none, some 5]) (some [some 3, some 4, some 6]) none none true =
      .ok { result := false, error := some .axisLen, unmatched := [(2, 2)], ignored := [(1, 1)] } ∧
    assertEqualShape (some [some 3, none, some 5]) (some [some 5, some 3]) (some [0, -1]) (some [-1, 0]) true =
      .ok { result := true, error := none, unmatched := [], ignored := [] } ∧
    assertEqualShape (some [some 3]) (some [some 3]) (some [1]) (some [0]) true =
      .ok { result := false, error := some .outOfBounds, unmatched := [], ignored := [] } := by decide

/-- **C57 fails**: an empty list of axes (as for two zero-dimensional arrays) raises ValueError, a too negative axis IndexError, and an
undetermined shape TypeError, instead of a result. -/
theorem C57_fails : assertEqualShape (some []) (some []) none none true = .error .valueError ∧
    assertEqualShape (some [some 3]) (some [some 3]) (some [-2]) (some [0]) true = .error .indexError ∧
    assertEqualShape none (some [some 3]) (some [0]) (some [0]) true = .error .typeError := by decide

end Verif.Shape

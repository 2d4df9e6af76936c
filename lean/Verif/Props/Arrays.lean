import Verif.Lemmas.Arrays

/-!
# Properties of the sorted arrays
-/

namespace Verif.Arrays
open Verif

section sorted
variable {α : Type u} [LinearOrder α]

/-- the results select exactly the positions of the elements of `data` with the property -/
def Selects (data : List α) (rs : List Res) (P : α → Prop) : Prop :=
  ∀ i : Int, i ∈ positionsAll data.length rs ↔ ∃ (k : Nat) (x : α), i = k ∧ data[k]? = some x ∧ P x

theorem selects_slc {data : List α} {P : α → Prop} {lo hi : Nat}
    (h : ∀ k x, data[k]? = some x → (P x ↔ lo ≤ k ∧ k < hi)) : Selects data [.slc lo hi] P := by
  intro i
  simp only [positionsAll, List.flatMap_cons, List.flatMap_nil, List.append_nil]
  rw [mem_slc (by omega) (by omega)]
  constructor
  · rintro ⟨h1, h2, h3⟩
    have hk : i.toNat < data.length := by omega
    refine ⟨i.toNat, data[i.toNat], by omega, List.getElem?_eq_getElem hk, ?_⟩
    rw [h _ _ (List.getElem?_eq_getElem hk)]; omega
  · rintro ⟨k, x, rfl, hx, hp⟩
    have := (h k x hx).1 hp
    have hl := (List.getElem?_eq_some_iff.1 hx).1
    omega

/-- **C51 (`<`).** For every sorted array and value, `a < v` selects exactly the positions of the elements less than `v`. -/
theorem C51_lt (data : List α) (hs : data.Pairwise (· ≤ ·)) (v : α) :
    ∃ r, lt (sortedArray data) v = .ok r ∧ Selects data [r] (· < v) := by
  obtain ⟨f, h1, h2, h3⟩ := find_spec data hs v
  refine ⟨_, rfl, ?_⟩
  rw [h1]
  have := selects_slc (data := data) (P := (· < v)) (lo := 0) (hi := f) (fun k x hx => by rw [h3 k x hx]; omega)
  exact this

/-- **C51 (`>=`).** For every sorted array and value, `a >= v` selects exactly the positions of the elements that are at least `v`. -/
theorem C51_ge (data : List α) (hs : data.Pairwise (· ≤ ·)) (v : α) :
    ∃ r, ge (sortedArray data) v = .ok r ∧ Selects data [r] (v ≤ ·) := by
  obtain ⟨f, h1, h2, h3⟩ := find_spec data hs v
  refine ⟨_, rfl, ?_⟩
  rw [h1]
  refine selects_slc (data := data) (P := (v ≤ ·)) (lo := f) (hi := data.length) (fun k x hx => ?_)
  have hl := (List.getElem?_eq_some_iff.1 hx).1
  rw [← not_lt, h3 k x hx]; omega

/-- **C51 (`<=`, partial).** If some element is greater than `v`, `a <= v` selects exactly the positions of the elements that are
at most `v`.  (Otherwise it raises: `C51_error`.) -/
theorem C51_le_partial (data : List α) (hs : data.Pairwise (· ≤ ·)) (v : α) (hv : ∃ x ∈ data, v < x) :
    ∃ r, le (sortedArray data) v = .ok r ∧ Selects data [r] (· ≤ v) := by
  obtain ⟨f, u, h1, h2, h3, h4, h5, h6⟩ := (upper_spec data hs v).1 hv
  refine ⟨_, by unfold le; rw [h2]; rfl, ?_⟩
  exact selects_slc (data := data) (P := (· ≤ v)) (lo := 0) (hi := u) (fun k x hx => by rw [h6 k x hx]; omega)

/-- **C51 (`>`, partial).** If some element is greater than `v`, `a > v` selects exactly the positions of the elements greater
than `v`. -/
theorem C51_gt_partial (data : List α) (hs : data.Pairwise (· ≤ ·)) (v : α) (hv : ∃ x ∈ data, v < x) :
    ∃ r, gt (sortedArray data) v = .ok r ∧ Selects data [r] (v < ·) := by
  obtain ⟨f, u, h1, h2, h3, h4, h5, h6⟩ := (upper_spec data hs v).1 hv
  refine ⟨_, by unfold gt; rw [h2]; rfl, ?_⟩
  refine selects_slc (data := data) (P := (v < ·)) (lo := u) (hi := data.length) (fun k x hx => ?_)
  have hl := (List.getElem?_eq_some_iff.1 hx).1
  rw [← not_le, h6 k x hx]; omega

/-- **C51 (`==`, partial).** If some element is greater than `v`, `a == v` selects exactly the positions of the elements equal to `v`. -/
theorem C51_eq_partial (data : List α) (hs : data.Pairwise (· ≤ ·)) (v : α) (hv : ∃ x ∈ data, v < x) :
    ∃ r, eq (sortedArray data) v = .ok r ∧ Selects data [r] (· = v) := by
  obtain ⟨f, u, h1, h2, h3, h4, h5, h6⟩ := (upper_spec data hs v).1 hv
  refine ⟨_, by unfold eq; rw [h2]; rfl, ?_⟩
  rw [h1]
  have key : ∀ k x, data[k]? = some x → (x = v ↔ f ≤ k ∧ k < u) := by
    intro k x hx
    rw [le_antisymm_iff, h6 k x hx, ← not_lt, h5 k x hx]; omega
  dsimp only
  split
  · rename_i h
    intro i
    simp only [positionsAll, List.flatMap_cons, List.flatMap_nil, List.append_nil, Res.positions, List.mem_singleton]
    constructor
    · rintro rfl
      have hk : f < data.length := by omega
      exact ⟨f, data[f], rfl, List.getElem?_eq_getElem hk, (key f _ (List.getElem?_eq_getElem hk)).2 (by omega)⟩
    · rintro ⟨k, x, rfl, hx, hp⟩
      have := (key k x hx).1 hp
      omega
  · split
    · intro i
      simp only [positionsAll, List.flatMap_cons, List.flatMap_nil, List.append_nil, Res.positions, List.not_mem_nil, false_iff]
      rintro ⟨k, x, rfl, hx, hp⟩
      have := (key k x hx).1 hp
      omega
    · exact selects_slc key

/-- **C51 (error).** Exactly if no element is greater than the value (the value is the maximum or above it, or the array is
empty), `<=`, `>` and `==` raise IndexError. -/
theorem C51_error (data : List α) (hs : data.Pairwise (· ≤ ·)) (v : α) (hv : ¬ ∃ x ∈ data, v < x) :
    le (sortedArray data) v = .error .indexError ∧ gt (sortedArray data) v = .error .indexError ∧
      eq (sortedArray data) v = .error .indexError := by
  have h := (upper_spec data hs v).2 hv
  simp only [le, gt, eq, h]
  exact ⟨rfl, rfl, rfl⟩

end sorted

/-- a sorted array with repeated elements -/
def demo : List Int := [1, 3, 3, 5, 8]

/-- non-vacuity -/
example : demo.Pairwise (· ≤ ·) ∧ (∃ x ∈ demo, 3 < x) ∧
    lt (sortedArray demo) 3 = .ok (.slc 0 1) ∧ ge (sortedArray demo) 3 = .ok (.slc 1 5) ∧ le (sortedArray demo) 3 = .ok (.slc 0 3) ∧
    gt (sortedArray demo) 3 = .ok (.slc 3 5) ∧ eq (sortedArray demo) 3 = .ok (.slc 1 3) ∧ eq (sortedArray demo) 5 = .ok (.pos 3) ∧
    eq (sortedArray demo) 4 = .ok .none := by decide

/-- **C51 fails** at the maximum: `a <= 8` and `a == 8` raise though 8 is an element. -/
theorem C51_max_fails : (8 : Int) ∈ demo ∧ le (sortedArray demo) 8 = .error .indexError ∧ gt (sortedArray demo) 8 = .error .indexError ∧
    eq (sortedArray demo) 8 = .error .indexError := by decide

/-- **C52 (partial).** For every LinSpace with positive step and every value not below its start, `<`, `>=`, `<=` and `>` select
exactly the positions of the elements that satisfy the comparison. -/
theorem C52_order_partial (start stop step v : ℚ) (hstep : 0 < step) (hv : start ≤ v) :
    ∃ r1 r2 r3 r4, lt (linSpace start stop step) v = .ok r1 ∧ ge (linSpace start stop step) v = .ok r2 ∧
      le (linSpace start stop step) v = .ok r3 ∧ gt (linSpace start stop step) v = .ok r4 ∧
      ∀ i : Int, (i ∈ r1.positions (linSpace start stop step).len ↔ 0 ≤ i ∧ i < (linSpace start stop step).len ∧ start + step * i < v) ∧
        (i ∈ r2.positions (linSpace start stop step).len ↔ 0 ≤ i ∧ i < (linSpace start stop step).len ∧ v ≤ start + step * i) ∧
        (i ∈ r3.positions (linSpace start stop step).len ↔ 0 ≤ i ∧ i < (linSpace start stop step).len ∧ start + step * i ≤ v) ∧
        (i ∈ r4.positions (linSpace start stop step).len ↔ 0 ≤ i ∧ i < (linSpace start stop step).len ∧ v < start + step * i) := by
  obtain ⟨hf, h0⟩ := lin_find start stop step v hstep hv
  have hu := lin_upper start stop step v hstep hv
  have hfl : 0 ≤ ⌊(v - start) / step⌋ := Int.floor_nonneg.2 h0
  have hcl : 0 ≤ ⌈(v - start) / step⌉ := Int.ceil_nonneg h0
  refine ⟨.slc 0 ⌈(v - start) / step⌉, .slc ⌈(v - start) / step⌉ (linSpace start stop step).len, .slc 0 (⌊(v - start) / step⌋ + 1),
    .slc (⌊(v - start) / step⌋ + 1) (linSpace start stop step).len, by unfold lt; rw [hf], by unfold ge; rw [hf],
    by unfold le; rw [hu]; rfl, by unfold gt; rw [hu]; rfl, fun i => ⟨?_, ?_, ?_, ?_⟩⟩
  · rw [mem_slc (by omega) hcl, lin_lt start step v hstep, Int.lt_ceil]; tauto
  · rw [mem_slc hcl (by omega), ← not_lt (a := start + step * i), lin_lt start step v hstep, ← Int.lt_ceil]
    omega
  · rw [mem_slc (by omega) (by omega), lin_le start step v hstep, ← Int.le_floor]
    omega
  · rw [mem_slc (by omega) (by omega), ← not_le (a := start + step * i), lin_le start step v hstep,
      ← Int.le_floor]
    omega

/-- **C52 (`==`, partial).** For a value from the start up to, not including, the element after the last, `==` selects exactly the
position of the element equal to it, if there is one. -/
theorem C52_eq_partial (start stop step v : ℚ) (hstep : 0 < step) (hv : start ≤ v)
    (hend : v < start + step * ((linSpace start stop step).len : Int)) :
    ∃ r, eq (linSpace start stop step) v = .ok r ∧
      ∀ i : Int, i ∈ r.positions (linSpace start stop step).len ↔ 0 ≤ i ∧ i < (linSpace start stop step).len ∧ start + step * i = v := by
  obtain ⟨hf, h0⟩ := lin_find start stop step v hstep hv
  have hu := lin_upper start stop step v hstep hv
  refine ⟨_, by unfold eq; rw [hu]; rfl, fun i => ?_⟩
  rw [hf]
  have hcl : 0 ≤ ⌈(v - start) / step⌉ := Int.ceil_nonneg h0
  have h1 := Int.floor_le_ceil ((v - start) / step)
  have h2 := Int.ceil_le_floor_add_one ((v - start) / step)
  have hend' : (v - start) / step < (((linSpace start stop step).len : Int) : ℚ) := by
    rw [div_lt_iff₀ hstep]; linarith
  rw [lin_eq start step v hstep]
  dsimp only
  by_cases hc : ⌊(v - start) / step⌋ = ⌈(v - start) / step⌉
  · have hx : ((⌈(v - start) / step⌉ : Int) : ℚ) = (v - start) / step := by
      apply le_antisymm
      · rw [← hc]; exact Int.floor_le _
      · exact Int.le_ceil _
    rw [if_pos (by omega)]
    simp only [Res.positions, List.mem_singleton]
    constructor
    · rintro rfl
      refine ⟨hcl, ?_, hx⟩
      rw [← hx] at hend'
      exact_mod_cast hend'
    · rintro ⟨-, -, h⟩
      rw [← hx] at h
      exact_mod_cast h
  · rw [if_neg (by omega), if_pos (by omega)]
    simp only [Res.positions, List.not_mem_nil, false_iff]
    rintro ⟨-, -, h⟩
    apply hc
    rw [← h]; simp

/-- non-vacuity: 0, 1/2, ... 9/2 and the value 1 -/
example : (linSpace 0 5 (1 / 2)).len = 10 ∧ (0 : ℚ) < 1 / 2 ∧ (0 : ℚ) ≤ 1 ∧
    lt (linSpace 0 5 (1 / 2)) 1 = .ok (.slc 0 2) ∧ le (linSpace 0 5 (1 / 2)) 1 = .ok (.slc 0 3) ∧
    eq (linSpace 0 5 (1 / 2)) 1 = .ok (.pos 2) ∧ eq (linSpace 0 5 (1 / 2)) (6 / 5) = .ok .none := by decide +kernel

/-- **C52 fails** for values below the start (the first element is selected by `< -1/2`, all but the last three by `< -3`), and for
`==` with values beyond the end (a position outside the array is returned). -/
theorem C52_fails : (0 : Int) ∈ (Res.slc 0 1).positions 10 ∧ lt (linSpace 0 10 1) (-1 / 2) = .ok (.slc 0 1) ∧
    (Res.slc 0 (-3)).positions 10 = [0, 1, 2, 3, 4, 5, 6] ∧ lt (linSpace 0 10 1) (-3) = .ok (.slc 0 (-3)) ∧
    eq (linSpace 0 10 1) 12 = .ok (.pos 12) := by decide +kernel

section sorted
variable {α : Type u} [LinearOrder α]

/-- **C79 (`!=`, partial).** If exactly one element equals `v` and some element is greater, `a != v` selects exactly the positions of
the other elements. -/
theorem C79_ne_partial (data : List α) (hs : data.Pairwise (· ≤ ·)) (v : α) (hv : ∃ x ∈ data, v < x) (j : Nat)
    (hj : ∀ k x, data[k]? = some x → (x = v ↔ k = j)) (hin : j < data.length) :
    ∃ rs, ne (sortedArray data) v = .ok rs ∧ Selects data rs (· ≠ v) := by
  obtain ⟨f, u, h1, h2, h3, h4, h5, h6⟩ := (upper_spec data hs v).1 hv
  have key : ∀ k x, data[k]? = some x → (x = v ↔ f ≤ k ∧ k < u) := by
    intro k x hx
    rw [le_antisymm_iff, h6 k x hx, ← not_lt, h5 k x hx]; omega
  have hk : ∀ k, k < data.length → (k = j ↔ f ≤ k ∧ k < u) := fun k hk => by
    rw [← hj k _ (List.getElem?_eq_getElem hk), key k _ (List.getElem?_eq_getElem hk)]
  have hfj : f = j ∧ u = j + 1 := by
    have a := (hk j hin).1 rfl
    have b := (hk f (by omega)).2 (by omega)
    have c := (hk (u - 1) (by omega)).2 (by omega)
    omega
  refine ⟨[.slc 0 j, .slc (j + 1) data.length], ?_, ?_⟩
  · unfold ne eq
    rw [h2, h1]
    simp only [Except.map]
    rw [if_pos (by omega), hfj.1]
    rfl
  · intro i
    simp only [positionsAll, List.flatMap_cons, List.flatMap_nil, List.append_nil, List.mem_append]
    rw [mem_slc (by omega) (by omega), mem_slc (by omega) (by omega)]
    constructor
    · intro h
      have hl : i.toNat < data.length := by omega
      refine ⟨i.toNat, _, by omega, List.getElem?_eq_getElem hl, ?_⟩
      show ¬ _
      rw [hj _ _ (List.getElem?_eq_getElem hl)]; omega
    · rintro ⟨k, x, rfl, hx, hp⟩
      have hp : ¬ x = v := hp
      rw [hj k x hx] at hp
      have hl := (List.getElem?_eq_some_iff.1 hx).1
      omega

/-- **C79 (range, partial).** If some element is in the range from `lo` up to, not including, `hi`, `a == (lo, hi)` selects exactly
the positions of the elements in it. -/
theorem C79_range_partial (data : List α) (hs : data.Pairwise (· ≤ ·)) (lo hi : α) (hv : ∃ x ∈ data, lo ≤ x ∧ x < hi) :
    ∃ r, eqRange (sortedArray data) lo hi = .ok r ∧ Selects data [r] (fun x => lo ≤ x ∧ x < hi) := by
  obtain ⟨f, h1, h2, h3⟩ := find_spec data hs lo
  obtain ⟨g, h4, h5, h6⟩ := find_spec data hs hi
  refine ⟨_, rfl, ?_⟩
  rw [h1, h4]
  obtain ⟨x, hx, hx1, hx2⟩ := hv
  obtain ⟨k, hk, rfl⟩ := List.getElem_of_mem hx
  rw [← not_lt, h3 k _ (List.getElem?_eq_getElem hk)] at hx1
  rw [h6 k _ (List.getElem?_eq_getElem hk)] at hx2
  rw [if_neg (by omega)]
  refine selects_slc (fun k x hx => ?_)
  rw [← not_lt, h3 k x hx, h6 k x hx]; omega

theorem allPos_map (is : List Int) : allPos (is.map Res.pos) = some is := by
  induction is with
  | nil => rfl
  | cons i is ih => simp [allPos, ih]

/-- **C79 (list, partial).** If each value of the list is found at one position and no two of these positions are neighbours,
`a == [...]` selects exactly the positions of the elements equal to a value of the list. -/
theorem C79_list_partial (data : List α) (hs : data.Pairwise (· ≤ ·)) (vs : List α) (hne : vs ≠ [])
    (hv : ∀ v ∈ vs, (∃ x ∈ data, v < x) ∧ ∃ j : Nat, j < data.length ∧ ∀ k x, data[k]? = some x → (x = v ↔ k = j))
    (hadj : ∀ v ∈ vs, ∀ w ∈ vs, ∀ k : Nat, data[k]? = some v → data[k + 1]? ≠ some w) :
    ∃ rs, eqList (sortedArray data) vs = .ok rs ∧ Selects data rs (· ∈ vs) := by
  have each : ∀ vs : List α, (∀ v ∈ vs, (∃ x ∈ data, v < x) ∧ ∃ j : Nat, j < data.length ∧ ∀ k x, data[k]? = some x → (x = v ↔ k = j)) →
      ∃ js : List Nat, eqEach (sortedArray data) vs = .ok (js.map fun j : Nat => Res.pos j) ∧
        (∀ j : Nat, j ∈ js ↔ ∃ v ∈ vs, data[j]? = some v) ∧ js.length = vs.length := by
    intro vs
    induction vs with
    | nil => intro _; exact ⟨[], rfl, by simp, rfl⟩
    | cons v vs ih =>
      intro hv
      obtain ⟨js, h1, h2, h3⟩ := ih (fun w hw => hv w (by simp [hw]))
      obtain ⟨hmax, j, hj, huniq⟩ := hv v (by simp)
      have hev : eq (sortedArray data) v = .ok (.pos j) := by
        obtain ⟨f, u, g1, g2, g3, g4, g5, g6⟩ := (upper_spec data hs v).1 hmax
        have key : ∀ k, k < data.length → (k = j ↔ f ≤ k ∧ k < u) := by
          intro k hk
          rw [← huniq k _ (List.getElem?_eq_getElem hk), le_antisymm_iff, g6 k _ (List.getElem?_eq_getElem hk), ← not_lt,
            g5 k _ (List.getElem?_eq_getElem hk)]
          omega
        have a := (key j hj).1 rfl
        have b := (key f (by omega)).2 (by omega)
        have c := (key (u - 1) (by omega)).2 (by omega)
        unfold eq
        rw [g2, g1]
        simp only [Except.map]
        rw [if_pos (by omega), b]
      refine ⟨j :: js, ?_, ?_, by simp [h3]⟩
      · simp only [eqEach, hev, h1]; rfl
      · intro i
        simp only [List.mem_cons, h2, exists_eq_or_imp]
        have : i = j ↔ data[i]? = some v := by
          constructor
          · rintro rfl
            rw [List.getElem?_eq_getElem hj, (huniq i _ (List.getElem?_eq_getElem hj)).2 rfl]
          · intro h; exact (huniq i v h).1 rfl
        rw [this]
  obtain ⟨js, h1, h2, h3⟩ := each vs hv
  have sel : ∀ rs : List Res, (∃ is : List Int, rs = is.map Res.pos ∧ ∀ i : Int, i ∈ is ↔ ∃ j ∈ js, i = (j : Nat)) →
      Selects data rs (· ∈ vs) := by
    rintro _ ⟨is, rfl, his⟩ i
    have : positionsAll data.length (is.map Res.pos) = is := by
      clear his
      induction is with
      | nil => rfl
      | cons i is ih => simp only [positionsAll, List.map_cons, List.flatMap_cons, Res.positions] at ih ⊢; rw [ih]; rfl
    rw [this, his]
    constructor
    · rintro ⟨j, hj, rfl⟩
      obtain ⟨v, hv', hd⟩ := (h2 j).1 hj
      exact ⟨j, v, rfl, hd, hv'⟩
    · rintro ⟨k, x, rfl, hx, hp⟩
      exact ⟨k, (h2 k).2 ⟨x, hp, hx⟩, rfl⟩
  have hmap : (js.map fun j : Nat => Res.pos j) = (js.map fun j : Nat => (j : Int)).map Res.pos := by simp [List.map_map, Function.comp_def]
  unfold eqList
  rw [h1]
  match hjs : js with
  | [] => simp only [List.length_nil] at h3; exact absurd (List.length_eq_zero_iff.1 h3.symm) hne
  | [j] => exact ⟨_, rfl, sel _ ⟨[(j : Int)], rfl, by simp⟩⟩
  | j1 :: j2 :: rest =>
    simp only [List.map_cons]
    have e : allPos (Res.pos j1 :: Res.pos j2 :: rest.map fun j : Nat => Res.pos j) = some ((j1 :: j2 :: rest).map fun j : Nat => (j : Int)) := by
      have := allPos_map ((j1 :: j2 :: rest).map fun j : Nat => (j : Int))
      rw [← hmap] at this
      exact this
    rw [e]
    simp only
    generalize hso : ((j1 :: j2 :: rest).map fun j : Nat => (j : Int)).insertionSort (· ≤ ·) = so
    have hmem : ∀ i : Int, i ∈ so ↔ ∃ j ∈ j1 :: j2 :: rest, i = (j : Nat) := by
      intro i
      rw [← hso, List.mem_insertionSort, List.mem_map]
      constructor <;> rintro ⟨j, hj, rfl⟩ <;> exact ⟨j, hj, rfl⟩
    cases so with
    | nil =>
      have := (hmem j1).2 ⟨j1, by simp, rfl⟩
      simp at this
    | cons i rest' =>
      simp only
      refine ⟨_, rfl, sel _ ⟨i :: rest', ?_, hmem⟩⟩
      apply mergeLoop_ok
      rw [List.pairwise_iff_getElem]
      intro a b ha hb hab hcon
      obtain ⟨ja, hja, ea⟩ := (hmem ((i :: rest')[a])).1 (List.getElem_mem ha)
      obtain ⟨jb, hjb, eb⟩ := (hmem ((i :: rest')[b])).1 (List.getElem_mem hb)
      obtain ⟨va, hva, da⟩ := (h2 ja).1 hja
      obtain ⟨vb, hvb, db⟩ := (h2 jb).1 hjb
      have : jb = ja + 1 := by omega
      subst this
      exact hadj va hva vb hvb ja da db

end sorted

/-- non-vacuity -/
example : ne (sortedArray demo) 5 = .ok [.slc 0 3, .slc 4 5] ∧ eqRange (sortedArray demo) 2 6 = .ok (.slc 1 4) ∧
    eqList (sortedArray demo) [5, 1] = .ok [.pos 0, .pos 3] ∧ demo.Pairwise (· ≤ ·) ∧
    (∀ v ∈ [(5 : Int), 1], (∃ x ∈ demo, v < x) ∧ ∃ j < demo.length, ∀ k < demo.length, ∀ x ∈ demo[k]?, x = v ↔ k = j) := by decide

/-- **C79 fails** for a list whose values are neighbours in the array: only the first is selected. -/
theorem C79_list_fails : eqList (sortedArray [1, 2, 3, 4]) [1, 2] = .ok [.slc 0 1] ∧
    positionsAll 4 [.slc 0 1] = [0] ∧ eqList (sortedArray [1, 2, 3, 4]) [1, 9] = .error .indexError ∧
    eqList (sortedArray [1, 2, 4, 5]) [1, 3] = .error .typeError := by decide +kernel

/-- **C79 fails** for a range without elements (a position is returned), and for `!=` with a value that is absent or repeated. -/
theorem C79_range_fails : eqRange (sortedArray demo) 6 7 = .ok (.pos 4) ∧ ne (sortedArray demo) 4 = .error .typeError ∧
    ne (sortedArray demo) 3 = .error .typeError := by decide

end Verif.Arrays

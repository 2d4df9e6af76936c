import Verif.Model.Arrays
import Mathlib.Tactic.FieldSimp
import Mathlib.Tactic.Linarith

/-!
# Lemmas about the sorted arrays
-/

namespace Verif.Arrays
open Verif

theorem mem_rangeUp_one {s e i : Int} : i ∈ rangeUp s e 1 ↔ s ≤ i ∧ i < e := by
  unfold rangeUp
  simp only [List.mem_map, List.mem_range]
  constructor
  · rintro ⟨k, hk, rfl⟩
    omega
  · rintro ⟨h1, h2⟩
    exact ⟨(i - s).toNat, by omega, by omega⟩

/-- a slice with bounds that are not negative -/
theorem mem_slc {n : Nat} {lo hi : Int} (hlo : 0 ≤ lo) (hhi : 0 ≤ hi) {i : Int} :
    i ∈ (Res.slc lo hi).positions n ↔ lo ≤ i ∧ i < hi ∧ i < n := by
  have e : PySlice.range ⟨some lo, some hi, none⟩ n = .ok (rangeUp (min lo n) (min hi n) 1) := by
    unfold PySlice.range PySlice.indices
    simp only [Option.getD_none, gt_iff_lt]
    rw [if_neg (by omega : ¬ ((1 : Int) = 0))]
    simp only [Int.zero_lt_one, if_true]
    rw [if_neg (by omega : ¬ lo < 0), if_neg (by omega : ¬ hi < 0)]
  simp only [Res.positions, e, mem_rangeUp_one]
  omega

theorem pyGet_nat {α : Type u} (l : List α) (k : Nat) :
    pyGet l (k : Int) = match l[k]? with | some x => .ok x | none => .error .indexError := by
  unfold pyGet pyPos
  simp only [Int.natCast_nonneg, if_true, Int.toNat_natCast]
  by_cases h : k < l.length
  · simp [h]
  · simp [h]

section sorted
variable {α : Type u} [LinearOrder α]

theorem bsearch_spec (data : List α) (hs : data.Pairwise (· ≤ ·)) (v : α) :
    ∀ (n lo hi : Nat), hi ≤ data.length → lo ≤ hi → hi ≤ lo + n → (∀ k x, k < lo → data[k]? = some x → x < v) →
      (∀ k x, hi ≤ k → data[k]? = some x → v ≤ x) →
      bsearch data v n lo hi ≤ data.length ∧ ∀ k x, data[k]? = some x → (x < v ↔ k < bsearch data v n lo hi) := by
  intro n
  induction n with
  | zero =>
    intro lo hi h1 h2 h3 hl hh
    have e : lo = hi := by omega
    subst e
    simp only [bsearch]
    refine ⟨h1, fun k x hk => ?_⟩
    by_cases hc : k < lo
    · exact ⟨fun _ => hc, fun _ => hl k x hc hk⟩
    · have := hh k x (by omega) hk
      exact ⟨fun h => absurd (lt_of_lt_of_le h this) (lt_irrefl _), fun h => absurd h hc⟩
  | succ n ih =>
    intro lo hi h1 h2 h3 hl hh
    simp only [bsearch]
    by_cases hc : lo < hi
    · rw [if_pos hc]
      have hm : lo + (hi - lo) / 2 < data.length := by omega
      obtain ⟨y, hy⟩ : ∃ y, data[lo + (hi - lo) / 2]? = some y := ⟨_, List.getElem?_eq_getElem hm⟩
      generalize hmid : lo + (hi - lo) / 2 = mid at *
      rw [hy]
      simp only
      have mono : ∀ {i j : Nat} {x z : α}, i ≤ j → data[i]? = some x → data[j]? = some z → x ≤ z := by
        intro i j x z hij hx hz
        rcases Nat.eq_or_lt_of_le hij with e | hlt
        · subst e; rw [hx] at hz; cases hz; exact le_refl _
        · obtain ⟨hi', rfl⟩ := List.getElem?_eq_some_iff.1 hx
          obtain ⟨hj', rfl⟩ := List.getElem?_eq_some_iff.1 hz
          exact List.pairwise_iff_getElem.1 hs i j hi' hj' hlt
      split
      · rename_i hlt
        refine ih (mid + 1) hi h1 (by omega) (by omega) ?_ hh
        intro k x hk hx
        exact lt_of_le_of_lt (mono (by omega) hx hy) hlt
      · rename_i hlt
        refine ih lo mid (by omega) (by omega) (by omega) hl ?_
        intro k x hk hx
        exact le_trans (not_lt.1 hlt) (mono hk hy hx)
    · rw [if_neg hc]
      have e : lo = hi := by omega
      subst e
      refine ⟨h1, fun k x hk => ?_⟩
      by_cases hc : k < lo
      · exact ⟨fun _ => hc, fun _ => hl k x hc hk⟩
      · have := hh k x (by omega) hk
        exact ⟨fun h => absurd (lt_of_lt_of_le h this) (lt_irrefl _), fun h => absurd h hc⟩

/-- `find_point` of a sorted array separates the elements below the value from the others -/
theorem find_spec (data : List α) (hs : data.Pairwise (· ≤ ·)) (v : α) :
    ∃ f : Nat, (sortedArray data).find v = f ∧ f ≤ data.length ∧ ∀ k x, data[k]? = some x → (x < v ↔ k < f) := by
  have := bsearch_spec data hs v data.length 0 data.length (Nat.le_refl _) (Nat.zero_le _) (by omega) (by simp)
    (fun k x hk hx => by rw [List.getElem?_eq_none hk] at hx; simp at hx)
  exact ⟨_, rfl, this⟩

theorem upperLoop_spec (data : List α) (hs : data.Pairwise (· ≤ ·)) (v : α) :
    ∀ (n f : Nat), f ≤ data.length → data.length + 1 ≤ f + n → (∀ k x, k < f → data[k]? = some x → x ≤ v) →
      (∀ k x, f ≤ k → data[k]? = some x → v ≤ x) →
      ((∃ x ∈ data, v < x) → ∃ u : Nat, upperLoop (sortedArray data) v n f = .ok (u : Int) ∧ f ≤ u ∧ u ≤ data.length ∧
        ∀ k x, data[k]? = some x → (x ≤ v ↔ k < u)) ∧
      ((¬ ∃ x ∈ data, v < x) → upperLoop (sortedArray data) v n f = .error .indexError) := by
  intro n
  induction n with
  | zero => intro f h1 h2; omega
  | succ n ih =>
    intro f h1 h2 hl hh
    have e : (sortedArray data).idx (f : Int) = pyGet data (f : Int) := rfl
    simp only [upperLoop, e, pyGet_nat]
    cases hf : data[f]? with
    | none =>
      have hlen : data.length ≤ f := List.getElem?_eq_none_iff.1 hf
      simp only
      refine ⟨?_, fun _ => trivial⟩
      rintro ⟨x, hx, hvx⟩
      obtain ⟨k, hk, rfl⟩ := List.getElem_of_mem hx
      exact absurd hvx (not_lt.2 (hl k _ (by omega) (List.getElem?_eq_getElem hk)))
    | some y =>
      have hfl : f < data.length := (List.getElem?_eq_some_iff.1 hf).1
      simp only
      split
      · rename_i hy
        subst hy
        have := ih (f + 1) hfl (by omega) (by
          intro k x hk hx
          rcases Nat.lt_or_ge k f with h | h
          · exact hl k x h hx
          · have : k = f := by omega
            subst this; rw [hf] at hx; cases hx; exact le_refl _) (fun k x hk hx => hh k x (by omega) hx)
        have ec : ((f + 1 : Nat) : Int) = (f : Int) + 1 := by omega
        rw [ec] at this
        refine ⟨fun h => ?_, this.2⟩
        obtain ⟨u, h3, h4, h5⟩ := this.1 h
        exact ⟨u, h3, by omega, h5⟩
      · rename_i hy
        have hvy : v < y := lt_of_le_of_ne (hh f y (Nat.le_refl _) hf) (Ne.symm hy)
        refine ⟨fun _ => ⟨f, rfl, Nat.le_refl _, h1, ?_⟩, fun hn => absurd ⟨y, List.mem_of_getElem? hf, hvy⟩ hn⟩
        intro k x hx
        constructor
        · intro hxv
          by_contra hk
          obtain ⟨hk', rfl⟩ := List.getElem?_eq_some_iff.1 hx
          obtain ⟨hf', rfl⟩ := List.getElem?_eq_some_iff.1 hf
          rcases Nat.eq_or_lt_of_le (Nat.le_of_not_lt hk) with e | hlt
          · subst e; exact absurd (lt_of_lt_of_le hvy hxv) (lt_irrefl _)
          · exact absurd (lt_of_lt_of_le hvy (le_trans (List.pairwise_iff_getElem.1 hs f k hf' hk' hlt) hxv)) (lt_irrefl _)
        · intro hk; exact hl k x hk hx

theorem upper_spec (data : List α) (hs : data.Pairwise (· ≤ ·)) (v : α) :
    ((∃ x ∈ data, v < x) → ∃ f u : Nat, (sortedArray data).find v = f ∧ upper (sortedArray data) v = .ok (u : Int) ∧ f ≤ u ∧
      u ≤ data.length ∧ (∀ k x, data[k]? = some x → (x < v ↔ k < f)) ∧ ∀ k x, data[k]? = some x → (x ≤ v ↔ k < u)) ∧
    ((¬ ∃ x ∈ data, v < x) → upper (sortedArray data) v = .error .indexError) := by
  obtain ⟨f, h1, h2, h3⟩ := find_spec data hs v
  have := upperLoop_spec data hs v (data.length + 2) f h2 (by omega) (fun k x hk hx => le_of_lt ((h3 k x hx).2 hk))
    (fun k x hk hx => not_lt.1 (fun h => absurd ((h3 k x hx).1 h) (by omega)))
  have e : upper (sortedArray data) v = upperLoop (sortedArray data) v (data.length + 2) f := by
    unfold upper; rw [h1]; rfl
  rw [e]
  refine ⟨fun h => ?_, this.2⟩
  obtain ⟨u, h4, h5, h6, h7⟩ := this.1 h
  exact ⟨f, u, h1, h4, h5, h6, h3, h7⟩

end sorted

/-- `find_point` of a LinSpace, for values not below the start: the number of steps, rounded up -/
theorem lin_find (start stop step v : ℚ) (hstep : 0 < step) (hv : start ≤ v) :
    (linSpace start stop step).find v = ⌈(v - start) / step⌉ ∧ 0 ≤ (v - start) / step := by
  have h0 : 0 ≤ (v - start) / step := div_nonneg (by linarith) (le_of_lt hstep)
  refine ⟨?_, h0⟩
  simp only [linSpace, trunc, if_pos h0]
  split
  · rename_i h
    rw [← h]; simp
  · rename_i h
    symm
    rw [Int.ceil_eq_iff]
    have h1 := Int.floor_le ((v - start) / step)
    have h2 := Int.lt_floor_add_one ((v - start) / step)
    push_cast
    exact ⟨by linarith [lt_of_le_of_ne h1 h], le_of_lt h2⟩

theorem lin_lt (start step v : ℚ) (hstep : 0 < step) (k : Int) : start + step * k < v ↔ (k : ℚ) < (v - start) / step := by
  rw [lt_div_iff₀ hstep]
  constructor <;> intro h <;> nlinarith

theorem lin_eq (start step v : ℚ) (hstep : 0 < step) (k : Int) : start + step * k = v ↔ (k : ℚ) = (v - start) / step := by
  rw [eq_div_iff (ne_of_gt hstep)]
  constructor <;> intro h <;> linarith

theorem lin_le (start step v : ℚ) (hstep : 0 < step) (k : Int) : start + step * k ≤ v ↔ (k : ℚ) ≤ (v - start) / step := by
  rw [le_div_iff₀ hstep]
  constructor <;> intro h <;> nlinarith

theorem lin_upper (start stop step v : ℚ) (hstep : 0 < step) (hv : start ≤ v) :
    upper (linSpace start stop step) v = .ok (⌊(v - start) / step⌋ + 1) := by
  obtain ⟨hf, h0⟩ := lin_find start stop step v hstep hv
  unfold upper
  rw [hf]
  have e : (linSpace start stop step).idx = fun i : Int => .ok (start + step * i) := rfl
  simp only [upperLoop, e]
  by_cases hc : ((⌈(v - start) / step⌉ : Int) : ℚ) = (v - start) / step
  · rw [if_pos ((lin_eq start step v hstep _).2 hc)]
    rw [if_neg]
    · rw [← hc]; simp
    · rw [lin_eq start step v hstep, ← hc]; push_cast; simp
  · rw [if_neg (by rw [lin_eq start step v hstep]; exact hc)]
    congr 1
    rw [Int.ceil_eq_iff]
    have h1 := Int.floor_le ((v - start) / step)
    have h2 := Int.lt_floor_add_one ((v - start) / step)
    push_cast
    refine ⟨?_, le_of_lt h2⟩
    have : ((⌊(v - start) / step⌋ : Int) : ℚ) ≠ (v - start) / step := by
      intro h
      apply hc
      rw [← h]; simp
    linarith [lt_of_le_of_ne h1 this]

/-- the merge loop keeps the positions if no two of them are neighbours -/
theorem mergeLoop_ok (i : Int) (rest : List Int) (h : (i :: rest).Pairwise (fun a b => b - a ≠ 1)) :
    mergeLoop (.one i) rest = (i :: rest).map Res.pos := by
  induction rest generalizing i with
  | nil => rfl
  | cons b rest ih =>
    simp only [mergeLoop]
    rw [List.pairwise_cons] at h
    rw [if_neg (h.1 b (by simp)), ih b h.2]
    rfl

end Verif.Arrays

import Verif.Model.Sparse

/-!
# C224-C225: arrays of unsigned integers and sparse matrices
-/

namespace Verif.Sparse
open Verif

/-- the numbers of an array have its dtype -/
def Fits (a : Arr) : Prop := match a.dt with
  | .int b => ∀ v ∈ a.vals, -(2 ^ (b - 1) : Int) ≤ v ∧ v < 2 ^ (b - 1)
  | .uint b => ∀ v ∈ a.vals, 0 ≤ v ∧ v < 2 ^ b
  | .other => True

theorem map_mod {b : Nat} {l : List Int} (h : ∀ v ∈ l, 0 ≤ v ∧ v < (2 ^ b : Int)) : l.map (· % (2 ^ b : Int)) = l := by
  induction l with
  | nil => rfl
  | cons a l ih =>
    rw [List.map_cons, ih fun v hv => h v (List.mem_cons_of_mem _ hv)]
    have := h a (List.mem_cons_self ..)
    rw [Int.emod_eq_of_lt this.1 this.2]

theorem two_pow_pred_le (b : Nat) : (2 ^ (b - 1) : Int) ≤ 2 ^ b := by
  have : 2 ^ (b - 1) ≤ 2 ^ b := Nat.pow_le_pow_right (by decide) (Nat.sub_le _ _)
  exact_mod_cast this

theorem any_neg {l : List Int} : (l.any (· < 0)) = false ↔ ∀ v ∈ l, 0 ≤ v := by
  simp [List.any_eq_false]

/-- the conversion keeps the numbers and the size of the elements, and the result is unsigned -/
theorem C224_values (a u : Arr) (hf : Fits a) (h : toUint a = .ok u) : u.vals = a.vals ∧ Fits u ∧ ∃ b, u.dt = .uint b ∧ (a.dt = .uint b ∨ a.dt = .int b) := by
  obtain ⟨dt, l⟩ := a
  cases dt with
  | other => cases h
  | uint b => cases h; exact ⟨rfl, hf, b, rfl, .inl rfl⟩
  | int b =>
    unfold toUint at h
    simp only at h
    split at h
    · cases h
    · rename_i hn
      cases h
      have hn := any_neg.1 (by simpa using hn)
      have hl : ∀ v ∈ l, 0 ≤ v ∧ v < (2 ^ b : Int) := fun v hv => ⟨hn v hv, Int.lt_of_lt_of_le (hf v hv).2 (two_pow_pred_le b)⟩
      have hm := map_mod hl
      refine ⟨hm, ?_, b, rfl, .inr rfl⟩
      show ∀ v ∈ l.map (· % (2 ^ b : Int)), _
      rw [hm]
      exact hl

/-- arrays that are converted: integers, none of them negative -/
theorem C224_accepts (a : Arr) (hf : Fits a) : (toUint a).isOk = true ↔ a.dt ≠ .other ∧ ∀ v ∈ a.vals, 0 ≤ v := by
  obtain ⟨dt, l⟩ := a
  cases dt with
  | other => exact ⟨(fun h => nomatch h), fun h => (h.1 rfl).elim⟩
  | uint b => exact ⟨fun _ => ⟨by simp, fun v hv => (hf v hv).1⟩, fun _ => rfl⟩
  | int b =>
    unfold toUint
    simp only
    by_cases hn : l.any (· < 0) = true
    · rw [if_pos hn]
      refine ⟨(fun h => nomatch h), fun h => ?_⟩
      rw [any_neg.2 h.2] at hn
      cases hn
    · rw [if_neg hn]
      exact ⟨fun _ => ⟨by simp, any_neg.1 (by simpa using hn)⟩, fun _ => rfl⟩

example : Fits ⟨.int 8, [1, 127]⟩ ∧ toUint ⟨.int 8, [1, 127]⟩ = .ok ⟨.uint 8, [1, 127]⟩ ∧ toUint ⟨.int 8, [1, -127]⟩ = .error .valueError :=
  ⟨by intro v hv; simp at hv; rcases hv with rfl | rfl <;> decide, by decide +kernel, by decide +kernel⟩

/-- converting twice is converting once -/
theorem C224_idem (a u : Arr) (h : toUint a = .ok u) : toUint u = .ok u := by
  obtain ⟨dt, l⟩ := a
  cases dt with
  | other => cases h
  | uint b => cases h; rfl
  | int b =>
    unfold toUint at h
    simp only at h
    split at h
    · cases h
    · cases h; rfl

/-- lists that are converted: those with an element whose numbers are from 0 below `2 ^ 64` -/
theorem C224_lists_partial (l : List Int) (hl : l ≠ []) : (∃ u, toUint (ofList l) = .ok u ∧ u.vals = l) ↔ ∀ v ∈ l, 0 ≤ v ∧ v < 2 ^ 64 := by
  have he : l.isEmpty = false := by cases l <;> first | exact (hl rfl).elim | rfl
  unfold ofList
  rw [if_neg (by rw [he]; simp)]
  by_cases h1 : (l.all fun i => decide (-(2 ^ 63 : Int) ≤ i) && decide (i < (2 ^ 63 : Int))) = true
  · rw [if_pos h1]
    have h1' : ∀ v ∈ l, -(2 ^ 63 : Int) ≤ v ∧ v < 2 ^ 63 := by
      intro v hv
      have := List.all_eq_true.1 h1 v hv
      simpa using this
    constructor
    · rintro ⟨u, hu, -⟩ v hv
      have := ((C224_accepts ⟨.int 64, l⟩ h1').1 (by rw [hu]; rfl)).2 v hv
      have := h1' v hv
      omega
    · intro h
      have hok := (C224_accepts ⟨.int 64, l⟩ h1').2 ⟨by simp, fun v hv => (h v hv).1⟩
      cases hu : toUint ⟨.int 64, l⟩ with
      | error e => rw [hu] at hok; cases hok
      | ok u => exact ⟨u, rfl, (C224_values ⟨.int 64, l⟩ u h1' hu).1⟩
  · rw [if_neg h1]
    by_cases h2 : (l.all fun i => decide (0 ≤ i) && decide (i < (2 ^ 64 : Int))) = true
    · rw [if_pos h2]
      refine ⟨fun _ v hv => ?_, fun _ => ⟨_, rfl, rfl⟩⟩
      have := List.all_eq_true.1 h2 v hv
      simpa using this
    · rw [if_neg h2]
      refine ⟨?_, fun h => (h2 ?_).elim⟩
      · rintro ⟨u, hu, -⟩
        cases hu
      · rw [List.all_eq_true]
        intro v hv
        simpa using h v hv

example : ∃ u, toUint (ofList [0, 3, 2 ^ 63]) = .ok u ∧ u.vals = [0, 3, 2 ^ 63] := ⟨⟨.uint 64, [0, 3, 2 ^ 63]⟩, by decide +kernel, rfl⟩

/-- a list without elements is not an array of integers -/
theorem C224_empty_list_fails : toUint (ofList []) = .error .valueError ∧ toUint ⟨.int 64, []⟩ = .ok ⟨.uint 64, []⟩ := by decide +kernel

/-! ## matrices -/

theorem starts_length (n : Nat) (a : List (List Int)) : (starts n a).length = a.length + 1 := by
  induction a generalizing n with
  | nil => rfl
  | cons r rs ih => show (starts _ rs).length + 1 = _; rw [ih]; rfl

theorem starts_getD (n : Nat) (a : List (List Int)) (i : Nat) (hi : i ≤ a.length) : (starts n a).getD i 0 = n + ((a.take i).flatMap rowEntries).length := by
  induction a generalizing n i with
  | nil =>
    have : i = 0 := Nat.le_zero.1 hi
    subst this
    rfl
  | cons r rs ih =>
    cases i with
    | zero => rfl
    | succ i =>
      show (starts _ rs).getD i 0 = _
      rw [ih _ i (Nat.le_of_succ_le_succ hi)]
      simp [List.flatMap_cons, Nat.add_assoc]

theorem starts_last (n : Nat) (a : List (List Int)) : (starts n a).getLastD 0 = n + (a.flatMap rowEntries).length := by
  have h := starts_getD n a a.length (Nat.le_refl _)
  rw [List.take_length] at h
  rw [← h, List.getLastD_eq_getLast?, List.getLast?_eq_getElem?, starts_length]
  simp [List.getD_eq_getElem?_getD]

theorem zip_fst_snd {α β : Type} (l : List (α × β)) : (l.map (·.1)).zip (l.map (·.2)) = l := by
  induction l with
  | nil => rfl
  | cons a l ih => simp [ih]

theorem sum_row (row : List Int) (k j : Nat) :
    (((row.zipIdx k).filter fun p => p.1 ≠ 0).map fun p => if p.2 = j then p.1 else 0).sum = if k ≤ j then row.getD (j - k) 0 else 0 := by
  induction row generalizing k with
  | nil => simp
  | cons x xs ih =>
    have hx : (((x :: xs).zipIdx k).filter (fun p => p.1 ≠ 0)).map (fun p : Int × Nat => if p.2 = j then p.1 else 0) =
        (if x = 0 then [] else [if k = j then x else 0]) ++ ((xs.zipIdx (k + 1)).filter fun p => p.1 ≠ 0).map fun p : Int × Nat => if p.2 = j then p.1 else 0 := by
      rw [List.zipIdx_cons, List.filter_cons]
      by_cases h : x = 0
      · simp [h]
      · simp [h]
    rw [hx, List.sum_append, ih]
    have hs : (if x = 0 then [] else [if k = j then x else 0]).sum = if k = j then x else 0 := by
      by_cases h : x = 0
      · simp [h]
      · simp [h]
    rw [hs]
    by_cases h1 : k = j
    · subst h1
      simp
      omega
    · by_cases h2 : k ≤ j
      · have h3 : k + 1 ≤ j := by omega
        rw [if_neg h1, if_pos h2, if_pos h3]
        have : j - k = (j - (k + 1)) + 1 := by omega
        rw [this]
        simp
      · have h3 : ¬ k + 1 ≤ j := by omega
        rw [if_neg h1, if_neg h2, if_neg h3]
        rfl

/-- the sparse matrix of an array has the elements of the array -/
theorem C225_dense (cols : Nat) (a : List (List Int)) (m : Csr) (h : new (.dense cols a) none none none = .ok m) (i : Nat) (hi : i < a.length) (j : Nat) :
    m.entry i j = (a[i]).getD j 0 := by
  cases h
  unfold Csr.entry ofDense
  simp only
  rw [zip_fst_snd, starts_getD 0 a (i + 1) hi, starts_getD 0 a i (Nat.le_of_lt hi)]
  have hsplit : a.flatMap rowEntries = (a.take i).flatMap rowEntries ++ (rowEntries a[i] ++ (a.drop (i + 1)).flatMap rowEntries) := by
    conv => lhs; rw [← List.take_append_drop i a, List.drop_eq_getElem_cons hi]
    rw [List.flatMap_append, List.flatMap_cons]
  have htake : (a.take (i + 1)).flatMap rowEntries = (a.take i).flatMap rowEntries ++ rowEntries a[i] := by
    rw [List.take_succ_eq_append_getElem hi, List.flatMap_append]
    simp
  rw [htake, hsplit, Nat.zero_add, Nat.zero_add, ← List.append_assoc, List.take_left', List.drop_left']
  · have := sum_row a[i] 0 j
    simpa [rowEntries] using this
  · rfl
  · rfl

example : ((new (.dense 3 [[0, 5, 0], [0, 0, 0], [7, 0, 8]]) none none none).toOption.map fun m => (m.data, m.indices, m.indptr, m.entry 2 2)) =
    some ([5, 7, 8], [1, 0, 2], [0, 1, 1, 3], 8) := by decide +kernel

/-- what every matrix satisfies: one start per row and the end, as many columns as elements, nothing after the end -/
def Ok (m : Csr) : Prop :=
  m.indptr.length = m.rows + 1 ∧ m.indptr.getD 0 0 = 0 ∧ m.indices.length = m.data.length ∧ m.indptr.getLastD 0 = m.indices.length

/-- every matrix that is created satisfies it -/
theorem C225_ok (data : Input) (i p s : Option Arr) (m : Csr) (hd : ∀ k, data = .mat k → Ok k) (h : new data i p s = .ok m) : Ok m := by
  cases data with
  | mat k => cases h; exact hd _ rfl
  | cube => cases h
  | dense cols a =>
    cases h
    refine ⟨starts_length 0 a, ?_, by simp [ofDense], ?_⟩
    · show (starts 0 a).getD 0 0 = 0
      rw [starts_getD 0 a 0 (Nat.zero_le _)]
      rfl
    · show (starts 0 a).getLastD 0 = _
      rw [starts_last]
      simp [ofDense]
  | vec l =>
    unfold new at h
    simp only at h
    split at h
    · split at h
      · cases h
      split at h
      · cases h
      split at h
      · cases h
      · unfold ofParts at h
        split at h
        · cases h
        split at h
        · cases h
        split at h
        · cases h
        split at h
        · cases h
        rename_i h1 h2 h3 h4
        cases h
        refine ⟨by simpa using h1, by simpa using h2, ?_, ?_⟩
        · simp only [List.length_take]; omega
        · simp only [List.length_take]; omega
      · cases h
    · cases h

theorem checkArr_nat {b : Nat} (l : List Nat) (h : ∀ v ∈ l, v < 2 ^ b) :
    toUint ⟨.int b, l.map Int.ofNat⟩ = .ok ⟨.uint b, l.map Int.ofNat⟩ ∧ checkArr ⟨.uint b, l.map Int.ofNat⟩ = .ok l := by
  have hr : ∀ v ∈ l.map Int.ofNat, 0 ≤ v ∧ v < (2 ^ b : Int) := by
    intro v hv
    obtain ⟨n, hn, rfl⟩ := List.mem_map.1 hv
    refine ⟨Int.natCast_nonneg n, ?_⟩
    have := h n hn
    show (n : Int) < _
    exact_mod_cast this
  refine ⟨?_, ?_⟩
  · unfold toUint
    simp only
    rw [if_neg (by rw [any_neg.2 fun v hv => (hr v hv).1]; simp)]
    unfold astypeUint
    rw [map_mod hr]
  · show Except.ok ((l.map Int.ofNat).map Int.toNat) = _
    rw [List.map_map]
    exact congrArg _ ((List.map_congr_left fun n _ => rfl).trans (List.map_id l))

/-- a matrix that is written and read is the same matrix -/
theorem C225_round_trip (bits : Nat) (m : Csr) (hm : Ok m) (hi : ∀ v ∈ m.indices, v < 2 ^ bits) (hp : ∀ v ∈ m.indptr, v < 2 ^ bits) (hr : m.rows < 2 ^ 64) (hc : m.cols < 2 ^ 64) :
    reread bits m = .ok m := by
  obtain ⟨h1, h2, h3, h4⟩ := hm
  have hs : ∀ v ∈ [m.rows, m.cols], v < 2 ^ 64 := by
    intro v hv
    simp at hv
    rcases hv with rfl | rfl
    · exact hr
    · exact hc
  unfold reread exposed
  rw [(checkArr_nat _ hi).1, (checkArr_nat _ hp).1, (checkArr_nat _ hs).1]
  simp only [new]
  rw [(checkArr_nat _ hp).2, (checkArr_nat _ hi).2, (checkArr_nat _ hs).2]
  show ofParts m.data m.indices m.indptr m.rows m.cols = _
  unfold ofParts
  rw [if_neg (by simp [h1]), if_neg (fun h => h h2), if_neg (by simp [h3]), if_neg (by omega), h4, List.take_length, h3, List.take_length]

example : Ok ⟨[5, 7, 8], [1, 0, 2], [0, 1, 1, 3], 3, 3⟩ ∧ reread 32 ⟨[5, 7, 8], [1, 0, 2], [0, 1, 1, 3], 3, 3⟩ = .ok ⟨[5, 7, 8], [1, 0, 2], [0, 1, 1, 3], 3, 3⟩ :=
  ⟨by unfold Ok; decide +kernel, by decide +kernel⟩

/-- arguments that are missing, have a negative number, or a shape that has not two numbers are rejected -/
theorem C225_rejects (l : List Int) (i p s : Option Arr) (h : i = none ∨ p = none ∨ s = none ∨ (∃ a, (i = some a ∨ p = some a ∨ s = some a) ∧ ∃ b v, a.dt = .int b ∧ v ∈ a.vals ∧ v < 0) ∨
    ∃ a, s = some a ∧ a.vals.length ≠ 2) : new (.vec l) i p s = .error .valueError := by
  have hneg : ∀ a : Arr, (∃ b v, a.dt = .int b ∧ v ∈ a.vals ∧ v < 0) → checkArr a = .error .valueError := by
    rintro ⟨dt, l⟩ ⟨b, v, hb, hv, hn⟩
    simp only at hb hv
    subst hb
    have : (l.any (· < 0)) = true := List.any_eq_true.2 ⟨v, hv, by simpa using hn⟩
    unfold checkArr toUint
    simp only [this, if_true]
  have herr : ∀ (a : Arr) (e : Err), checkArr a = .error e → e = .valueError := by
    rintro ⟨dt, l⟩ e h
    unfold checkArr at h
    split at h
    · rename_i e' he
      cases h
      cases dt with
      | uint b => cases he
      | other => cases he; rfl
      | int b =>
        unfold toUint at he
        simp only at he
        split at he <;> cases he
        rfl
    · cases h
  have hlen : ∀ (a : Arr) (k : List Nat), checkArr a = .ok k → k.length = a.vals.length := by
    rintro ⟨dt, l⟩ k h
    unfold checkArr at h
    split at h
    · cases h
    · rename_i u hu
      cases h
      cases dt with
      | uint b => cases hu; simp
      | other => cases hu
      | int b =>
        unfold toUint at hu
        simp only at hu
        split at hu
        · cases hu
        · cases hu; simp [astypeUint]
  unfold new
  simp only
  split
  · rename_i p i s
    split
    · rename_i e he; rw [herr _ e he]
    rename_i p' hp
    split
    · rename_i e he; rw [herr _ e he]
    rename_i i' hi
    split
    · rename_i e he; rw [herr _ e he]
    · rename_i r c hs
      rcases h with h | h | h | ⟨a, h, hv⟩ | ⟨a, h, hv⟩
      · cases h
      · cases h
      · cases h
      · have := hneg a hv
        rcases h with h | h | h <;> cases h <;> simp_all
      · cases h
        exact (hv (hlen _ _ hs).symm).elim
    · rfl
  · rfl

example : new (.vec [1]) (some ⟨.int 64, [0]⟩) none (some ⟨.int 64, [1, 1]⟩) = .error .valueError ∧
    new (.vec [1]) (some ⟨.int 64, [-1]⟩) (some ⟨.int 64, [0, 1]⟩) (some ⟨.int 64, [1, 1]⟩) = .error .valueError := by decide +kernel

/-- columns are not compared with the shape: a matrix with one column can have an element in column 5 -/
theorem C225_columns_fails : ∃ m, new (.vec [9]) (some ⟨.int 64, [5]⟩) (some ⟨.int 64, [0, 1]⟩) (some ⟨.int 64, [1, 1]⟩) = .ok m ∧ m.cols = 1 ∧ m.entry 0 5 = 9 :=
  ⟨⟨[9], [5], [0, 1], 1, 1⟩, by decide +kernel, rfl, by decide +kernel⟩

end Verif.Sparse

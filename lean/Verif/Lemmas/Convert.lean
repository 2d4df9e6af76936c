import Verif.Model.Convert
import Mathlib.Data.List.Forall2

/-! Auxiliary facts about conversion and dimension labels. -/

namespace Verif.Convert

theorem prefix3_inj {a b : Kind} (h : a.prefix3 = b.prefix3) : a = b := by
  cases a <;> cases b <;> first | rfl | (exact absurd h (by decide))

theorem mkDT_ok {k : Kind} {n : Nat} {d : DT} (h : mkDT k n = .ok d) : d = ⟨k, n⟩ := by
  unfold mkDT at h
  split at h
  · cases h; rfl
  · cases h

theorem map_ok {x : Except Err DT} {b : Bool} {p : DT × Bool} (h : x.map (·, b) = .ok p) :
    x = .ok p.1 ∧ p.2 = b := by
  cases x with
  | error e => cases h
  | ok a => cases h; exact ⟨rfl, rfl⟩

theorem resolve_spec {g s r : DT} {w : Bool} (h : resolve g s = .ok (r, w)) :
    r.kind = s.kind ∧ g.size ≤ r.size ∧ s.size ≤ r.size := by
  unfold resolve at h
  split at h
  · rename_i he; cases h; subst he; exact ⟨rfl, Nat.le_refl _, Nat.le_refl _⟩
  · split at h
    · rename_i hle; cases h; exact ⟨rfl, hle, Nat.le_refl _⟩
    · rename_i hlt
      split at h
      · rename_i hp; cases h; exact ⟨prefix3_inj hp, Nat.le_refl _, by omega⟩
      · split at h
        · rename_i hk
          obtain ⟨h1, _⟩ := map_ok h
          have := mkDT_ok h1
          simp only at this
          subst this
          exact ⟨hk.symm, Nat.le_refl _, by simp only; omega⟩
        · rename_i hk
          obtain ⟨h1, _⟩ := map_ok h
          have := mkDT_ok h1
          simp only at this
          subst this
          exact ⟨hk.symm, by simp only; omega, by simp only; omega⟩
        · rename_i hk
          obtain ⟨h1, _⟩ := map_ok h
          have := mkDT_ok h1
          simp only at this
          subst this
          exact ⟨hk.symm, Nat.le_refl _, by simp only; omega⟩
        · cases h

theorem resolve_silent {g s r : DT} (h : resolve g s = .ok (r, false)) : r = g := by
  unfold resolve at h
  split at h
  · rename_i he; cases h; exact he.symm
  · split at h
    · cases h
    · split at h
      · cases h; rfl
      · split at h
        · obtain ⟨_, h2⟩ := map_ok h; cases h2
        · obtain ⟨_, h2⟩ := map_ok h; cases h2
        · obtain ⟨_, h2⟩ := map_ok h; cases h2
        · cases h

/-! ### labels -/

theorem dimsOk_iff {s d : List (Option Nat)} (hl : s.length = d.length) :
    dimsOk s d = true ↔ ∀ j : Nat, ∀ n, s[j]? = some (some n) → d[j]? = some (some n) := by
  induction s generalizing d with
  | nil =>
    cases d with
    | nil => simp [dimsOk]
    | cons b d => simp at hl
  | cons a s ih =>
    cases d with
    | nil => simp at hl
    | cons b d =>
      have hl' : s.length = d.length := by simpa using hl
      unfold dimsOk
      constructor
      · intro h j n hj
        split at h
        · rename_i hok
          cases j with
          | zero =>
            simp only [List.getElem?_cons_zero, Option.some.injEq] at hj ⊢
            subst hj
            simp only [dimOk, beq_iff_eq] at hok
            exact hok.symm
          | succ j =>
            simp only [List.getElem?_cons_succ] at hj ⊢
            exact (ih hl').1 h j n hj
        · cases h
      · intro h
        have h0 : dimOk a b = true := by
          cases a with
          | none => rfl
          | some n =>
            have := h 0 n rfl
            simp only [List.getElem?_cons_zero, Option.some.injEq] at this
            simp [dimOk, this]
        rw [if_pos h0]
        refine (ih hl').2 ?_
        intro j n hj
        have := h (j + 1) n (by simpa using hj)
        simpa using this

theorem mem_matchInds {d : List (Option Nat)} {l : List (List (Option Nat))} {i k : Nat} :
    k ∈ matchInds d i l ↔ ∃ j s, k = i + j ∧ l[j]? = some s ∧ shapeOk s d = true := by
  induction l generalizing i with
  | nil => simp [matchInds]
  | cons s l ih =>
    have step : (∃ j t, k = i + j ∧ (s :: l)[j]? = some t ∧ shapeOk t d = true) ↔
        (k = i ∧ shapeOk s d = true) ∨ (∃ j t, k = i + 1 + j ∧ l[j]? = some t ∧ shapeOk t d = true) := by
      constructor
      · rintro ⟨j, t, h1, h2, h3⟩
        cases j with
        | zero =>
          simp only [List.getElem?_cons_zero, Option.some.injEq] at h2
          subst h2
          exact .inl ⟨by omega, h3⟩
        | succ j =>
          simp only [List.getElem?_cons_succ] at h2
          exact .inr ⟨j, t, by omega, h2, h3⟩
      · rintro (⟨h1, h2⟩ | ⟨j, t, h1, h2, h3⟩)
        · exact ⟨0, s, by omega, rfl, h2⟩
        · exact ⟨j + 1, t, by omega, by simpa using h2, h3⟩
    rw [step]
    unfold matchInds
    split
    · rename_i hs
      rw [List.mem_cons, ih]
      constructor
      · rintro (h | h)
        · exact .inl ⟨h, hs⟩
        · exact .inr h
      · rintro (h | h)
        · exact .inl h.1
        · exact .inr h
    · rename_i hs
      rw [ih]
      constructor
      · exact .inr
      · rintro (h | h)
        · exact absurd h.2 hs
        · exact h

theorem matchInds_sorted {d : List (Option Nat)} {l : List (List (Option Nat))} {i : Nat} :
    (matchInds d i l).Pairwise (· < ·) := by
  induction l generalizing i with
  | nil => simp [matchInds]
  | cons s l ih =>
    unfold matchInds
    split
    · refine List.pairwise_cons.2 ⟨?_, ih⟩
      intro k hk
      obtain ⟨j, _, h, _⟩ := mem_matchInds.1 hk
      omega
    · exact ih

theorem minOf_le {a : Nat} {l : List Nat} : minOf a l ≤ a ∧ ∀ b ∈ l, minOf a l ≤ b := by
  induction l generalizing a with
  | nil => simp [minOf]
  | cons c l ih =>
    unfold minOf
    have := @ih (min a c)
    refine ⟨by omega, ?_⟩
    intro b hb
    rcases List.mem_cons.1 hb with rfl | hb
    · omega
    · exact this.2 b hb

theorem minOf_mem {a : Nat} {l : List Nat} : minOf a l ∈ a :: l := by
  induction l generalizing a with
  | nil => simp [minOf]
  | cons c l ih =>
    unfold minOf
    have := @ih (min a c)
    rcases List.mem_cons.1 this with h | h
    · rw [h]
      rcases Nat.le_total a c with h' | h'
      · rw [Nat.min_eq_left h']; exact List.mem_cons_self
      · rw [Nat.min_eq_right h']; exact List.mem_cons_of_mem _ List.mem_cons_self
    · exact List.mem_cons_of_mem _ (List.mem_cons_of_mem _ h)

theorem indexOf_spec {x : Nat} {l : List Nat} (h : x ∈ l) :
    l[indexOf x l]? = some x ∧ ∀ j : Nat, j < indexOf x l → l[j]? ≠ some x := by
  induction l with
  | nil => cases h
  | cons a l ih =>
    unfold indexOf
    by_cases ha : a = x
    · simp [ha]
    · rw [if_neg ha]
      have hx : x ∈ l := by
        rcases List.mem_cons.1 h with h | h
        · exact absurd h.symm ha
        · exact h
      obtain ⟨h1, h2⟩ := ih hx
      refine ⟨by simpa using h1, ?_⟩
      intro j hj
      cases j with
      | zero => simpa using ha
      | succ j => simpa using h2 j (by omega)

/-- The index the several-matches branch picks. -/
theorem best_spec {f : Nat → Nat} {k : Nat} {ks : List Nat} :
    let counts := (k :: ks).map f
    let p := indexOf (minOf (counts.headD 0) counts.tail) counts
    ∃ b, (k :: ks)[p]? = some b ∧ (∀ i ∈ k :: ks, f b ≤ f i) ∧
      ∀ j : Nat, j < p → ∀ i, (k :: ks)[j]? = some i → f b < f i := by
  intro counts p
  have hc : counts = f k :: ks.map f := rfl
  have hmem : minOf (counts.headD 0) counts.tail ∈ counts := by
    rw [hc]; exact minOf_mem
  obtain ⟨h1, h2⟩ := indexOf_spec hmem
  have hmin : ∀ i ∈ k :: ks, minOf (counts.headD 0) counts.tail ≤ f i := by
    intro i hi
    have hle := @minOf_le (f k) (ks.map f)
    rw [hc]
    rcases List.mem_cons.1 hi with rfl | hi
    · exact hle.1
    · exact hle.2 _ (List.mem_map.2 ⟨i, hi, rfl⟩)
  change counts[p]? = _ at h1
  have h3 : ((k :: ks).map f)[p]? = some (minOf (counts.headD 0) counts.tail) := h1
  rw [List.getElem?_map] at h3
  cases hb : (k :: ks)[p]? with
  | none => rw [hb] at h3; cases h3
  | some b =>
    rw [hb] at h3
    simp only [Option.map_some, Option.some.injEq] at h3
    refine ⟨b, rfl, fun i hi => by rw [h3]; exact hmin i hi, ?_⟩
    intro j hj i hi
    have hne := h2 j hj
    have hji : counts[j]? = some (f i) := by
      show ((k :: ks).map f)[j]? = _
      rw [List.getElem?_map, hi]; rfl
    rw [hji] at hne
    have := hmin i (List.mem_of_getElem? hi)
    rw [h3]
    have : f i ≠ minOf (counts.headD 0) counts.tail := fun h => hne (by rw [h])
    omega

end Verif.Convert

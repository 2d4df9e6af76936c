import Verif.Model.RefData
import Verif.Lemmas.Arrays

/-!
# Lemmas about datasets of references
-/

namespace Verif.RefData
open Verif

theorem mapE_ok_iff {α β : Type} {f : α → Except Err β} {l : List α} {bs : List β} :
    mapE f l = .ok bs ↔ List.Forall₂ (fun a b => f a = .ok b) l bs := by
  induction l generalizing bs with
  | nil =>
    simp only [mapE, Except.ok.injEq]
    constructor
    · rintro rfl
      exact .nil
    · intro h
      cases h
      rfl
  | cons a l ih =>
    unfold mapE
    constructor
    · intro h
      split at h
      · cases h
      · next b hb =>
        split at h
        · cases h
        · next bs' h' =>
          cases h
          exact .cons hb (ih.1 h')
    · intro h
      cases h with
      | cons hb h =>
        rw [hb]
        simp only
        rw [ih.2 h]

theorem mapE_total {α β : Type} {f : α → Except Err β} {l : List α} (h : ∀ a ∈ l, ∃ b, f a = .ok b) : ∃ bs, mapE f l = .ok bs := by
  induction l with
  | nil => exact ⟨[], rfl⟩
  | cons a l ih =>
    obtain ⟨b, hb⟩ := h a (List.mem_cons_self ..)
    obtain ⟨bs, hbs⟩ := ih fun a ha => h a (List.mem_cons_of_mem _ ha)
    refine ⟨b :: bs, ?_⟩
    unfold mapE
    rw [hb]
    simp only
    rw [hbs]

theorem mapE_comp {α β γ : Type} {f : α → Except Err β} {g : β → γ} {h : α → Except Err γ} (hfg : ∀ a, h a = (f a).map g)
    (l : List α) : mapE h l = (mapE f l).map (List.map g) := by
  induction l with
  | nil => rfl
  | cons a l ih =>
    unfold mapE
    rw [hfg a]
    cases f a with
    | error e => rfl
    | ok b =>
      simp only [Except.map]
      rw [ih]
      cases mapE f l <;> rfl

theorem mapE_congr {α β : Type} {f g : α → Except Err β} {l : List α} (h : ∀ a ∈ l, f a = g a) : mapE f l = mapE g l := by
  induction l with
  | nil => rfl
  | cons a l ih =>
    unfold mapE
    rw [h a (List.mem_cons_self ..), ih fun a ha => h a (List.mem_cons_of_mem _ ha)]

theorem mapE_append {α β : Type} {f : α → Except Err β} {l m : List α} {bs cs : List β} (h : mapE f l = .ok bs)
    (h' : mapE f m = .ok cs) : mapE f (l ++ m) = .ok (bs ++ cs) := by
  induction l generalizing bs with
  | nil => cases h; exact h'
  | cons a l ih =>
    simp only [mapE] at h
    cases ha : f a with
    | error e => simp [ha] at h
    | ok b =>
      cases hl : mapE f l with
      | error e => simp [ha, hl] at h
      | ok bs' =>
        simp only [ha, hl, Except.ok.injEq] at h
        subst h
        simp only [List.cons_append, mapE, ha, ih hl]

theorem pyGet_of {α : Type} {l : List α} {k : Nat} {a : α} (h : l[k]? = some a) : pyGet l (k : Int) = .ok a := by
  rw [Arrays.pyGet_nat, h]

theorem refItem_int {io : IO} {k : Kind} {data : List Ref} {i : Int} {r : Ref} (h : pyGet data i = .ok r) :
    refItem io k data (.int i) = match getRef io k r with
      | .error e => .error e
      | .ok o => .ok (.one o) := by
  unfold refItem getitem
  simp only [evaluateKey, h5get, h]
  all_goals (cases getRef io k r <;> rfl)

theorem refItem_int_ok {io : IO} {k : Kind} {data : List Ref} {i : Int} {r : Ref} {o : Obj} (h : pyGet data i = .ok r)
    (ho : getRef io k r = .ok o) : refItem io k data (.int i) = .ok (.one o) := by
  rw [refItem_int h, ho]

/-- positions and elements -/
theorem forall2_get {α β γ : Type} {P : α → β → Prop} {Q : β → γ → Prop} {l : List α} {m : List β} {n : List γ}
    (h1 : List.Forall₂ P l m) (h2 : List.Forall₂ Q m n) : List.Forall₂ (fun a c => ∃ b, P a b ∧ Q b c) l n := by
  induction h1 generalizing n with
  | nil => cases h2; exact .nil
  | cons h h1 ih =>
    cases h2 with
    | cons h' h2 => exact .cons ⟨_, h, h'⟩ (ih h2)

theorem pyGet_h5pos {α : Type} {data : List α} {i : Int} {k : Nat} (h : h5pos data.length i = .ok k) :
    ∃ a, data[k]? = some a ∧ pyGet data i = .ok a := by
  unfold h5pos at h
  split at h
  · cases h
  · next k' hk =>
    cases h
    have hlt : k < data.length := by
      unfold pyPos at hk
      split at hk <;> split at hk <;> cases hk <;> omega
    refine ⟨data[k], List.getElem?_eq_getElem hlt, ?_⟩
    unfold pyGet
    rw [hk]
    simp only
    rw [List.getElem?_eq_getElem hlt]

theorem filterMap_get {α : Type} {data : List α} {is : List Int} {ks : List Nat}
    (h : List.Forall₂ (fun i k => h5pos data.length i = .ok k) is ks) :
    List.Forall₂ (fun i a => pyGet data i = .ok a) is (ks.filterMap (data[·]?)) := by
  induction h with
  | nil => exact .nil
  | cons h _ ih =>
    obtain ⟨a, h1, h2⟩ := pyGet_h5pos h
    rw [List.filterMap_cons_some h1]
    exact .cons h2 ih

theorem range_get {α : Type} (data : List α) :
    List.Forall₂ (fun (i : Nat) a => data[i]? = some a) (List.range data.length) data := by
  rw [List.forall₂_iff_get]
  refine ⟨by simp, ?_⟩
  intro i h1 h2
  simp

theorem forall2_imp {α β : Type} {P Q : α → β → Prop} {l : List α} {m : List β} (h : List.Forall₂ P l m)
    (hi : ∀ a ∈ l, ∀ b, P a b → Q a b) : List.Forall₂ Q l m := by
  induction h with
  | nil => exact .nil
  | cons h _ ih =>
    exact .cons (hi _ (List.mem_cons_self ..) _ h) (ih fun a ha => hi a (List.mem_cons_of_mem _ ha))

/-! ### Sorted arrays -/

variable {α : Type} [LinearOrder α]

theorem drop_take_eq {data : List α} {P : α → Bool} {lo hi : Nat} (hlo : lo ≤ hi) (hhi : hi ≤ data.length)
    (h : ∀ k x, data[k]? = some x → (P x = true ↔ lo ≤ k ∧ k < hi)) : (data.take hi).drop lo = data.filter P := by
  induction data generalizing lo hi with
  | nil => simp
  | cons a data ih =>
    have h0 := h 0 a rfl
    cases hi with
    | zero =>
      have : List.filter P (a :: data) = [] := by
        rw [List.filter_eq_nil_iff]
        intro x hx hp
        obtain ⟨k, hk⟩ := List.mem_iff_getElem?.1 hx
        have := (h k x hk).1 hp
        omega
      rw [this]
      simp
    | succ hi =>
      rw [List.take_succ_cons]
      have hhi' : hi ≤ data.length := by simpa using hhi
      cases lo with
      | zero =>
        have ha : P a = true := h0.2 ⟨Nat.le_refl _, Nat.succ_pos _⟩
        rw [List.filter_cons_of_pos ha, List.drop_zero]
        congr 1
        have := ih (Nat.zero_le _) hhi' fun k x hk => by
          have := h (k + 1) x (by simpa using hk)
          rw [this]
          omega
        simpa using this
      | succ lo =>
        have ha : ¬ P a = true := fun hp => by have := h0.1 hp; omega
        rw [List.filter_cons_of_neg ha, List.drop_succ_cons]
        exact ih (by omega) hhi' fun k x hk => by
          have := h (k + 1) x (by simpa using hk)
          rw [this]
          omega

theorem rangeUp_one {lo hi : Nat} : rangeUp (lo : Int) (hi : Int) 1 = (List.range' lo (hi - lo)).map fun k : Nat => (k : Int) := by
  unfold rangeUp
  rw [show (((hi : Int) - lo + 1 - 1) / 1).toNat = hi - lo by omega, List.range'_eq_map_range, List.map_map]
  apply List.map_congr_left
  intro a _
  simp

theorem mapE_range' {β : Type} {data : List β} (lo hi : Nat) (hhi : hi ≤ data.length) :
    mapE (pyGet data) ((List.range' lo (hi - lo)).map fun k : Nat => (k : Int)) = .ok ((data.take hi).drop lo) := by
  rw [mapE_ok_iff, List.forall₂_iff_get]
  refine ⟨by simp; omega, ?_⟩
  intro i h1 h2
  simp only [List.get_eq_getElem, List.getElem_map, List.getElem_range', List.getElem_drop, List.getElem_take]
  apply pyGet_of
  rw [show lo + 1 * i = lo + i by omega]
  apply List.getElem?_eq_getElem

theorem slc_elems {data : List α} {lo hi : Nat} (h1 : lo ≤ data.length) (h2 : hi ≤ data.length) :
    mapE (pyGet data) ((Arrays.Res.slc lo hi).positions data.length) = .ok ((data.take hi).drop lo) := by
  have e : PySlice.range ⟨some (lo : Int), some (hi : Int), none⟩ data.length = .ok (rangeUp (lo : Int) (hi : Int) 1) := by
    unfold PySlice.range PySlice.indices
    simp only [Option.getD_none]
    rw [if_neg (by decide)]
    simp only [show ¬ (lo : Int) < 0 by omega, show ¬ (hi : Int) < 0 by omega, if_false, gt_iff_lt, Int.zero_lt_one, if_true]
    rw [min_eq_left (by omega), min_eq_left (by omega)]
  unfold Arrays.Res.positions
  simp only
  rw [e]
  simp only
  rw [rangeUp_one]
  exact mapE_range' lo hi h2

end Verif.RefData

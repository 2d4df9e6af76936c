import Verif.Model.GenericChunks
import Verif.Base.Tac

namespace Verif.GenericChunks
open Verif

/-- intervals of one axis -/
def axis (m b : Nat) : List (Nat × Nat) := (lowers m b).zip (uppers m b)

theorem length_lowers {m b : Nat} : (lowers m b).length = (m + b - 1) / b := by
  simp [lowers, pyRange]

theorem length_uppers {m b : Nat} (hb : 0 < b) (hm : b ≤ m) : (uppers m b).length = (m + b - 1) / b := by
  simp only [uppers, pyRange, List.length_append, List.length_map, List.length_range, List.length_singleton]
  have : m + b - 1 = (m - b + b - 1) + b := by omega
  rw [this, Nat.add_div_right _ hb]

theorem axis_getElem? {m b : Nat} (hb : 0 < b) (hm : b ≤ m) (k : Nat) (lo hi : Nat) :
    (axis m b)[k]? = some (lo, hi) ↔ k < (m + b - 1) / b ∧ lo = b * k ∧ hi = min (b * (k + 1)) m := by
  have hlen : (axis m b).length = (m + b - 1) / b := by
    unfold axis; rw [List.length_zip, length_lowers, length_uppers hb hm, Nat.min_self]
  by_cases hk : k < (m + b - 1) / b
  · have h1 : (lowers m b)[k]? = some (b * k) := by
      simp [lowers, pyRange, hk]
    have hn : (m + b - 1) / b = (m - b + b - 1) / b + 1 := by
      have : m + b - 1 = (m - b + b - 1) + b := by omega
      rw [this, Nat.add_div_right _ hb]
    have h2 : (uppers m b)[k]? = some (min (b * (k + 1)) m) := by
      unfold uppers
      by_cases hlast : k < (m - b + b - 1) / b
      · rw [List.getElem?_append_left (by simpa [pyRange] using hlast)]
        have : b * (k + 1) ≤ m := by
          have h3 : b * (k + 1) ≤ m - b + b - 1 := by
            calc b * (k + 1) ≤ b * ((m - b + b - 1) / b) := Nat.mul_le_mul_left _ hlast
              _ ≤ _ := Nat.mul_div_le _ _
          omega
        simp only [pyRange, List.getElem?_map, List.getElem?_range hlast, Option.map_some, Option.some.injEq]
        rw [Nat.min_eq_left this]; ring
      · have hk' : k = (m - b + b - 1) / b := by omega
        rw [List.getElem?_append_right (by simp [pyRange]; omega)]
        have : m ≤ b * (k + 1) := by
          rw [hk']
          have := Nat.div_add_mod (m - b + b - 1) b
          have h5 := Nat.mod_lt (m - b + b - 1) hb
          have : b * ((m - b + b - 1) / b + 1) = b * ((m - b + b - 1) / b) + b := by ring
          omega
        simp only [pyRange, List.length_map, List.length_range]
        rw [hk'] at this ⊢
        simp [Nat.min_eq_right this]
    unfold axis
    rw [List.getElem?_zip_eq_some, h1, h2]
    simp only [Option.some.injEq, hk, true_and]
    exact and_congr eq_comm eq_comm
  · rw [List.getElem?_eq_none (by omega)]
    simp [hk]

/-- `k`-th interval containing `i` is the one with `k = i / b` -/
theorem axis_unique {m b : Nat} (hb : 0 < b) (hm : b ≤ m) {i : Nat} (hi : i < m) (k : Nat) (lo up : Nat)
    (h : (axis m b)[k]? = some (lo, up)) : (lo ≤ i ∧ i < up) ↔ k = i / b := by
  obtain ⟨-, rfl, rfl⟩ := (axis_getElem? hb hm k lo up).1 h
  constructor
  · rintro ⟨h1, h2⟩
    symm
    rw [Nat.div_eq_iff hb]
    have : i < b * (k + 1) := lt_of_lt_of_le h2 (Nat.min_le_left _ _)
    have e : b * (k + 1) = b * k + b := by ring
    constructor <;> (rw [Nat.mul_comm]; omega)
  · rintro rfl
    refine ⟨Nat.mul_div_le _ _, Nat.lt_min.2 ⟨?_, hi⟩⟩
    have := Nat.div_add_mod i b
    have h2 := Nat.mod_lt i hb
    have e : b * (i / b + 1) = b * (i / b) + b := by ring
    omega

theorem countP_eq_one_of {α} (p : α → Bool) : ∀ (l : List α) (k : Nat), k < l.length →
    (∀ (j : Nat) x, l[j]? = some x → (p x = true ↔ j = k)) → l.countP p = 1 := by
  intro l
  induction l with
  | nil => intro k hk; simp at hk
  | cons a l ih =>
    intro k hk h
    cases k with
    | zero =>
      have h0 := (h 0 a (by simp)).2 rfl
      rw [List.countP_cons_of_pos h0, List.countP_eq_zero.2]
      intro x hx hc
      obtain ⟨j, hj⟩ := List.mem_iff_getElem?.1 hx
      have := (h (j + 1) x (by simpa using hj)).1 hc
      omega
    | succ k =>
      have h0 : ¬ p a = true := fun hc => by have := (h 0 a (by simp)).1 hc; omega
      rw [List.countP_cons_of_neg h0]
      refine ih k (by simpa using hk) (fun j x hj => ?_)
      rw [h (j + 1) x (by simpa using hj)]; omega

theorem axis_count {m b : Nat} (hb : 0 < b) (hm : b ≤ m) {i : Nat} (hi : i < m) :
    (axis m b).countP (fun s => decide (s.1 ≤ i ∧ i < s.2)) = 1 := by
  have hlen : (axis m b).length = (m + b - 1) / b := by
    unfold axis; rw [List.length_zip, length_lowers, length_uppers hb hm, Nat.min_self]
  refine countP_eq_one_of _ _ (i / b) ?_ ?_
  · rw [hlen, Nat.lt_iff_add_one_le, Nat.le_div_iff_mul_le hb]
    have := Nat.div_mul_le_self i b
    have e : (i / b + 1) * b = i / b * b + b := by ring
    omega
  · intro j x hx
    rw [decide_eq_true_eq]
    exact axis_unique hb hm hi j x.1 x.2 hx

/-! ### products -/

theorem product_zip {α β : Type} : ∀ (ls : List (List α)) (us : List (List β)),
    List.Forall₂ (fun l u => l.length = u.length) ls us →
    ((product ls).zip (product us)).map (fun lu => lu.1.zip lu.2) =
      product ((ls.zip us).map (fun x => x.1.zip x.2)) := by
  intro ls us h
  induction h with
  | nil => simp [product]
  | @cons l u ls us hlu htail ih =>
    simp only [product, List.zip_cons_cons, List.map_cons]
    rw [← ih]
    have hlen : (product ls).length = (product us).length := by
      clear ih
      induction htail with
      | nil => rfl
      | @cons a b as bs hab _ ih2 => simp [product, List.length_flatMap, ih2, hab]
    generalize product ls = P at *
    generalize product us = Q at *
    clear ih htail
    induction l generalizing u with
    | nil => simp
    | cons a l ihl =>
      cases u with
      | nil => simp at hlu
      | cons b u =>
        simp only [List.flatMap_cons, List.zip_cons_cons]
        rw [List.zip_append (by simp [hlen]), List.map_append, ihl (by simpa using hlu)]
        congr 1
        rw [List.zip_map, List.map_map, List.map_map]
        rfl

theorem product_length {α : Type} (ls : List (List α)) :
    (product ls).length = (ls.map List.length).foldr (· * ·) 1 := by
  induction ls with
  | nil => rfl
  | cons l ls ih => simp [product, List.length_flatMap, ih]

theorem mem_product {α : Type} {ls : List (List α)} {x : List α} :
    x ∈ product ls ↔ List.Forall₂ (fun a l => a ∈ l) x ls := by
  induction ls generalizing x with
  | nil => simp [product]
  | cons l ls ih =>
    simp only [product, List.mem_flatMap, List.mem_map]
    constructor
    · rintro ⟨a, ha, y, hy, rfl⟩; exact .cons ha (ih.1 hy)
    · intro h
      cases h with
      | cons ha hy => exact ⟨_, ha, _, ih.2 hy, rfl⟩

/-- the shapes as far as the assertions constrain them -/
def Good (x : Nat × Nat) : Prop := 0 < x.2 ∧ x.2 ≤ x.1

theorem selections_eq {maxshape buffer : List Nat} (h : ∀ x ∈ maxshape.zip buffer, Good x) :
    selections maxshape buffer = product ((maxshape.zip buffer).map (fun x => axis x.1 x.2)) := by
  unfold selections
  rw [product_zip]
  · congr 1
    rw [List.zip_map, List.map_map]
    clear h
    induction maxshape.zip buffer with
    | nil => rfl
    | cons x l ih => simp only [List.zip_cons_cons, List.map_cons, ih]; rfl
  · generalize maxshape.zip buffer = l at h
    induction l with
    | nil => exact .nil
    | cons x l ih =>
      refine .cons ?_ (ih (fun y hy => h y (List.mem_cons_of_mem _ hy)))
      obtain ⟨h1, h2⟩ := h x List.mem_cons_self
      rw [length_lowers, length_uppers h1 h2]

def headTail {α : Type} (p : α → Bool) (q : List α → Bool) : List α → Bool
  | [] => true
  | a :: as => p a && q as

theorem countP_flatMap_map {α : Type} (p : α → Bool) (q : List α → Bool) (l : List α) (P : List (List α)) :
    (l.flatMap (fun x => P.map (x :: ·))).countP (headTail p q) =
      l.countP p * P.countP q := by
  induction l with
  | nil => simp
  | cons a l ih =>
    rw [List.flatMap_cons, List.countP_append, ih, List.countP_map]
    by_cases h : p a = true
    · rw [List.countP_cons_of_pos h]
      have : (headTail p q ∘ fun x => a :: x) = q := by
        funext x; simp [headTail, h]
      rw [this]; ring
    · rw [List.countP_cons_of_neg h]
      have : (headTail p q ∘ fun x => a :: x) =
          fun _ => false := by
        funext x; simp [headTail, h]
      rw [this]; simp

theorem selections_count {maxshape buffer : List Nat} (h : ∀ x ∈ maxshape.zip buffer, Good x) (idx : List Nat)
    (hidx : List.Forall₂ (· < ·) idx maxshape) :
    (selections maxshape buffer).countP (fun s => inSel s idx) = 1 := by
  rw [selections_eq h]
  induction hidx generalizing buffer with
  | nil => simp [product, inSel]
  | @cons i m is ms him _ ih =>
    cases buffer with
    | nil => simp [product, inSel]
    | cons b bs =>
      simp only [List.zip_cons_cons, List.map_cons, product]
      obtain ⟨h1, h2⟩ := h (m, b) (by simp)
      have h3 := ih (buffer := bs) (fun x hx => h x (by simp [hx]))
      have : (fun s : Sel => inSel s (i :: is)) =
          headTail (fun s : Nat × Nat => decide (s.1 ≤ i ∧ i < s.2)) (fun s => inSel s is) := by
        funext s; cases s <;> rfl
      rw [this, countP_flatMap_map, h3, axis_count h1 h2 him]

theorem good_of_accepts {maxshape chunk buffer : List Nat} (h : accepts maxshape chunk buffer = true) :
    ∀ x ∈ maxshape.zip buffer, Good x := by
  unfold accepts at h
  simp only [Bool.and_eq_true, List.all_eq_true, decide_eq_true_eq] at h
  intro x hx
  refine ⟨h.1.1.1.1 x.2 (List.of_mem_zip hx).2, h.1.1.2 (x.2, x.1) ?_⟩
  rw [List.mem_iff_getElem?] at hx ⊢
  obtain ⟨k, hk⟩ := hx
  rw [List.getElem?_zip_eq_some] at hk
  exact ⟨k, by rw [List.getElem?_zip_eq_some]; exact ⟨hk.2, hk.1⟩⟩

theorem abs_rel (sel : Sel) (i : List Nat) (h : inSel sel i = true) : absIndex sel (relIndex sel i) = i := by
  induction sel generalizing i with
  | nil => simp [relIndex, absIndex]
  | cons s ss ih =>
    cases i with
    | nil => simp [relIndex, absIndex]
    | cons i is =>
      simp only [inSel, Bool.and_eq_true, decide_eq_true_eq] at h
      simp only [relIndex, absIndex, ih is h.2, List.cons.injEq, and_true]
      omega

theorem writeAll_spec {α : Type} (src : Arr α) (sels : List Sel) (i : List Nat) :
    writeAll src sels i = if sels.any (fun s => inSel s i) then some (src i) else none := by
  unfold writeAll
  have key : ∀ (sels : List Sel) (ds : Arr (Option α)), (ds i = none ∨ ds i = some (src i)) →
      (sels.foldl (fun ds sel => writeSel ds sel (getData src sel)) ds) i =
        if sels.any (fun s => inSel s i) then some (src i) else ds i := by
    intro sels
    induction sels with
    | nil => intro ds _; simp
    | cons s sels ih =>
      intro ds hds
      rw [List.foldl_cons]
      have h1 : writeSel ds s (getData src s) i = if inSel s i then some (src i) else ds i := by
        unfold writeSel getData
        by_cases h : inSel s i = true
        · simp [h, abs_rel s i h]
        · simp [h]
      rw [ih _ (by rw [h1]; split; exact Or.inr rfl; exact hds), h1, List.any_cons]
      by_cases h : inSel s i = true <;> simp [h]
  rw [key sels _ (Or.inl rfl)]

end Verif.GenericChunks

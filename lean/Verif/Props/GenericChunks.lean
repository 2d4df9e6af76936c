import Verif.Lemmas.GenericChunks

/-!
# Properties of `GenericDataChunkIterator`: C07, C08, C65
-/

namespace Verif.GenericChunks
open Verif

/-- `idx` is an index of an array of shape `shape` -/
def InBounds (idx shape : List Nat) : Prop := idx.length = shape.length ∧
  ∀ (k i m : Nat), idx[k]? = some i → shape[k]? = some m → i < m

/-- the selection designates the index: in every axis mentioned, lower ≤ index < upper -/
def Selects (s : Sel) (idx : List Nat) : Prop :=
  ∀ (k : Nat) (lo hi i : Nat), s[k]? = some (lo, hi) → idx[k]? = some i → lo ≤ i ∧ i < hi

private theorem inSel_iff (s : Sel) (idx : List Nat) : inSel s idx = true ↔ Selects s idx := by
  induction s generalizing idx with
  | nil => simp [inSel, Selects]
  | cons r s ih =>
    cases idx with
    | nil => simp [inSel, Selects]
    | cons i idx =>
      simp only [inSel, Bool.and_eq_true, decide_eq_true_eq, ih]
      constructor
      · rintro ⟨h1, h2⟩ k lo hi j hk hj
        cases k with
        | zero => simp at hk hj; subst hk hj; exact h1
        | succ k => exact h2 k lo hi j (by simpa using hk) (by simpa using hj)
      · intro h
        exact ⟨h 0 r.1 r.2 i (by simp) (by simp), fun k lo hi j hk hj => h (k + 1) lo hi j (by simpa using hk) (by simpa using hj)⟩

private theorem inBounds_forall₂ {idx shape : List Nat} (h : InBounds idx shape) : List.Forall₂ (· < ·) idx shape := by
  obtain ⟨h1, h2⟩ := h
  induction idx generalizing shape with
  | nil => cases shape with
    | nil => exact .nil
    | cons _ _ => simp at h1
  | cons i idx ih =>
    cases shape with
    | nil => simp at h1
    | cons m shape =>
      exact .cons (h2 0 i m (by simp) (by simp)) (ih (by simpa using h1)
        (fun k i m hi hm => h2 (k + 1) i m (by simpa using hi) (by simpa using hm)))

private theorem exists_unique_of_countP {α} (p : α → Bool) (l : List α) (h : l.countP p = 1) :
    ∃! n : Nat, ∃ x, l[n]? = some x ∧ p x = true := by
  induction l with
  | nil => simp at h
  | cons a l ih =>
    by_cases hp : p a = true
    · rw [List.countP_cons_of_pos hp] at h
      have h0 : l.countP p = 0 := by omega
      rw [List.countP_eq_zero] at h0
      refine ⟨0, ⟨a, by simp, hp⟩, ?_⟩
      rintro n ⟨x, hx, hpx⟩
      cases n with
      | zero => rfl
      | succ n => exact absurd hpx (h0 x (List.mem_of_getElem? (by simpa using hx)))
    · rw [List.countP_cons_of_neg hp] at h
      obtain ⟨n, ⟨x, hx, hpx⟩, hu⟩ := ih h
      refine ⟨n + 1, ⟨x, by simpa using hx, hpx⟩, ?_⟩
      rintro m ⟨y, hy, hpy⟩
      cases m with
      | zero => simp at hy; subst hy; exact absurd hpy hp
      | succ m => rw [hu m ⟨y, by simpa using hy, hpy⟩]

/-- **C07 (exact cover).** For every array shape and every accepted buffer shape, every index of the array is selected by
exactly one of the generated selections. -/
theorem C07_exact_cover (maxshape chunk buffer : List Nat) (hacc : accepts maxshape chunk buffer = true)
    (idx : List Nat) (hidx : InBounds idx maxshape) :
    ∃! n : Nat, ∃ s, (selections maxshape buffer)[n]? = some s ∧ Selects s idx := by
  have := exists_unique_of_countP _ _
    (selections_count (good_of_accepts hacc) idx (inBounds_forall₂ hidx))
  simpa only [inSel_iff] using this

example : accepts [10, 7] [2, 1] [4, 7] = true ∧
    selections [10, 7] [4, 7] = [[(0, 4), (0, 7)], [(4, 8), (0, 7)], [(8, 10), (0, 7)]] := by decide

private theorem forall₂_get {α β} {R : α → β → Prop} {a : List α} {b : List β} (h : List.Forall₂ R a b) (k : Nat) :
    ∀ x y, a[k]? = some x → b[k]? = some y → R x y := by
  induction h generalizing k with
  | nil => intro x y hx; simp at hx
  | cons h1 _ ih =>
    intro x y hx hy
    cases k with
    | zero => simp at hx hy; subst hx hy; exact h1
    | succ k => exact ih k x y (by simpa using hx) (by simpa using hy)

/-- **C07 (inside the array, within the buffer).** Every selection is non-empty, lies inside the array and is at most as
long as the buffer in every axis; it has one slice per axis of the buffer shape (no more than the array has). -/
theorem C07_within (maxshape chunk buffer : List Nat) (hacc : accepts maxshape chunk buffer = true)
    (s : Sel) (hs : s ∈ selections maxshape buffer) :
    s.length = min maxshape.length buffer.length ∧
    ∀ (k : Nat) lo hi, s[k]? = some (lo, hi) →
      ∃ m b, maxshape[k]? = some m ∧ buffer[k]? = some b ∧ lo < hi ∧ hi ≤ m ∧ hi - lo ≤ b := by
  have hg := good_of_accepts hacc
  rw [selections_eq hg, mem_product] at hs
  have hlen := hs.length_eq
  refine ⟨by simpa using hlen, ?_⟩
  intro k lo hi hk
  have hk' : k < min maxshape.length buffer.length := by
    have : k < s.length := by
      by_contra hc; rw [List.getElem?_eq_none (by omega)] at hk; simp at hk
    rw [hlen] at this
    simpa using this
  have hm : maxshape[k]? = some (maxshape[k]'(by omega)) := List.getElem?_eq_getElem _
  have hb : buffer[k]? = some (buffer[k]'(by omega)) := List.getElem?_eq_getElem _
  generalize maxshape[k]'(by omega) = m at hm
  generalize buffer[k]'(by omega) = b at hb
  have hz : (maxshape.zip buffer)[k]? = some (m, b) := by rw [List.getElem?_zip_eq_some]; exact ⟨hm, hb⟩
  obtain ⟨hb0, hbm⟩ := hg (m, b) (List.mem_of_getElem? hz)
  have hmem := forall₂_get hs k (lo, hi) (axis m b) hk (by rw [List.getElem?_map, hz]; rfl)
  obtain ⟨j, hj⟩ := List.mem_iff_getElem?.1 hmem
  obtain ⟨hj1, rfl, rfl⟩ := (axis_getElem? hb0 hbm j lo hi).1 hj
  simp only at hb0 hbm hj1 ⊢
  refine ⟨m, b, hm, hb, ?_, Nat.min_le_right _ _, ?_⟩
  · have hjm : b * j < m := by
      have h1 : (j + 1) * b ≤ m + b - 1 := (Nat.le_div_iff_mul_le hb0).1 hj1
      have e : (j + 1) * b = b * j + b := by ring
      omega
    have e : b * (j + 1) = b * j + b := by ring
    omega
  · have e : b * (j + 1) = b * j + b := by ring
    have := Nat.min_le_left (b * (j + 1)) m
    omega

example : [(4, 8), (0, 7)] ∈ selections [10, 7] [4, 7] := by decide

/-- **C07 (count).** The number of selections is `num_buffers`, the product over the axes of ⌈extent / buffer⌉. -/
theorem C07_count (maxshape chunk buffer : List Nat) (hacc : accepts maxshape chunk buffer = true) :
    (selections maxshape buffer).length = numBuffers maxshape buffer := by
  have hg := good_of_accepts hacc
  rw [selections_eq hg, product_length, numBuffers]
  clear hacc
  induction maxshape generalizing buffer with
  | nil => cases buffer <;> rfl
  | cons m ms ih =>
    cases buffer with
    | nil => rfl
    | cons b bs =>
      simp only [List.zip_cons_cons, List.map_cons, List.foldr_cons]
      rw [ih bs (fun x hx => hg x (by simp [hx]))]
      obtain ⟨h1, h2⟩ := hg (m, b) (by simp)
      congr 1
      unfold axis ceilDiv
      rw [List.length_zip, length_lowers, length_uppers h1 h2, Nat.min_self]

example : numBuffers [10, 7] [4, 7] = 3 := by decide

/-- **C08.** Writing the buffers of all selections into an empty dataset, in any order, reproduces the source array: every
index of the array holds the source's value.  (`order` is any permutation of the generated selections.) -/
theorem C08_write_back {α : Type} (maxshape chunk buffer : List Nat) (hacc : accepts maxshape chunk buffer = true)
    (src : Arr α) (order : List Sel) (hperm : order.Perm (selections maxshape buffer))
    (idx : List Nat) (hidx : InBounds idx maxshape) : writeAll src order idx = some (src idx) := by
  rw [writeAll_spec, if_pos]
  have := (selections_count (good_of_accepts hacc) idx (inBounds_forall₂ hidx))
  rw [← hperm.countP_eq] at this
  have hpos : 0 < order.countP (fun s => inSel s idx) := by omega
  obtain ⟨s, hs, hi⟩ := List.countP_pos_iff.1 hpos
  exact List.any_eq_true.2 ⟨s, hs, hi⟩

example : writeAll (fun i => i.sum) (selections [3, 2] [2, 1]).reverse [2, 1] = some 3 := by decide

/-- **C08 (nothing else).** Indices outside the array are not written, if the buffer shape has as many axes as the
array. -/
theorem C08_nothing_else {α : Type} (maxshape chunk buffer : List Nat) (hacc : accepts maxshape chunk buffer = true)
    (hrank : maxshape.length ≤ buffer.length) (src : Arr α) (order : List Sel)
    (hperm : order.Perm (selections maxshape buffer)) (idx : List Nat) (hlen : idx.length = maxshape.length)
    (hidx : ¬ InBounds idx maxshape) : writeAll src order idx = none := by
  rw [writeAll_spec, if_neg]
  rw [List.any_eq_true]
  rintro ⟨s, hs, hsel⟩
  rw [inSel_iff] at hsel
  obtain ⟨h1, h2⟩ := C07_within maxshape chunk buffer hacc s (hperm.mem_iff.1 hs)
  refine hidx ⟨hlen, fun k i m hi hm => ?_⟩
  have hk : k < s.length := by
    have : k < maxshape.length := by
      by_contra hc; rw [List.getElem?_eq_none (by omega)] at hm; simp at hm
    omega
  have hsk : s[k]? = some (s[k].1, s[k].2) := List.getElem?_eq_getElem hk
  obtain ⟨m', b, hm', -, -, hle, -⟩ := h2 k _ _ hsk
  rw [hm] at hm'; simp only [Option.some.injEq] at hm'; subst hm'
  exact lt_of_lt_of_le (hsel k _ _ i hsk hi).2 hle

example : writeAll (fun i => i.sum) (selections [3, 2] [2, 1]) [3, 0] = none := by decide

/-! ### C65: default shapes -/

/-- The shapes documented as valid for a chunk: no empty axis, none larger than the array. -/
def ValidChunk (chunk maxshape : List Nat) : Prop :=
  chunk.length = maxshape.length ∧
  ∀ (k c m : Nat), chunk[k]? = some c → maxshape[k]? = some m → 0 < c ∧ c ≤ m

/-- **C65 (buffer).** For every valid chunk shape and every scale factor, the default buffer shape passes the
constructor's shape assertions. -/
theorem C65_default_buffer (k : Nat) (chunk maxshape : List Nat) (hv : ValidChunk chunk maxshape) :
    accepts maxshape chunk (defaultBufferShape k chunk maxshape) = true := by
  obtain ⟨hlen, hv⟩ := hv
  have hz : ∀ x ∈ chunk.zip maxshape, 0 < x.1 ∧ x.1 ≤ x.2 := by
    intro x hx
    obtain ⟨j, hj⟩ := List.mem_iff_getElem?.1 hx
    rw [List.getElem?_zip_eq_some] at hj
    exact hv j x.1 x.2 hj.1 hj.2
  clear hv
  unfold accepts defaultBufferShape
  induction chunk generalizing maxshape with
  | nil => cases maxshape <;> simp at hlen ⊢
  | cons c cs ih =>
    cases maxshape with
    | nil => simp at hlen
    | cons m ms =>
      have hi := ih ms (by simpa using hlen) (fun x hx => hz x (by simp [hx]))
      obtain ⟨h1, h2⟩ := hz (c, m) (by simp)
      simp only [Bool.and_eq_true] at hi
      simp only at h1 h2
      simp only [List.zip_cons_cons, List.map_cons, List.all_cons, Bool.and_eq_true, decide_eq_true_eq, hi, and_true,
        Bool.or_eq_true]
      have hkc : c ≤ max (k * c) c := Nat.le_max_right _ _
      refine ⟨⟨⟨⟨by omega, h2⟩, Nat.min_le_right _ _⟩, Nat.le_min.2 ⟨hkc, h2⟩⟩, ?_⟩
      by_cases hle : max (k * c) c ≤ m
      · right
        rw [Nat.min_eq_left hle]
        refine ⟨by omega, ?_⟩
        rcases Nat.le_total (k * c) c with h | h
        · rw [Nat.max_eq_right h]; exact Nat.mod_self c
        · rw [Nat.max_eq_left h]; exact Nat.mul_mod_left k c
      · left; omega

example : ValidChunk [2, 3] [10, 7] ∧ defaultBufferShape 2 [2, 3] [10, 7] = [4, 6] := by
  refine ⟨⟨rfl, ?_⟩, by decide⟩
  intro k c m hc hm
  match k with
  | 0 => simp at hc hm; omega
  | 1 => simp at hc hm; omega
  | k + 2 => simp at hc

private theorem prod_pos {v : List Nat} (h : ∀ x ∈ v, 0 < x) : 0 < prod v := by
  induction v with
  | nil => exact Nat.one_pos
  | cons a v ih => exact Nat.mul_pos (h a List.mem_cons_self) (ih (fun x hx => h x (List.mem_cons_of_mem _ hx)))

private theorem prod_ne_one {v : List Nat} (h : prod v ≠ 1) : ∃ x ∈ v, x ≠ 1 := by
  induction v with
  | nil => simp [prod] at h
  | cons a v ih =>
    by_cases ha : a = 1
    · subst ha
      have : prod v ≠ 1 := by simpa [prod] using h
      obtain ⟨x, hx, hx1⟩ := ih this
      exact ⟨x, List.mem_cons_of_mem _ hx, hx1⟩
    · exact ⟨a, List.mem_cons_self, ha⟩

private theorem nonUnitMin_spec {v : List Nat} (hp : ∀ x ∈ v, 0 < x) (h : ∃ x ∈ v, x ≠ 1) :
    2 ≤ nonUnitMin v ∧ ∀ x ∈ v, x ≠ 1 → nonUnitMin v ≤ x := by
  unfold nonUnitMin
  obtain ⟨x, hx, hx1⟩ := h
  cases hm : (v.filter (fun x => decide (x ≠ 1))).min? with
  | none =>
    rw [List.min?_eq_none_iff] at hm
    have : x ∈ v.filter (fun x => decide (x ≠ 1)) := List.mem_filter.2 ⟨hx, by simpa using hx1⟩
    rw [hm] at this; simp at this
  | some a =>
    obtain ⟨h1, h2⟩ := List.min?_eq_some_iff.1 hm
    have ha := List.mem_filter.1 h1
    have ha1 : a ≠ 1 := by simpa using ha.2
    have := hp a ha.1
    refine ⟨by simp only [Option.getD_some]; omega, fun y hy hy1 => ?_⟩
    exact h2 y (List.mem_filter.2 ⟨hy, by simpa using hy1⟩)

private theorem shrink_pos {v : List Nat} (hp : ∀ x ∈ v, 0 < x) (h : ∃ x ∈ v, x ≠ 1) : ∀ x ∈ shrink v, 0 < x := by
  obtain ⟨h1, h2⟩ := nonUnitMin_spec hp h
  intro x hx
  obtain ⟨y, hy, rfl⟩ := List.mem_map.1 hx
  by_cases hy1 : y = 1
  · simp [hy1]
  · simp only [ne_eq, hy1, not_false_eq_true, if_true]
    exact Nat.div_pos (h2 y hy hy1) (by omega)

private theorem shrink_lt {v : List Nat} (hp : ∀ x ∈ v, 0 < x) (h : ∃ x ∈ v, x ≠ 1) : prod (shrink v) < prod v := by
  have hspec := nonUnitMin_spec hp h
  generalize hn : nonUnitMin v = n at hspec
  have hshr : shrink v = v.map (fun x => if x ≠ 1 then x / n else x) := by rw [← hn]; rfl
  rw [hshr]
  have hle : ∀ w : List Nat, (∀ x ∈ w, x ∈ v) →
      prod (w.map (fun x => if x ≠ 1 then x / n else x)) ≤ prod w := by
    intro w
    induction w with
    | nil => intro _; exact Nat.le_refl _
    | cons a w ih =>
      intro hw
      refine Nat.mul_le_mul (?_ : (if a ≠ 1 then a / n else a) ≤ a) (ih (fun x hx => hw x (List.mem_cons_of_mem _ hx)))
      split
      · exact Nat.div_le_self _ _
      · exact Nat.le_refl _
  have key : ∀ w : List Nat, (∀ x ∈ w, x ∈ v) → (∃ x ∈ w, x ≠ 1) →
      prod (w.map (fun x => if x ≠ 1 then x / n else x)) < prod w := by
    intro w
    induction w with
    | nil => rintro _ ⟨x, hx, _⟩; simp at hx
    | cons a w ih =>
      intro hw hex
      have hwv : ∀ x ∈ w, x ∈ v := fun x hx => hw x (List.mem_cons_of_mem _ hx)
      have hap : 0 < a := hp a (hw a List.mem_cons_self)
      have hwp : 0 < prod w := prod_pos (fun x hx => hp x (hwv x hx))
      by_cases ha : a = 1
      · subst ha
        obtain ⟨x, hx, hx1⟩ := hex
        rcases List.mem_cons.1 hx with rfl | hx
        · exact absurd rfl hx1
        · have := ih hwv ⟨x, hx, hx1⟩
          simpa [prod] using this
      · have h1 : a / n < a := Nat.div_lt_self hap (by omega)
        have h2 := hle w hwv
        show (if a ≠ 1 then a / n else a) * prod (w.map _) < a * prod w
        rw [if_pos ha]
        exact lt_of_le_of_lt (Nat.mul_le_mul_left _ h2) (Nat.mul_lt_mul_of_pos_right h1 hwp)
  exact key v (fun x hx => hx) h

private theorem shrinkLoop_spec (itemsize cb : Nat) : ∀ (fuel : Nat) (v : List Nat), (∀ x ∈ v, 0 < x) → prod v ≤ fuel →
    (∀ x ∈ shrinkLoop itemsize cb fuel v, 0 < x) ∧ (shrinkLoop itemsize cb fuel v).length = v.length ∧
    (prod (shrinkLoop itemsize cb fuel v) * itemsize ≤ cb ∨ prod (shrinkLoop itemsize cb fuel v) = 1) := by
  intro fuel
  induction fuel with
  | zero => intro v hp hf; have := prod_pos hp; omega
  | succ fuel ih =>
    intro v hp hf
    unfold shrinkLoop
    by_cases hc : prod v * itemsize > cb ∧ prod v ≠ 1
    · rw [if_pos hc]
      have hex := prod_ne_one hc.2
      have hlt := shrink_lt hp hex
      obtain ⟨h1, h2, h3⟩ := ih (shrink v) (shrink_pos hp hex) (by omega)
      exact ⟨h1, by rw [h2]; simp [shrink], h3⟩
    · rw [if_neg hc]
      refine ⟨hp, rfl, ?_⟩
      by_cases h1 : prod v = 1
      · exact Or.inr h1
      · left
        by_contra hgt
        exact hc ⟨by omega, h1⟩

private theorem ratios_pos {maxshape : List Nat} (h : ∀ m ∈ maxshape, 0 < m) : ∀ x ∈ ratios maxshape, 0 < x := by
  intro x hx
  obtain ⟨m, hm, rfl⟩ := List.mem_map.1 hx
  cases hmin : maxshape.min? with
  | none => rw [List.min?_eq_none_iff] at hmin; rw [hmin] at hm; simp at hm
  | some a =>
    obtain ⟨h1, h2⟩ := List.min?_eq_some_iff.1 hmin
    exact Nat.div_pos (h2 m hm) (h a h1)

/-- **C65 (loop).** The loop that shrinks the aspect ratios terminates for every array without empty axes (after at most
`prod v` iterations), and ends with positive ratios that fit the chunk size limit or are all 1. -/
theorem C65_loop_terminates (itemsize chunkBytes : Nat) (maxshape : List Nat) (h : ∀ m ∈ maxshape, 0 < m) :
    let v := shrinkLoop itemsize chunkBytes (prod (ratios maxshape)) (ratios maxshape)
    (∀ x ∈ v, 0 < x) ∧ v.length = maxshape.length ∧ (prod v * itemsize ≤ chunkBytes ∨ prod v = 1) := by
  have := shrinkLoop_spec itemsize chunkBytes _ (ratios maxshape) (ratios_pos h) (Nat.le_refl _)
  refine ⟨this.1, by rw [this.2.1]; simp [ratios], this.2.2⟩

example : shrinkLoop 8 100 (prod (ratios [1000, 10, 20])) (ratios [1000, 10, 20]) = [1, 1, 1] := by decide +kernel

/-- **C65 (chunk).** For every array without empty axes and every positive scale factor the default chunk shape is a
valid chunk shape (so with `C65_default_buffer` all default shapes are accepted). -/
theorem C65_default_chunk_partial (itemsize chunkBytes k : Nat) (hk : 0 < k) (maxshape : List Nat)
    (h : ∀ m ∈ maxshape, 0 < m) : ValidChunk (defaultChunkShape itemsize chunkBytes k maxshape) maxshape := by
  obtain ⟨h1, h2, -⟩ := shrinkLoop_spec itemsize chunkBytes _ (ratios maxshape) (ratios_pos h) (Nat.le_refl _)
  have h2' : (ratios maxshape).length = maxshape.length := by simp [ratios]
  unfold defaultChunkShape ValidChunk
  generalize shrinkLoop itemsize chunkBytes (prod (ratios maxshape)) (ratios maxshape) = v at *
  refine ⟨by simp; omega, ?_⟩
  intro j c m hc hm
  rw [List.getElem?_map, Option.map_eq_some_iff] at hc
  obtain ⟨⟨a, m'⟩, hz, rfl⟩ := hc
  rw [List.getElem?_zip_eq_some] at hz
  simp only at hz
  rw [hm] at hz; simp only [Option.some.injEq] at hz
  obtain ⟨hz1, rfl⟩ := hz
  have ha := h1 a (List.mem_of_getElem? hz1)
  have hm0 := h m (List.mem_of_getElem? hm)
  exact ⟨Nat.lt_min.2 ⟨Nat.mul_pos hk ha, hm0⟩, Nat.min_le_right _ _⟩

example : defaultChunkShape 8 1000000 50 [100000, 10, 20] = [100000, 10, 20] := by decide +kernel

/-- **C65 fails in full**: when one item is larger than the chunk size (here 8 bytes in a chunk of 1 byte) the scale factor
is 0, the default chunk shape has empty axes, and no default buffer shape is accepted although the array and the
parameters are legal. -/
theorem C65_default_chunk_fails :
    defaultChunkShape 8 1 0 [3, 2] = [0, 0] ∧ ∀ k, accepts [3, 2] [0, 0] (defaultBufferShape k [0, 0] [3, 2]) = false := by
  refine ⟨by decide +kernel, fun k => ?_⟩
  simp [defaultBufferShape, accepts]

end Verif.GenericChunks

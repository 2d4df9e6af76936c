import Verif.Lemmas.Ragged

/-!
# Properties of ragged columns: C11, C12, C13, C18, C67
-/

namespace Verif.Ragged
open Verif

variable {α : Type}

/-! ### C11, C18: rows read back as added -/

/-- **C18 (any depth).** After adding any list of row values to an empty column with any number `n` of index levels (their
total number of elements below 2^64), every addition has succeeded, the column has one row per value, and reading row `i`
returns exactly the i-th value added, including empty ones. -/
theorem C18_nested (n : Nat) (vs : List (Val α n)) (hsz : (vs.map (size n)).sum < 2 ^ 64) :
    ∃ c, addMany (addVal n) (emptyCol α n) vs = (c, .ok ()) ∧ len n c = vs.length ∧
      ∀ (i : Nat) v, vs[i]? = some v → get n c i = .ok v := by
  obtain ⟨h1, h2, h3⟩ := emptyCol_wf (α := α) n
  obtain ⟨c, i1, i2, i3, -⟩ := addMany_spec n vs _ h1 (by omega)
  rw [h2, List.nil_append] at i3
  exact ⟨c, i1, by rw [← length_rows, i3], fun i v hv => get_spec n c i v (by rw [i3]; exact hv)⟩

example : let c := (addMany (addVal 2) (emptyCol Nat 2) [[[1, 2], []], [], [[3]]]).1
    get 2 c 0 = .ok [[1, 2], []] ∧ get 2 c 1 = .ok [] ∧ get 2 c 2 = .ok [[3]] := by decide

/-- **C11.** After any list of vectors has been added to an empty ragged column, reading row `i` returns exactly the i-th
vector. -/
theorem C11_rows (vs : List (List α)) (hsz : (vs.map (fun v => 1 + v.length)).sum < 2 ^ 64) :
    ∃ c, addMany (addVal 1) (emptyCol α 1) vs = (c, .ok ()) ∧ len 1 c = vs.length ∧
      ∀ (i : Nat) v, vs[i]? = some v → get 1 c i = .ok v := by
  refine C18_nested 1 vs ?_
  have : vs.map (size 1) = vs.map (fun v => 1 + v.length) := by
    apply List.map_congr_left
    intro v _
    simp [size]
  rw [this]; exact hsz

example : let c := (addMany (addVal 1) (emptyCol Nat 1) [[1, 2], [], [3]]).1
    c.1.data = [2, 2, 3] ∧ c.2 = [1, 2, 3] ∧ get 1 c 1 = .ok [] := by decide

/-- **C11 (columns created with data).** For a ragged column constructed from existing data — any non-decreasing end
positions reaching exactly the end of the target — and any vectors added afterwards, reading row `i` returns the slice of
the original data between the (i-1)-th and the i-th end for the original rows, and the added vectors after them. -/
theorem C11_constructed (target : List α) (ends : List Nat) (hs : ends.Pairwise (· ≤ ·))
    (hl : ends.getLast?.getD 0 = target.length) (vs : List (List α))
    (hsz : ends.length + target.length + (vs.map (fun v => 1 + v.length)).sum < 2 ^ 64) :
    ∃ ix c, mkIndex ends target.length = (ix, .ok ()) ∧ addMany (addVal 1) (ix, target) vs = (c, .ok ()) ∧
      (∀ (i a b : Nat), (if i = 0 then some 0 else ends[i - 1]?) = some a → ends[i]? = some b →
        get 1 c i = .ok ((target.drop a).take (b - a))) ∧
      (∀ (i : Nat) v, vs[i]? = some v → get 1 c ((ends.length + i : Nat) : Int) = .ok v) := by
  obtain ⟨ix, h1, h2, h3⟩ := mkIndex_spec ends target.length hs hl (by omega)
  have hw : WF 1 (ix, target) := ⟨h3, trivial⟩
  have hsize : vs.map (size 1) = vs.map (fun v => 1 + v.length) :=
    List.map_congr_left (fun v _ => by simp [size])
  obtain ⟨c, i1, -, i3, -⟩ := addMany_spec 1 vs (ix, target) hw (by
    rw [hsize]; simp only [total, h2]; omega)
  have hr : rows 1 ((ix, target) : Col α 1) = cut 0 ends target := by simp only [rows, h2]
  rw [hr] at i3
  refine ⟨ix, c, h1, i1, ?_, ?_⟩
  · intro i a b ha hb
    obtain ⟨s, k1, k2⟩ := cut_getElem? 0 ends target i b hb
    rw [ha] at k1; simp only [Option.some.injEq] at k1; subst k1
    refine get_spec 1 c i _ ?_
    rw [i3, List.getElem?_append_left (by rw [length_cut]; exact (List.getElem?_eq_some_iff.1 hb).1)]
    exact k2
  · intro i v hv
    refine get_spec 1 c _ v ?_
    rw [i3, List.getElem?_append_right (by rw [length_cut]; omega), length_cut, Nat.add_sub_cancel_left]
    exact hv

example : let c := (addMany (addVal 1) ((mkIndex [2, 2, 3] 3).1, [7, 8, 9]) [[1]]).1
    get 1 c 2 = .ok [9] ∧ get 1 c 3 = .ok [1] := by decide

/-- **C11 fails for numpy targets**: extending a one-dimensional numpy array never appends — it either raises or replaces
the column's data by a two-row array (so rows are no longer what was added). -/
theorem C11_array_target_fails (data arg : List α) :
    extendArray1 data arg = .error .valueError ∨ extendArray1 data arg = .ok [data, arg] := by
  unfold extendArray1; split <;> simp

example : extendArray1 [1, 2] [3, 4] = .ok [[1, 2], [3, 4]] ∧ extendArray1 [1, 2, 3] [4] = .error .valueError := by decide

/-- **C11 fails for HDF5 targets and empty vectors**: an empty vector cannot be added to a non-empty on-disk column. -/
theorem C11_empty_on_disk_fails (x : α) (data : List α) : (extendH5 (x :: data) []).2 = .error .typeError := by
  simp [extendH5]

/-! ### C12: index well-formedness -/

/-- at every level the index has non-decreasing entries and its last one (0 if there is none) is the number of elements of
the level below -/
def Aligned : (n : Nat) → Col α n → Prop
  | 0, _ => True
  | n + 1, (ix, t) => ix.data.Pairwise (· ≤ ·) ∧ ix.data.getLast?.getD 0 = len n t ∧ Aligned n t

private theorem aligned_of_wf (n : Nat) (c : Col α n) (h : WF n c) : Aligned n c := by
  induction n with
  | zero => trivial
  | succ n ih => obtain ⟨ix, t⟩ := c; exact ⟨h.1.sorted, h.1.last, ih t h.2⟩

/-- **C12.** After any additions to an empty column of any depth the indexes of all levels are non-decreasing, the topmost
has one entry per row, and each ends at the length of its target. -/
theorem C12_aligned (n : Nat) (vs : List (Val α n)) (hsz : (vs.map (size n)).sum < 2 ^ 64) :
    ∃ c, addMany (addVal n) (emptyCol α n) vs = (c, .ok ()) ∧ len n c = vs.length ∧ Aligned n c := by
  obtain ⟨h1, h2, h3⟩ := emptyCol_wf (α := α) n
  obtain ⟨c, i1, i2, i3, -⟩ := addMany_spec n vs _ h1 (by omega)
  exact ⟨c, i1, by rw [← length_rows, i3, h2, List.nil_append], aligned_of_wf n c i2⟩

example : Aligned 1 (addMany (addVal 1) (emptyCol Nat 1) [[1, 2], [], [3]]).1 := by
  refine ⟨?_, ?_, trivial⟩ <;> decide

private theorem flatten_cut (p : Nat) (es : List Nat) (rs : List α) (hs : es.Pairwise (· ≤ ·)) (hp : ∀ e ∈ es, p ≤ e)
    (hle : es.getLast?.getD p = rs.length) : (cut p es rs).flatten = rs.drop p := by
  induction es generalizing p with
  | nil => simp at hle; subst hle; simp [cut]
  | cons e es ih =>
    simp only [List.pairwise_cons] at hs
    have := ih e hs.2 hs.1 (by cases es <;> simpa [List.getLast?_cons] using hle)
    simp only [cut, List.flatten_cons, this]
    have hpe := hp e (by simp)
    conv_rhs => rw [← List.take_append_drop (e - p) (rs.drop p), List.drop_drop, Nat.add_sub_cancel' hpe]

/-- number of entries stored at level `k` of a column (level 0 is the outermost index) -/
def lenAt : (n : Nat) → Col α n → Nat → Nat
  | 0, l, k => if k = 0 then List.length l else 0
  | _ + 1, (ix, _), 0 => ix.data.length
  | n + 1, (_, t), k + 1 => lenAt n t k

/-- number of parts that a row value has at level `k`: itself, its elements, their elements, ... -/
def countAt : (n : Nat) → Val α n → Nat → Nat
  | 0, _, k => if k = 0 then 1 else 0
  | _ + 1, _, 0 => 1
  | n + 1, vs, k + 1 => ((vs : List (Val α n)).map (fun v => countAt n v k)).sum

/-- **C12 (nothing half-stored).** Whatever the storage (also an on-disk index of fixed width at any level), an addition
that succeeds has stored every part of the value at every level. -/
theorem C12_accepted_complete (n : Nat) : ∀ (c : Col α n) (v : Val α n) (c' : Col α n), addVal n c v = (c', .ok ()) →
    ∀ k, lenAt n c' k = lenAt n c k + countAt n v k := by
  induction n with
  | zero =>
    intro c v c' h k
    simp only [addVal, Prod.mk.injEq, and_true] at h
    subst h
    simp only [lenAt, countAt]; split <;> simp
  | succ n ih =>
    have many : ∀ (vs : List (Val α n)) (t t' : Col α n), addMany (addVal n) t vs = (t', .ok ()) →
        ∀ k, lenAt n t' k = lenAt n t k + (vs.map (fun v => countAt n v k)).sum := by
      intro vs
      induction vs with
      | nil => intro t t' h k; simp only [addMany, Prod.mk.injEq, and_true] at h; subst h; simp
      | cons v vs ih2 =>
        intro t t' h k
        simp only [addMany] at h
        split at h
        · simp at h
        · rename_i u hu
          have h1 := ih t v (addVal n t v).1 (by rw [← show (addVal n t v).2 = .ok () from hu]) k
          have h2 := ih2 _ _ h k
          simp only [List.map_cons, List.sum_cons]; omega
    rintro ⟨ix, t⟩ v c' h k
    simp only [addVal] at h
    split at h
    · simp at h
    · rename_i u hu
      split at h
      · simp at h
      · simp only [Prod.mk.injEq, and_true] at h
        subst h
        cases k with
        | zero => simp only [lenAt, countAt, appendIx_len, widen_len]
        | succ k =>
          have := many v t (addMany (addVal n) t v).1 (by rw [← show (addMany (addVal n) t v).2 = .ok () from hu]) k
          simpa only [lenAt, countAt] using this

example : (addVal 2 (emptyCol Nat 2) [[5, 6], []]).2 = .ok () ∧
    [0, 1, 2].map (lenAt 2 (addVal 2 (emptyCol Nat 2) [[5, 6], []]).1) = [1, 2, 2] := by decide

/-- **C12 (exact cover).** The target column is exactly the concatenation of the rows, in order. -/
theorem C12_cover (vs : List (List α)) (hsz : (vs.map (fun v => 1 + v.length)).sum < 2 ^ 64) :
    (addMany (addVal 1) (emptyCol α 1) vs).1.2 = vs.flatten := by
  have hsize : vs.map (size 1) = vs.map (fun v => 1 + v.length) :=
    List.map_congr_left (fun v _ => by simp [size])
  obtain ⟨h1, h2, h3⟩ := emptyCol_wf (α := α) 1
  obtain ⟨c, i1, i2, i3, -⟩ := addMany_spec 1 vs _ h1 (by rw [hsize]; omega)
  rw [i1]
  obtain ⟨ix, t⟩ := c
  have := flatten_cut 0 ix.data t i2.1.sorted (fun e _ => Nat.zero_le e) i2.1.last
  rw [List.drop_zero] at this
  rw [h2, List.nil_append] at i3
  simp only [rows] at i3
  show t = vs.flatten
  rw [← this, i3]

example : (addMany (addVal 1) (emptyCol Nat 1) [[1, 2], [], [3]]).1.2 = [1, 2, 3] := by decide

/-- a ragged column whose index is an on-disk dataset of 8-bit integers, with one row of 255 elements -/
def diskCol : Col Nat 1 := ({ bits := 8, data := [255], storage := .fixed 8 }, List.replicate 255 0)

/-- **C12 fails for on-disk indexes**: the addition that needs wider integers is refused after the target has been
extended, so the index no longer ends at the end of the target. -/
theorem C12_rejected_fails :
    let r := addVal 1 diskCol [7]
    r.2 = .error .valueError ∧ r.1.2.length = 256 ∧ r.1.1.data = [255] := by decide +kernel

/-! ### C13: integer width -/

/-- **C13.** At every moment of any history the index entries fit the index's current unsigned width (8, 16, 32 or 64
bits), and later additions (with their widenings) never change an entry already stored. -/
theorem C13_width (vs ws : List (List α))
    (hsz : ((vs ++ ws).map (fun v => 1 + v.length)).sum < 2 ^ 64) :
    let c1 := (addMany (addVal 1) (emptyCol α 1) vs).1
    let c2 := (addMany (addVal 1) (emptyCol α 1) (vs ++ ws)).1
    (c2.1.bits = 8 ∨ c2.1.bits = 16 ∨ c2.1.bits = 32 ∨ c2.1.bits = 64) ∧ (∀ v ∈ c2.1.data, v < 2 ^ c2.1.bits) ∧
    c1.1.data <+: c2.1.data := by
  have hsize : ∀ us : List (List α), us.map (size 1) = us.map (fun v => 1 + v.length) :=
    fun us => List.map_congr_left (fun v _ => by simp [size])
  have hpos : (vs.map (fun v => 1 + v.length)).sum ≤ ((vs ++ ws).map (fun v => 1 + v.length)).sum := by
    rw [List.map_append, List.sum_append]; omega
  obtain ⟨h1, h2, h3⟩ := emptyCol_wf (α := α) 1
  obtain ⟨c1, i1, i2, i3, -⟩ := addMany_spec 1 vs _ h1 (by rw [hsize]; omega)
  obtain ⟨c2, j1, j2, j3, -⟩ := addMany_spec 1 (vs ++ ws) _ h1 (by rw [hsize]; omega)
  rw [i1, j1]
  obtain ⟨ix1, t1⟩ := c1
  obtain ⟨ix2, t2⟩ := c2
  refine ⟨j2.1.bits, j2.1.repr, ?_⟩
  -- the entries are the running lengths of the rows
  have ends : ∀ (es : List Nat) (p : Nat) (rs : List α), es.Pairwise (· ≤ ·) → (∀ e ∈ es, p ≤ e ∧ e ≤ rs.length) →
      ∀ us, cut p es rs = us → es = ((us.map List.length).scanl (· + ·) p).tail := by
    intro es
    induction es with
    | nil => intro p rs _ _ us hus; subst hus; rfl
    | cons e es ih =>
      intro p rs hs hb us hus
      subst hus
      simp only [List.pairwise_cons] at hs
      obtain ⟨hb1, hb2⟩ := hb e (by simp)
      have hl : ((rs.drop p).take (e - p)).length = e - p := by simp; omega
      have := ih e rs hs.2 (fun x hx => ⟨hs.1 x hx, (hb x (by simp [hx])).2⟩) _ rfl
      simp only [cut, List.map_cons, List.scanl_cons, List.tail_cons, hl, Nat.add_sub_cancel' hb1]
      rw [show (List.scanl (fun x1 x2 => x1 + x2) e (List.map List.length (cut e es rs)))
        = e :: (List.scanl (fun x1 x2 => x1 + x2) e (List.map List.length (cut e es rs))).tail by
          cases (List.map List.length (cut e es rs)) <;> simp [List.scanl]]
      rw [← this]
  have e1 := ends ix1.data 0 t1 i2.1.sorted (fun e he => ⟨Nat.zero_le _, by
    have := le_last i2.1.sorted e he; rw [i2.1.last] at this; exact this⟩) _ rfl
  have e2 := ends ix2.data 0 t2 j2.1.sorted (fun e he => ⟨Nat.zero_le _, by
    have := le_last j2.1.sorted e he; rw [j2.1.last] at this; exact this⟩) _ rfl
  rw [h2, List.nil_append] at i3 j3
  simp only [rows] at i3 j3
  rw [i3] at e1
  rw [j3] at e2
  show ix1.data <+: ix2.data
  rw [e1, e2]
  have scan : ∀ (a b : List Nat) (p : Nat), (a.scanl (· + ·) p) <+: ((a ++ b).scanl (· + ·) p) := by
    intro a
    induction a with
    | nil => intro b p; cases b <;> simp [List.scanl]
    | cons x a ih => intro b p; simp only [List.cons_append, List.scanl_cons]; exact (List.prefix_cons_inj _).2 (ih b _)
  rw [List.map_append]
  have := scan (vs.map List.length) (ws.map List.length) 0
  generalize (vs.map List.length).scanl (· + ·) 0 = x at this
  generalize ((vs.map List.length) ++ (ws.map List.length)).scanl (· + ·) 0 = y at this
  obtain ⟨z, rfl⟩ := this
  cases x with
  | nil => simp
  | cons a x => simp

example : (addMany (addVal 1) (emptyCol Nat 1) [List.replicate 200 0, List.replicate 100 0]).1.1
    = { bits := 16, data := [200, 300] } := by decide +kernel

/-- **C13 fails for on-disk indexes**: after the refused addition the in-memory width has been raised, so repeating the
call is accepted and the value is clipped by the on-disk type: 257 is stored as 255. -/
theorem C13_disk_fails :
    let r := addVal 1 (addVal 1 diskCol [7]).1 [7]
    r.2 = .ok () ∧ r.1.2.length = 257 ∧ r.1.1.data = [255, 255] := by decide +kernel

/-! ### C67: selections -/

private theorem get_int (n : Nat) (c : Col α (n + 1)) (i : Int) (h0 : 0 ≤ i) (v : Val α (n + 1))
    (h : (rows (n + 1) c)[i.toNat]? = some v) : get (n + 1) c i = .ok v := by
  have := get_spec (n + 1) c i.toNat v h
  rwa [Int.toNat_of_nonneg h0] at this

/-- `R` is the list of rows of the column: what reading each single row returns -/
def Reads (n : Nat) (c : Col α (n + 1)) (R : List (Val α (n + 1))) : Prop :=
  R.length = len (n + 1) c ∧ ∀ (i : Nat) v, R[i]? = some v → get (n + 1) c i = .ok v

private theorem reads_rows (n : Nat) (c : Col α (n + 1)) : Reads n c (rows (n + 1) c) :=
  ⟨length_rows _ _, fun i v h => get_spec (n + 1) c i v h⟩

/-- Every column has a list of rows. -/
theorem C67_rows_exist (n : Nat) (c : Col α (n + 1)) : ∃ R, Reads n c R := ⟨_, reads_rows n c⟩

private theorem collect_reads (n : Nat) (c : Col α (n + 1)) (R : List (Val α (n + 1))) (hR : Reads n c R) (is : List Int)
    (h : ∀ i ∈ is, 0 ≤ i ∧ i < len (n + 1) c) :
    collect (get (n + 1) c) is = .ok (is.filterMap fun i => R[i.toNat]?) := by
  induction is with
  | nil => rfl
  | cons i is ih =>
    obtain ⟨h0, h1⟩ := h i (by simp)
    have hlt : i.toNat < R.length := by rw [hR.1]; omega
    have hg := hR.2 i.toNat _ (List.getElem?_eq_getElem hlt)
    rw [Int.toNat_of_nonneg h0] at hg
    simp only [collect, hg, ih (fun j hj => h j (by simp [hj]))]
    rw [List.filterMap_cons_some (f := fun i : Int => R[i.toNat]?) (b := R[i.toNat]) (List.getElem?_eq_getElem hlt)]

/-- **C67 (slices).** Selecting by a slice returns the rows at the slice's positions, in order. -/
theorem C67_slice (n : Nat) (c : Col α (n + 1)) (R : List (Val α (n + 1))) (hR : Reads n c R) (s : PySlice)
    (is : List Int) (hs : s.range (len (n + 1) c) = .ok is) :
    getSel n c (.slice s) = .ok (is.filterMap fun i => R[i.toNat]?) ∧ (∀ i ∈ is, ∃ v, R[i.toNat]? = some v) := by
  have hb := PySlice.mem_range hs
  refine ⟨?_, fun i hi => ?_⟩
  · unfold getSel
    have e : selIndices (len (n + 1) c) (.slice s) = .ok is := hs
    rw [e]
    exact collect_reads n c R hR is hb
  · obtain ⟨h0, h1⟩ := hb i hi
    exact ⟨_, List.getElem?_eq_getElem (by rw [hR.1]; omega)⟩

example : let c := (addMany (addVal 1) (emptyCol Nat 1) [[1, 2], [], [3], [4, 5]]).1
    getSel 0 c (.slice ⟨none, none, some (-2)⟩) = .ok [[4, 5], []] := by decide

/-- **C67 (row lists).** Selecting by a non-empty list of row numbers in range returns those rows, in order and with
repetition. -/
theorem C67_list_partial (n : Nat) (c : Col α (n + 1)) (R : List (Val α (n + 1))) (hR : Reads n c R) (is : List Int)
    (hne : is ≠ []) (h : ∀ i ∈ is, 0 ≤ i ∧ i < len (n + 1) c) :
    getSel n c (.ints is) = .ok (is.filterMap fun i => R[i.toNat]?) := by
  unfold getSel selIndices
  cases is with
  | nil => exact absurd rfl hne
  | cons i is => exact collect_reads n c R hR _ h

/-- **C67 (masks).** Selecting by a non-empty Boolean list no longer than the column returns the rows marked true. -/
theorem C67_mask_partial (n : Nat) (c : Col α (n + 1)) (R : List (Val α (n + 1))) (hR : Reads n c R) (m : List Bool)
    (hne : m ≠ []) (hlen : m.length ≤ len (n + 1) c) :
    getSel n c (.mask m) = .ok ((m.zip R).filterMap fun p => if p.1 then some p.2 else none) := by
  have key : ∀ (m : List Bool) (k : Nat), k + m.length ≤ R.length →
      (∀ i ∈ whereTrue k m, 0 ≤ i ∧ i < R.length) ∧
      (whereTrue k m).filterMap (fun i => R[i.toNat]?)
        = ((m.zip (R.drop k)).filterMap fun p => if p.1 then some p.2 else none) := by
    intro m
    induction m with
    | nil => intro k _; simp [whereTrue]
    | cons b m ih =>
      intro k hk
      simp only [List.length_cons] at hk
      obtain ⟨h1, h2⟩ := ih (k + 1) (by omega)
      have hd : R.drop k = R[k]'(by omega) :: R.drop (k + 1) := List.drop_eq_getElem_cons (by omega)
      cases b with
      | false =>
        refine ⟨h1, ?_⟩
        rw [hd, List.zip_cons_cons, List.filterMap_cons_none (by simp)]
        exact h2
      | true =>
        refine ⟨?_, ?_⟩
        · intro i hi
          rcases List.mem_cons.1 hi with rfl | hi
          · omega
          · exact h1 i hi
        · rw [hd]
          simp only [whereTrue, List.zip_cons_cons]
          rw [List.filterMap_cons_some (b := R[k]'(by omega)) (by simp), List.filterMap_cons_some (b := R[k]'(by omega)) (by simp), h2]
  obtain ⟨h1, h2⟩ := key m 0 (by rw [hR.1]; omega)
  unfold getSel selIndices
  cases m with
  | nil => exact absurd rfl hne
  | cons b m =>
    simp only
    rw [List.drop_zero] at h2
    rw [collect_reads n c R hR _ (by rw [← hR.1]; exact h1), h2]

example : let c := (addMany (addVal 1) (emptyCol Nat 1) [[1, 2], [], [3], [4, 5]]).1
    getSel 0 c (.ints [3, 0, 3]) = .ok [[4, 5], [1, 2], [4, 5]] ∧
    getSel 0 c (.mask [true, false, true]) = .ok [[1, 2], [3]] := by decide

/-- **C67 (negative row numbers).** For `-n < -k < 0` row `-k` is row `n - k`. -/
theorem C67_negative_partial (n : Nat) (c : Col α (n + 1)) (R : List (Val α (n + 1))) (hR : Reads n c R) (k : Nat)
    (h0 : 0 < k) (h1 : k < len (n + 1) c) (v : Val α (n + 1)) (hv : R[len (n + 1) c - k]? = some v) :
    get (n + 1) c (-(k : Int)) = .ok v := by
  have hpos := hR.2 _ v hv
  obtain ⟨ix, t⟩ := c
  have hl : len (n + 1) ((ix, t) : Col α (n + 1)) = ix.data.length := rfl
  rw [hl] at h1 hv hpos
  rw [← hpos]
  show helper _ ix _ = helper _ ix _
  unfold helper
  have a1 : (-(k : Int)) ≠ 0 := by omega
  have a2 : ((ix.data.length - k : Nat) : Int) ≠ 0 := by omega
  have p : ∀ j : Nat, 0 < j → j ≤ ix.data.length → pyGet ix.data (-(j : Int)) = pyGet ix.data ((ix.data.length - j : Nat) : Int) := by
    intro j hj hj2
    unfold pyGet
    have : pyPos ix.data.length (-(j : Int)) = pyPos ix.data.length ((ix.data.length - j : Nat) : Int) := by
      unfold pyPos
      have c1 : ¬ (0 ≤ (-(j : Int))) := by omega
      have c2 : (0 : Int) ≤ -(j : Int) + ix.data.length := by omega
      have c3 : (0 : Int) ≤ ((ix.data.length - j : Nat) : Int) := by omega
      have c4 : ((ix.data.length - j : Nat) : Int).toNat < ix.data.length := by omega
      rw [if_neg c1, if_pos c2, if_pos c3, if_pos c4]
      congr 1; omega
    rw [this]
  rw [if_neg a1, if_neg a2]
  have e1 : -(k : Int) - 1 = -((k + 1 : Nat) : Int) := by omega
  have e2 : ((ix.data.length - k : Nat) : Int) - 1 = ((ix.data.length - (k + 1) : Nat) : Int) := by omega
  rw [e1, e2, p (k + 1) (by omega) (by omega), p k h0 (by omega)]

/-- **C67 fails** for the first row addressed from the end (row `-n` of a column with `n ≥ 1` rows raises IndexError) and
for empty lists. -/
theorem C67_first_from_end_fails :
    (∀ (n : Nat) (ix : Index) (t : Col α n), ix.data ≠ [] →
      get (n + 1) ((ix, t) : Col α (n + 1)) (-(ix.data.length : Int)) = .error .indexError) ∧
    (∀ (n : Nat) (c : Col α (n + 1)), getSel n c (.ints []) = .error .indexError) := by
  refine ⟨fun n ix t hne => ?_, fun n c => rfl⟩
  have hl : 0 < ix.data.length := List.length_pos_iff.2 hne
  show helper _ ix _ = _
  unfold helper
  have a1 : (-(ix.data.length : Int)) ≠ 0 := by omega
  rw [if_neg a1]
  have : pyGet ix.data (-(ix.data.length : Int) - 1) = .error .indexError := by
    unfold pyGet pyPos
    rw [if_neg (by omega), if_neg (by omega)]
  rw [this]

end Verif.Ragged

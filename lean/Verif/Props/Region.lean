import Verif.Model.Region
import Verif.Lemmas.Table

/-!
# Properties of table regions
-/

namespace Verif.Region
open Verif Verif.Ragged Verif.Table

private theorem mem_insertU (x y : Int) : ∀ l, y ∈ insertU x l ↔ y = x ∨ y ∈ l := by
  intro l
  induction l with
  | nil => simp [insertU]
  | cons z l ih =>
    simp only [insertU]
    split
    · simp
    · split
      · rename_i h; subst h; simp
      · simp only [List.mem_cons, ih]; tauto

private theorem mem_uniq (y : Int) : ∀ l, y ∈ uniq l ↔ y ∈ l := by
  intro l
  induction l with
  | nil => simp [uniq]
  | cons x l ih => simp [uniq, mem_insertU, ih]

private theorem pyGet_idxOf {β : Type} {l : List Int} {r : List β} (f : Int → Except Err β) (h : collect f l = .ok r)
    (v : Int) (hv : v ∈ l) : ∃ x, pyGet r (l.idxOf v : Int) = .ok x ∧ f v = .ok x := by
  rw [collect_ok_iff] at h
  induction h with
  | nil => simp at hv
  | @cons a b l r h1 h2 ih =>
    by_cases hav : a = v
    · subst hav
      refine ⟨b, ?_, h1⟩
      rw [List.idxOf_cons_self]; exact pyGet_nat (b :: r) 0
    · rw [List.idxOf_cons_ne _ (Ne.symm (Ne.symm hav))]
      obtain ⟨x, hx, hf⟩ := ih (by rcases List.mem_cons.1 hv with h | h; exact absurd h.symm hav; exact h)
      refine ⟨x, ?_, hf⟩
      rw [pyGet_nat] at hx ⊢
      simpa using hx

/-- picking positions of distinct values gives back the value for every requested one -/
private theorem collect_iloc {β : Type} {l ret : List Int} {r : List β} (f : Int → Except Err β) (h : collect f l = .ok r)
    (hsub : ∀ v ∈ ret, v ∈ l) :
    ∃ xs, collect (pyGet r) (ret.map fun v => (l.idxOf v : Int)) = .ok xs ∧ collect f ret = .ok xs := by
  induction ret with
  | nil => exact ⟨[], rfl, rfl⟩
  | cons v ret ih =>
    obtain ⟨xs, h1, h2⟩ := ih (fun w hw => hsub w (by simp [hw]))
    obtain ⟨x, h3, h4⟩ := pyGet_idxOf f h v (hsub v (by simp))
    exact ⟨x :: xs, by simp only [List.map_cons, collect, h3, h1], by simp only [collect, h4, h2]⟩

private theorem colsSel_iloc {l ret : List Int} (hsub : ∀ v ∈ ret, v ∈ l) : ∀ (cs : List Column) (vs : List (String × List Value)),
    colsSel l cs = .ok vs → ∃ ws, iloc.go (ret.map fun v => (l.idxOf v : Int)) vs = .ok ws ∧
      List.Forall₂ (fun c w => w.1 = c.name ∧ collect c.get ret = .ok w.2) cs ws := by
  intro cs
  induction cs with
  | nil => intro vs h; simp only [colsSel, Except.ok.injEq] at h; subst h; exact ⟨[], rfl, .nil⟩
  | cons c cs ih =>
    intro vs h
    simp only [colsSel] at h
    cases hc : colSel c l with
    | error e => simp [hc] at h
    | ok v =>
      rw [hc] at h
      cases hr : colsSel l cs with
      | error e => simp [hr] at h
      | ok vs' =>
        simp only [hr, Except.ok.injEq] at h
        subst h
        obtain ⟨ws, h1, h2⟩ := ih vs' hr
        have hcol : collect c.get l = .ok v := by
          unfold colSel at hc
          split at hc
          · simp at hc
          · exact hc
        obtain ⟨xs, h3, h4⟩ := collect_iloc c.get hcol hsub
        exact ⟨(c.name, xs) :: ws, by simp only [iloc.go, h3, h1], .cons ⟨rfl, h4⟩ h2⟩

/-- what `getMany` returns, in terms of the single-row reads -/
private theorem getMany_ok {s : State} {region : List Int} {arg : Sel} {f : Frame} (h : getMany s region arg = .ok f) :
    ∃ is ret, arg.positions region.length = .ok is ∧ collect (pyGet region) is = .ok ret ∧
      collect (pyGet s.ids) ret = .ok f.ids ∧
      List.Forall₂ (fun c w => w.1 = c.name ∧ collect c.get ret = .ok w.2) s.cols f.cols := by
  unfold getMany at h
  cases hp : arg.positions region.length with
  | error e => simp [hp] at h
  | ok is =>
    simp only [hp] at h
    cases hr : collect (pyGet region) is with
    | error e => simp [hr] at h
    | ok ret =>
      simp only [hr] at h
      cases hs : selRows s (uniq ret) with
      | error e => simp [hs] at h
      | ok values =>
        simp only [hs] at h
        unfold selRows at hs
        cases hi : collect (pyGet s.ids) (uniq ret) with
        | error e => simp [hi] at hs
        | ok ids =>
          simp only [hi] at hs
          cases hc : colsSel (uniq ret) s.cols with
          | error e => simp [hc] at hs
          | ok cols =>
            simp only [hc, Except.ok.injEq] at hs
            subst hs
            have hsub : ∀ v ∈ ret, v ∈ uniq ret := fun v hv => (mem_uniq v ret).2 hv
            obtain ⟨xs, h1, h2⟩ := collect_iloc (pyGet s.ids) hi hsub
            obtain ⟨ws, h3, h4⟩ := colsSel_iloc hsub s.cols cols hc
            simp only [iloc, h1, h3, Except.ok.injEq] at h
            subst h
            exact ⟨is, ret, rfl, hr, h2, h4⟩

private theorem forall₂_get {α β} {R : α → β → Prop} {l : List α} {r : List β} (h : List.Forall₂ R l r) :
    l.length = r.length ∧ ∀ (j : Nat) a, l[j]? = some a → ∃ b, r[j]? = some b ∧ R a b := by
  induction h with
  | nil => exact ⟨rfl, by simp⟩
  | cons h1 _ ih =>
    refine ⟨by simp [ih.1], fun j a ha => ?_⟩
    cases j with
    | zero => simp only [List.getElem?_cons_zero, Option.some.injEq] at ha ⊢; subst ha; exact ⟨_, rfl, h1⟩
    | succ j => exact ih.2 j a (by simpa using ha)

private theorem rowCells_of {i : Int} {j : Nat} {ret : List Int} (hj : ret[j]? = some i) :
    ∀ (cs : List Column) (ws : List (String × List Value)),
    List.Forall₂ (fun c w => w.1 = c.name ∧ collect c.get ret = .ok w.2) cs ws →
    ∃ vs, rowCells i cs = .ok vs ∧ ws.map (fun w => (w.1, w.2[j]?)) = vs.map (fun p => (p.1, some p.2)) := by
  intro cs ws h
  induction h with
  | nil => exact ⟨[], rfl, rfl⟩
  | @cons c w cs ws h1 _ ih =>
    obtain ⟨vs, h2, h3⟩ := ih
    rw [collect_ok_iff] at h1
    obtain ⟨v, hv, hg⟩ := (forall₂_get h1.2).2 j i hj
    exact ⟨(c.name, v) :: vs, by simp only [rowCells, hg, h2], by simp [h3, hv, h1.1]⟩

/-- **C19.** If `region[arg]` succeeds for a list of positions or a slice, the result has one row per selected position, in
the order selected and with repetitions, and the `j`-th row is exactly the row `table[k]` with `k` the region's value at
the `j`-th selected position (id and every column). -/
theorem C19_rows_resolved (s : State) (region : List Int) (arg : Sel) (f : Frame) (h : getMany s region arg = .ok f) :
    ∃ is, arg.positions region.length = .ok is ∧ f.ids.length = is.length ∧ f.cols.map Prod.fst = s.colnames ∧
      (∀ c ∈ f.cols, c.2.length = is.length) ∧
      ∀ (j : Nat) p, is[j]? = some p → ∃ k id vs, pyGet region p = .ok k ∧ s.row k = .ok (id, vs) ∧
        f.ids[j]? = some id ∧ f.cols.map (fun c => (c.1, c.2[j]?)) = vs.map (fun v => (v.1, some v.2)) := by
  obtain ⟨is, ret, h1, h2, h3, h4⟩ := getMany_ok h
  rw [collect_ok_iff] at h2 h3
  have l2 := forall₂_get h2
  have l3 := forall₂_get h3
  refine ⟨is, h1, by omega, ?_, ?_, ?_⟩
  · unfold State.colnames
    clear h3 l3
    generalize f.cols = ws at h4
    generalize s.cols = cs at h4
    induction h4 with
    | nil => rfl
    | cons h _ ih => simp [h.1, ih]
  · intro c hc
    obtain ⟨c', -, -, hcol⟩ := forall₂_mem_right h4 c hc
    rw [collect_ok_iff] at hcol
    have := (forall₂_get hcol).1
    omega
  · intro j p hp
    obtain ⟨k, hk, hpk⟩ := l2.2 j p hp
    obtain ⟨id, hid, hik⟩ := l3.2 j k hk
    obtain ⟨vs, hv1, hv2⟩ := rowCells_of hk s.cols f.cols h4
    exact ⟨k, id, vs, hpk, by simp only [State.row, hik, hv1], hid, hv2⟩

private theorem collect_total {ι β : Type} {f : ι → Except Err β} : ∀ {l : List ι}, (∀ i ∈ l, ∃ x, f i = .ok x) →
    ∃ r, collect f l = .ok r := by
  intro l
  induction l with
  | nil => intro _; exact ⟨[], rfl⟩
  | cons i l ih =>
    intro h
    obtain ⟨x, hx⟩ := h i (by simp)
    obtain ⟨r, hr⟩ := ih (fun j hj => h j (by simp [hj]))
    exact ⟨x :: r, by simp only [collect, hx, hr]⟩

private theorem row_ok_iff {s : State} {k : Int} {r} (h : s.row k = .ok r) :
    (∃ x, pyGet s.ids k = .ok x) ∧ ∀ c ∈ s.cols, ∃ v, c.get k = .ok v := by
  unfold State.row at h
  cases hi : pyGet s.ids k with
  | error e => simp [hi] at h
  | ok x =>
    refine ⟨⟨x, rfl⟩, ?_⟩
    simp only [hi] at h
    cases hr : rowCells k s.cols with
    | error e => simp [hr] at h
    | ok vs =>
      clear h
      generalize s.cols = cs at hr
      induction cs generalizing vs with
      | nil => simp
      | cons c cs ih =>
        simp only [rowCells] at hr
        cases hc : c.get k with
        | error e => simp [hc] at hr
        | ok v =>
          simp only [hc] at hr
          cases hr2 : rowCells k cs with
          | error e => simp [hr2] at hr
          | ok vs' =>
            intro c' hc'
            rcases List.mem_cons.1 hc' with rfl | hc'
            · exact ⟨v, hc⟩
            · exact ih vs' hr2 c' hc'

/-- **C19 (success).** The selection succeeds whenever every selected entry points to a readable row; an empty selection
succeeds if no column of the table is ragged. -/
theorem C19_succeeds_partial (s : State) (region : List Int) (arg : Sel) (is : List Int)
    (hp : arg.positions region.length = .ok is)
    (hr : ∀ p ∈ is, ∃ k r, pyGet region p = .ok k ∧ s.row k = .ok r)
    (hne : is ≠ [] ∨ ∀ c ∈ s.cols, c.depth = 0) : ∃ f, getMany s region arg = .ok f := by
  obtain ⟨ret, hret⟩ := collect_total (f := pyGet region) (l := is) (fun p hp => by
    obtain ⟨k, r, h1, -⟩ := hr p hp; exact ⟨k, h1⟩)
  have hrow : ∀ k ∈ uniq ret, ∃ r, s.row k = .ok r := by
    intro k hk
    rw [mem_uniq] at hk
    rw [collect_ok_iff] at hret
    obtain ⟨p, hp, he⟩ := forall₂_mem_right hret k hk
    obtain ⟨k', r, h1, h2⟩ := hr p hp
    rw [h1] at he; cases he; exact ⟨r, h2⟩
  obtain ⟨ids, hids⟩ := collect_total (f := pyGet s.ids) (l := uniq ret) (fun k hk => by
    obtain ⟨r, h⟩ := hrow k hk; exact (row_ok_iff h).1)
  have hcols : ∃ cols, colsSel (uniq ret) s.cols = .ok cols := by
    have hc : ∀ c ∈ s.cols, ∃ v, colSel c (uniq ret) = .ok v := by
      intro c hc
      have : ¬ (c.depth ≠ 0 ∧ uniq ret = []) := by
        rintro ⟨hd, hu⟩
        rcases hne with hne | hall
        · apply hne
          rw [collect_ok_iff] at hret
          have hl := (forall₂_get hret).1
          cases ret with
          | nil => exact List.length_eq_zero_iff.1 hl
          | cons a t => have := (mem_uniq a (a :: t)).2 (by simp); rw [hu] at this; simp at this
        · exact hd (hall c hc)
      rw [colSel, if_neg this]
      exact collect_total (fun k hk => by obtain ⟨r, h⟩ := hrow k hk; exact (row_ok_iff h).2 c hc)
    generalize s.cols = cs at hc
    induction cs with
    | nil => exact ⟨[], rfl⟩
    | cons c cs ih =>
      obtain ⟨v, hv⟩ := hc c (by simp)
      obtain ⟨vs, hvs⟩ := ih (fun c hc' => hc c (by simp [hc']))
      exact ⟨(c.name, v) :: vs, by simp only [colsSel, hv, hvs]⟩
  obtain ⟨cols, hcols⟩ := hcols
  have hsub : ∀ v ∈ ret, v ∈ uniq ret := fun v hv => (mem_uniq v ret).2 hv
  obtain ⟨xs, h1, -⟩ := collect_iloc (pyGet s.ids) hids hsub
  obtain ⟨ws, h3, -⟩ := colsSel_iloc hsub s.cols cols hcols
  exact ⟨⟨xs, ws⟩, by simp only [getMany, hp, hret, selRows, hids, hcols, iloc, h1, h3]⟩

/-- a table of three rows with a plain and a ragged column -/
def demoT : State := (runOk (fresh [("a", 0), ("b", 1)] [])
  [.addRow [("a", .atom 10), ("b", .list [.atom 1, .atom 2])] none false,
   .addRow [("a", .atom 11), ("b", .list [])] none false,
   .addRow [("a", .atom 12), ("b", .list [.atom 3])] (some 7) false]).getD (fresh [] [])

example : getMany demoT [2, 0, 2, 1] (.ints [0, -1, 2]) = .ok ⟨[7, 1, 7], [("a", [.atom 12, .atom 11, .atom 12]),
    ("b", [.list [.atom 3], .list [], .list [.atom 3]])]⟩ := by decide +kernel
example : getMany demoT [2, 0, 2, 1] (.slice ⟨none, none, some (-2)⟩) = .ok ⟨[1, 0], [("a", [.atom 11, .atom 10]),
    ("b", [.list [], .list [.atom 1, .atom 2]])]⟩ := by decide +kernel

/-- **C19 fails** for an empty selection when the target table has a ragged column: IndexError instead of no rows. -/
theorem C19_empty_selection_fails : ∃ (s : State) (region : List Int), Inv s ∧
    (∀ k ∈ region, ∃ r, s.row k = .ok r) ∧ getMany s region (.ints []) = .error .indexError := by
  refine ⟨fresh [("b", 1)] [], [], fresh_inv (by decide +kernel), by simp, by decide +kernel⟩

/-- **C20.** Reading position `k` of a region of length `n` as an index raises IndexError iff `k` is outside `[-n, n)`. -/
theorem C20_entry (region : List Int) (k : Int) :
    entry region k = .error .indexError ↔ ¬ (-(region.length : Int) ≤ k ∧ k < region.length) := by
  unfold entry
  by_cases h1 : k ≥ region.length
  · rw [if_pos h1]; simp; omega
  · rw [if_neg h1]
    unfold pyGet pyPos
    by_cases h0 : 0 ≤ k
    · rw [if_pos h0, if_pos (by omega)]
      simp only [List.getElem?_eq_getElem (show k.toNat < region.length by omega)]
      simp; omega
    · rw [if_neg h0]
      by_cases h2 : 0 ≤ k + region.length
      · rw [if_pos h2]
        simp only [List.getElem?_eq_getElem (show (k + region.length).toNat < region.length by omega)]
        simp; omega
      · rw [if_neg h2]; simp; omega

/-- **C20 (rows).** If every value of the region is a row number of an aligned table, reading position `k` as a row
succeeds iff `k` is in `[-n, n)`, raises IndexError otherwise, and yields the row pointed to. -/
theorem C20_row (s : State) (region : List Int) (k : Int) (hi : ∀ c ∈ s.cols, c.len = s.len)
    (hreg : ∀ v ∈ region, 0 ≤ v ∧ v < s.len) :
    ((-(region.length : Int) ≤ k ∧ k < region.length) →
      ∃ v r, v ∈ region ∧ pyGet region k = .ok v ∧ getOne s region k = .ok r ∧ s.row v = .ok r) ∧
    (¬ (-(region.length : Int) ≤ k ∧ k < region.length) → getOne s region k = .error .indexError) := by
  constructor
  · intro hk
    have hne : entry region k ≠ .error .indexError := fun h => (C20_entry region k).1 h hk
    have hpy : entry region k = pyGet region k := by unfold entry; rw [if_neg (by omega)]
    rw [hpy] at hne
    have hex : ∃ v, v ∈ region ∧ pyGet region k = .ok v := by
      unfold pyGet at hne ⊢
      cases hp : pyPos region.length k with
      | none => simp [hp] at hne
      | some p =>
        simp only [hp] at hne ⊢
        cases hg : region[p]? with
        | none => simp [hg] at hne
        | some v => exact ⟨v, List.mem_of_getElem? hg, rfl⟩
    obtain ⟨v, hv, hg⟩ := hex
    have hb := hreg v hv
    obtain ⟨m, rfl⟩ : ∃ m : Nat, v = m := ⟨v.toNat, by omega⟩
    have hm : m < s.ids.length := by have := hb.2; simp only [State.len] at this; omega
    have hrow : ∃ r, s.row (m : Int) = .ok r := by
      have hc : ∀ c ∈ s.cols, ∃ w, c.get (m : Int) = .ok w := by
        intro c hc
        have hl : c.vals.length = s.ids.length := by rw [Column.length_vals]; exact hi c hc
        exact ⟨_, Column.get_vals c m (c.vals[m]'(by omega)) (List.getElem?_eq_getElem _)⟩
      obtain ⟨vs, h1, -⟩ := rowCells_ok (m : Int) s.cols hc
      exact ⟨(s.ids[m], vs), by simp only [State.row, pyGet_nat, List.getElem?_eq_getElem hm, h1]⟩
    obtain ⟨r, hr⟩ := hrow
    exact ⟨m, r, hv, hg, by simp only [getOne, hpy, hg, hr], hr⟩
  · intro hk
    simp only [getOne, (C20_entry region k).2 hk]

example : getOne demoT [2, 0] (-1) = .ok (0, [("a", .atom 10), ("b", .list [.atom 1, .atom 2])]) ∧
    getOne demoT [2, 0] 2 = .error .indexError ∧ getOne demoT [2, 0] (-3) = .error .indexError := by decide +kernel

/-- **C20 fails** as stated without the condition on the region's values: nothing checks that they are rows of the target
table, so a position within the region can raise IndexError. -/
theorem C20_dangling_fails : ∃ (s : State) (region : List Int) (k : Int), Inv s ∧ 0 ≤ k ∧ k < region.length ∧
    getOne s region k = .error .indexError :=
  ⟨fresh [("a", 0)] [], [5], 0, fresh_inv (by decide +kernel), by decide, by decide, by decide +kernel⟩

/-- **C70.** A region made by `create_region` only holds row numbers of the table; from a list it is that list, and the
call raises IndexError iff some number is out of range; from a slice accepted it is what Python slicing selects. -/
theorem C70_create_region (s : State) :
    (∀ arg data, createRegion s arg = .ok data → ∀ v ∈ data, 0 ≤ v ∧ v < s.len) ∧
    (∀ l : List Int, (∀ v ∈ l, 0 ≤ v ∧ v < s.len) → createRegion s (.ints l) = .ok l) ∧
    (∀ l : List Int, (∃ v ∈ l, v < 0 ∨ v ≥ s.len) → createRegion s (.ints l) = .error .indexError) ∧
    (∀ r data, createRegion s (.slice r) = .ok data → r.range s.len = .ok data) ∧
    (∀ r : PySlice, r.step ≠ some 0 → (∀ a, r.start = some a → 0 ≤ a) → (∀ b, r.stop = some b → b ≤ s.len) →
      ∃ data, createRegion s (.slice r) = .ok data) := by
  refine ⟨?_, ?_, ?_, ?_, ?_⟩
  · intro arg data h
    cases arg with
    | slice r =>
      simp only [createRegion] at h
      split at h
      · simp at h
      · exact PySlice.mem_range h
    | ints l =>
      simp only [createRegion] at h
      split at h
      · simp at h
      · rename_i hn
        simp only [Except.ok.injEq] at h; subst h
        intro v hv
        simp only [List.any_eq_true, Bool.or_eq_true, decide_eq_true_eq, not_exists, not_and] at hn
        have := hn v hv; omega
  · intro l hl
    simp only [createRegion]
    rw [if_neg]
    simp only [List.any_eq_true, Bool.or_eq_true, decide_eq_true_eq, not_exists, not_and]
    intro v hv; have := hl v hv; omega
  · rintro l ⟨v, hv, hb⟩
    simp only [createRegion]
    rw [if_pos]
    rw [List.any_eq_true]
    exact ⟨v, hv, by simpa using hb⟩
  · intro r data h
    simp only [createRegion] at h
    split at h
    · simp at h
    · exact h
  · intro r h0 ha hb
    simp only [createRegion]
    rw [if_neg]
    · unfold PySlice.range PySlice.indices
      have : r.step.getD 1 ≠ 0 := by
        cases hs : r.step with
        | none => simp
        | some x => intro hx; simp at hx; exact h0 (by rw [hs, hx])
      simp only [this, if_false]
      exact ⟨_, rfl⟩
    · simp only [Bool.or_eq_true, not_or]
      constructor
      · cases hs : r.start with
        | none => simp
        | some a => have := ha a hs; simp; omega
      · cases hs : r.stop with
        | none => simp
        | some a => have := hb a hs; simp; omega

example : createRegion demoT (.slice ⟨some 1, some 3, none⟩) = .ok [1, 2] ∧
    createRegion demoT (.ints [2, 0, 2]) = .ok [2, 0, 2] ∧
    createRegion demoT (.ints [-1]) = .error .indexError := by decide +kernel

end Verif.Region

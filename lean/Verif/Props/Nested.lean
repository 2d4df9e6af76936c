import Verif.Lemmas.NestedTotal
import Mathlib.Tactic.FinCases

/-!
# Tables whose columns refer to rows of other tables (C188–C191)

`Shows E n t rs f` (Verif/Lemmas/Nested.lean) says, without reference to how frames are computed, that the data frame `f`
shows the rows `rs` of table `t`.
-/

namespace Verif.Nested
open Verif List

/-! ## tables for the examples -/

/-- three tables: 2 is plain; 1 has a region into 2 and a ragged column; 0 has a region into 1 and a ragged region into 2 -/
def E₀ : Env
  | 0 => ⟨[10, 11, 12], [("a", .region [1, 0, 1] 1), ("b", .raggedRegion [2, 3, 5] [2, 0, 1, 1, 2] 2)]⟩
  | 1 => ⟨[20, 21], [("c", .region [2, 0] 2), ("d", .ragged [1, 3] [7, 8, 9])]⟩
  | 2 => ⟨[30, 31, 32], [("e", .plain [4, 5, 6])]⟩
  | _ => ⟨[], []⟩

/-- rows of table 2 as frames -/
def row2 (id v : Int) : Cell := .frame [id] [("e", [.val v])]

theorem E₀_wf : WF E₀ (fun t => 3 - t) (fun t => t = 2) where
  rect := by
    intro t c hc
    match t, hc with
    | 0, hc => fin_cases hc <;> rfl
    | 1, hc => fin_cases hc <;> rfl
    | 2, hc => fin_cases hc <;> rfl
    | t + 3, hc => cases hc
  flat := by
    rintro t rfl c hc
    fin_cases hc
    exact .inl ⟨_, rfl⟩
  region := by
    intro t c hc d t' he
    match t, hc with
    | 0, hc => fin_cases hc <;> cases he; exact ⟨by decide, by decide⟩
    | 1, hc => fin_cases hc <;> cases he; exact ⟨by decide, by decide⟩
    | 2, hc => fin_cases hc <;> cases he
    | t + 3, hc => cases hc
  ragged := by
    intro t c hc idx d t' he
    match t, hc with
    | 0, hc => fin_cases hc <;> cases he; exact ⟨by decide, by decide, .inl rfl⟩
    | 1, hc => fin_cases hc <;> cases he
    | 2, hc => fin_cases hc <;> cases he
    | t + 3, hc => cases hc

/-! ## C188: regions are expanded into the rows they refer to -/

/-- **C188**  Whatever rows of a table are asked for — with an integer, a list or a slice — the data frame returned with
`index=False` shows those rows, each region cell being a frame of the row referred to, each cell of a ragged region a frame
of the rows referred to, in order and with repetitions, and so on through all tables. -/
theorem C188_expands (E : Env) (hE : Rect E) (n t : Nat) (arg : Sel) (f : Frame) (h : get E n t arg = .ok f) :
    ∃ rs, SelRows (E t).ids.length arg rs ∧ Shows E n t rs f := get_shows hE n t arg f h

example : get E₀ 3 0 (.list [2, 0]) = .ok ⟨[12, 10],
    [("a", [.frame [21] [("c", [row2 30 4]), ("d", [.vals [8, 9]])], .frame [21] [("c", [row2 30 4]), ("d", [.vals [8, 9]])]]),
     ("b", [.frame [31, 32] [("e", [.val 5, .val 6])], .frame [32, 30] [("e", [.val 6, .val 4])]])]⟩ := by rfl

example : get E₀ 3 0 (.slice ⟨some (-2), none, none⟩) = .ok ⟨[11, 12],
    [("a", [.frame [20] [("c", [row2 32 6]), ("d", [.vals [7]])], .frame [21] [("c", [row2 30 4]), ("d", [.vals [8, 9]])]]),
     ("b", [.frame [31] [("e", [.val 5])], .frame [31, 32] [("e", [.val 5, .val 6])]])]⟩ := by rfl

/-- **C188**  That determines the frame: there is one frame that shows given rows of a table, and what a selection means in
rows is unique. -/
theorem C188_determined (E : Env) (n m t : Nat) (arg : Sel) (rs ss : List Nat) (f g : Frame)
    (hr : SelRows (E t).ids.length arg rs) (hs : SelRows (E t).ids.length arg ss) (hf : Shows E n t rs f)
    (hg : Shows E m t ss g) : f = g := by
  cases hr.unique hs
  exact hf.unique hg

example : ∃ f, Shows E₀ 3 0 [2, 0] f := by
  obtain ⟨f, hf⟩ := get_total E₀_wf 4 0 (.list [2, 0]) (by decide) ⟨by decide, .inr (by decide)⟩
  obtain ⟨rs, h1, h2⟩ := get_shows E₀_wf.rect 4 0 _ f hf
  have hg : get E₀ 3 0 (.list [2, 0]) = .ok f := by
    have : get E₀ 3 0 (.list [2, 0]) = get E₀ 4 0 (.list [2, 0]) := by rfl
    rw [this]; exact hf
  obtain ⟨rs, h1, h2⟩ := get_shows E₀_wf.rect 3 0 _ f hg
  have : rs = [2, 0] := h1.unique (show SelRows 3 (.list [2, 0]) [2, 0] from .cons rfl (.cons rfl .nil))
  exact ⟨f, this ▸ h2⟩

/-- **C188**, missing: tables that refer to themselves, and empty cells of ragged regions into tables with ragged columns.
If tables only refer to tables of lower rank, by numbers of existing rows, and no cell of a ragged region is empty (or the
table it refers to has no ragged columns, nor those it refers to), then every selection of existing rows succeeds, with as
many levels as the rank of the table. -/
theorem C188_total_partial (E : Env) (rank : Nat → Nat) (S : Nat → Prop) (w : WF E rank S) (n t : Nat) (arg : Sel)
    (hn : rank t < n) (hr : InRange (E t).ids.length (S t) arg) :
    ∃ f rs, get E n t arg = .ok f ∧ SelRows (E t).ids.length arg rs ∧ Shows E n t rs f := by
  obtain ⟨f, hf⟩ := get_total w n t arg hn hr
  obtain ⟨rs, h1, h2⟩ := get_shows w.rect n t arg f hf
  exact ⟨f, rs, hf, h1, h2⟩

example : WF E₀ (fun t => 3 - t) (fun t => t = 2) ∧ InRange (E₀ 0).ids.length (0 = 2) (.slice ⟨none, none, some (-1)⟩) :=
  ⟨E₀_wf, [2, 1, 0], rfl, .inr (by decide)⟩

/-- a table with a region into itself (rows point to their "parent" row) -/
def selfRef : Env := fun _ => ⟨[0, 1], [("parent", .region [0, 0] 0)]⟩

/-- **C188**, violated: a table with a region into itself cannot be turned into a data frame at all — however deep the
recursion is allowed to go, it ends in a `RecursionError` — although all its entries are numbers of existing rows. -/
theorem C188_self_fails : ∃ (E : Env) (t : Nat), Rect E ∧
    (∀ c ∈ (E t).cols, ∀ d t', c.2 = .region d t' → ∀ v ∈ d, 0 ≤ v ∧ v < (E t').ids.length) ∧
    ∀ n, get E n t (.int 0) = .error .runtimeError ∧ toDataframe E n t = .error .runtimeError := by
  have h1 : ∀ n, get selfRef n 0 (.int 0) = .error .runtimeError := by
    intro n
    induction n with
    | zero => rfl
    | succ n ih =>
      change tblGet (get selfRef n) (selfRef 0) (.int 0) = _
      simp only [tblGet, selfRef, idsGet, mapE, colCells, colGet, regionGet]
      have e : pyGet [(0 : Int), 0] 0 = .ok 0 := rfl
      have e2 : pyGet [(0 : Int), 1] 0 = .ok 0 := rfl
      rw [e, e2, if_neg (by decide)]
      simp only [ih]
      rfl
  have h2 : ∀ n, get selfRef n 0 (.list [0]) = .error .runtimeError := by
    intro n
    induction n with
    | zero => rfl
    | succ n ih =>
      change tblGet (get selfRef n) (selfRef 0) (.list [0]) = _
      simp only [tblGet, selfRef, idsGet, colCells, colGet, regionGet, deref, mapE]
      have e : pyGet [(0 : Int), 0] 0 = .ok 0 := rfl
      have e2 : pyGet [(0 : Int), 1] 0 = .ok 0 := rfl
      have e3 : uniq [(0 : Int)] = [0] := rfl
      simp only [e, e2, e3, ih]
      rfl
  refine ⟨selfRef, 0, ?_, ?_, fun n => ⟨h1 n, ?_⟩⟩
  · intro t c hc; fin_cases hc; rfl
  · intro c hc d t' he; fin_cases hc; cases he; decide
  · cases n with
    | zero => rfl
    | succ n =>
      change tblGet (get selfRef n) (selfRef 0) (.slice ⟨none, none, none⟩) = _
      have e : sliceOf [(0 : Int), 1] ⟨none, none, none⟩ = .ok [0, 1] := rfl
      have e2 : sliceOf [(0 : Int), 0] ⟨none, none, none⟩ = .ok [0, 0] := rfl
      have e3 : uniq [(0 : Int), 0] = [0] := rfl
      simp only [tblGet, selfRef, idsGet, colCells, colGet, regionGet, deref, mapE, e, e2, e3]
      rw [h2 n]
      rfl

/-- **C188**  The same whenever following references from a row never ends: no selection that contains the row succeeds,
whatever the depth allowed. -/
theorem C188_endless (E : Env) (hE : Rect E) (S : Nat → Nat → Prop)
    (hS : ∀ t r, S t r → ∃ t' k, Refers E t r t' k ∧ S t' k) (n t : Nat) (arg : Sel) (rs : List Nat) (r : Nat)
    (hs : SelRows (E t).ids.length arg rs) (hr : r ∈ rs) (h : S t r) : ∀ f, get E n t arg ≠ .ok f := by
  intro f hf
  obtain ⟨ss, h1, h2⟩ := get_shows hE n t arg f hf
  cases h1.unique hs
  exact Shows.none_of_closed hS n t rs f r hr h h2

example : (∀ t r, r = 0 → ∃ t' k, Refers selfRef t r t' k ∧ k = 0) ∧ SelRows (selfRef 0).ids.length (.int 0) [0] :=
  ⟨fun _ _ hr => ⟨0, 0, ⟨_, List.mem_singleton.2 rfl, .inl ⟨[0, 0], 0, rfl, by rw [hr]; rfl, rfl⟩⟩, rfl⟩, ⟨0, rfl, rfl⟩⟩

/-- a ragged region of which the first cell is empty, into a table with a ragged column -/
def emptyCell : Env
  | 0 => ⟨[0, 1], [("r", .raggedRegion [0, 1] [0] 1)]⟩
  | 1 => ⟨[5], [("d", .ragged [2] [7, 8])]⟩
  | _ => ⟨[], []⟩

/-- **C188**, violated: a row with an empty cell of a ragged region cannot be read if the table referred to has a ragged
column (IndexError), although there is a frame that shows it, and so the whole table cannot be turned into a data frame. -/
theorem C188_empty_cell_fails : ∃ (E : Env) (t : Nat) (f : Frame), Rect E ∧ Shows E 2 t [0] f ∧
    ∀ n, get E (n + 2) t (.int 0) = .error .indexError ∧ toDataframe E (n + 2) t = .error .indexError := by
  refine ⟨emptyCell, 0, ⟨[0], [("r", [.frame [] [("d", [])]])]⟩, ?_, ⟨.cons rfl .nil, .cons ⟨rfl, .cons ⟨by decide, [], ⟨[], [("d", [])]⟩,
    .nil, ⟨.nil, .cons ⟨rfl, .nil⟩ .nil⟩, rfl⟩ .nil⟩ .nil⟩, fun n => ⟨by rfl, by rfl⟩⟩
  intro t c hc
  match t, hc with
  | 0, hc => fin_cases hc; rfl
  | 1, hc => fin_cases hc; rfl
  | t + 2, hc => cases hc

/-! ## C189: all ways to get a row agree -/

theorem iloc_one {f g : Frame} {j : Nat} (h : iloc f [j] = .ok g) :
    g.ids = (f.ids[j]?).toList ∧ g.cols = f.cols.map fun c => (c.1, (c.2[j]?).toList) := by
  have key : ∀ {α : Type} {l v : List α}, mapE (fun p : Nat => pyGet l (p : Int)) [j] = .ok v → v = (l[j]?).toList := by
    intro α l v hv
    rw [mapE_ok_iff] at hv
    cases hv with
    | cons hx hr => cases hr; rw [pyGet_nat.1 hx]; rfl
  unfold iloc at h
  cases h1 : mapE (fun p : Nat => pyGet f.ids p) [j] with
  | error e => rw [h1] at h; cases h
  | ok ids =>
    rw [h1] at h
    cases h2 : ilocCols [j] f.cols with
    | error e => rw [h2] at h; cases h
    | ok cols =>
      rw [h2] at h
      simp only [Except.ok.injEq] at h
      subst h
      refine ⟨key h1, ?_⟩
      unfold ilocCols at h2
      rw [mapE_ok_iff] at h2
      have h3 := forall₂_mem_imp (S := fun c d => d = (c.1, (c.2[j]?).toList)) h2 fun c _ d hd => by
        cases h4 : mapE (fun p : Nat => pyGet c.2 p) [j] with
        | error e => rw [h4] at hd; cases hd
        | ok v => rw [h4] at hd; simp only [Except.ok.injEq] at hd; rw [← hd, key h4]
      clear h1 h2
      change cols = _
      generalize f.cols = l at h3
      induction h3 with
      | nil => rfl
      | cons he _ ih => rw [List.map_cons, he, ih]

/-- **C189**  Getting one row and getting several rows agree: the row at place `j` of what a selection returns — its id and
the cell of every column, nested frames included — is what asking for that row alone returns. -/
theorem C189_row (E : Env) (hE : Rect E) (n m t : Nat) (arg : Sel) (rs : List Nat) (j : Nat) (i : Int) (r : Nat) (f g : Frame)
    (hf : get E n t arg = .ok f) (hs : SelRows (E t).ids.length arg rs) (hj : rs[j]? = some r)
    (hi : pyPos (E t).ids.length i = some r) (hg : get E m t (.int i) = .ok g) :
    g.ids = (f.ids[j]?).toList ∧ g.cols = f.cols.map fun c => (c.1, (c.2[j]?).toList) := by
  obtain ⟨ss, h1, h2⟩ := get_shows hE n t arg f hf
  cases h1.unique hs
  obtain ⟨ss', ⟨k, hk, rfl⟩, h4⟩ := get_shows hE m t _ g hg
  rw [hi] at hk; cases hk
  have hjl : j < rs.length := by
    by_contra hc; rw [List.getElem?_eq_none (by omega)] at hj; cases hj
  obtain ⟨g', hg'⟩ := iloc_total h2 (pos := [j]) fun p hp => by rw [List.mem_singleton.1 hp]; exact hjl
  have h5 := iloc_shows h2 (.cons hj .nil) hg'
  cases h5.unique h4
  exact iloc_one hg'

example : get E₀ 3 0 (.int (-1)) = .ok ⟨[12],
    [("a", [.frame [21] [("c", [row2 30 4]), ("d", [.vals [8, 9]])]]), ("b", [.frame [31, 32] [("e", [.val 5, .val 6])]])]⟩ := by rfl

/-- **C189**  `table[row, name]` is the cell of that column in the row. -/
theorem C189_cell (E : Env) (n t : Nat) (row : Int) (name : String) (x : Cell) (g : Frame)
    (hx : cellAt E n t row name = .ok x) (hg : get E (n + 1) t (.int row) = .ok g) :
    g.cols.find? (fun c => c.1 = name) = some (name, [x]) := by
  obtain ⟨_, hc⟩ := tblGet_ok (show tblGet (get E n) (E t) (.int row) = .ok g from hg)
  rw [mapE_ok_iff] at hc
  unfold cellAt at hx
  generalize g.cols = cols at hc
  generalize (E t).cols = l at hc hx
  induction hc with
  | nil => cases hx
  | @cons c d cs ds hcd _ ih =>
    obtain ⟨gg, h1, h2, h3⟩ := colCells_ok hcd
    by_cases hn : c.1 = name
    · rw [List.find?_cons_of_pos (by simpa using hn)] at hx
      rw [List.find?_cons_of_pos (by simpa [h3] using hn)]
      simp only [h1] at hx
      have h2' : single gg = .ok d.2 := h2
      rw [h2'] at hx
      obtain ⟨d1, d2⟩ := d
      simp only at h3 hx ⊢
      split at hx
      · rename_i y he
        simp only [Except.ok.injEq] at hx he
        rw [h3, hn, he, hx]
      · cases hx
      · cases hx
    · rw [List.find?_cons_of_neg (by simpa using hn)] at hx
      rw [List.find?_cons_of_neg (by simpa [h3] using hn)]
      exact ih hx

example : cellAt E₀ 2 0 2 "b" = .ok (.frame [31, 32] [("e", [.val 5, .val 6])]) := by rfl

/-- **C189**  What a region cell holds is what the table referred to gives for the row: if column `c` is a region into
table `t'` then its cell in row `r` is `tables[t'].get(entry)`. -/
theorem C189_region (E : Env) (hE : Rect E) (n m t : Nat) (arg : Sel) (rs : List Nat) (j r c : Nat) (f g : Frame) (name : String)
    (d : List Int) (t' : Nat) (v : Int) (hf : get E n t arg = .ok f) (hs : SelRows (E t).ids.length arg rs)
    (hj : rs[j]? = some r) (hc : (E t).cols[c]? = some (name, .region d t')) (hv : d[r]? = some v)
    (hg : get E m t' (.int v) = .ok g) : ∃ cells, f.cols[c]? = some (name, cells) ∧ cells[j]? = some g.cell := by
  obtain ⟨ss, h1, h2⟩ := get_shows hE n t arg f hf
  cases h1.unique hs
  obtain ⟨_, ⟨k, hk, rfl⟩, h4⟩ := get_shows hE m t' _ g hg
  cases n with
  | zero => exact h2.elim
  | succ n =>
    obtain ⟨dd, hd1, hd2, hd3⟩ := forall₂_getElem?' h2.2 hc
    obtain ⟨x, hx1, w, k', f', hw, hk', hsub, rfl⟩ := forall₂_getElem?' hd3 hj
    rw [hv] at hw; cases hw
    rw [hk] at hk'; cases hk'
    rw [hsub.unique h4] at hx1
    exact ⟨dd.2, by rw [hd1]; exact congrArg some (Prod.ext hd2 rfl), hx1⟩

example : (E₀ 0).cols[0]? = some ("a", .region [1, 0, 1] 1) ∧
    get E₀ 2 1 (.int 1) = .ok ⟨[21], [("c", [row2 30 4]), ("d", [.vals [8, 9]])]⟩ := by constructor <;> rfl

/-- **C189**  The same for a ragged region: its cell is `tables[t'].get(entries)`, the entries being the part of the data
that the row stands for. -/
theorem C189_ragged_region (E : Env) (hE : Rect E) (n m t : Nat) (arg : Sel) (rs : List Nat) (j r c : Nat) (f g : Frame)
    (name : String) (idx : List Nat) (d : List Int) (t' : Nat) (hf : get E n t arg = .ok f)
    (hs : SelRows (E t).ids.length arg rs) (hj : rs[j]? = some r) (hc : (E t).cols[c]? = some (name, .raggedRegion idx d t'))
    (hg : get E m t' (.list (seg idx d r)) = .ok g) :
    ∃ cells, f.cols[c]? = some (name, cells) ∧ cells[j]? = some g.cell := by
  obtain ⟨ss, h1, h2⟩ := get_shows hE n t arg f hf
  cases h1.unique hs
  obtain ⟨ks', hk, h4⟩ := get_shows hE m t' _ g hg
  cases n with
  | zero => exact h2.elim
  | succ n =>
    obtain ⟨dd, hd1, hd2, hd3⟩ := forall₂_getElem?' h2.2 hc
    obtain ⟨x, hx1, _, ks, f', hks, hsub, rfl⟩ := forall₂_getElem?' hd3 hj
    have : ks = ks' := forall₂_unique hks hk fun a b c x y => by rw [x] at y; exact Option.some.inj y
    subst this
    rw [hsub.unique h4] at hx1
    exact ⟨dd.2, by rw [hd1]; exact congrArg some (Prod.ext hd2 rfl), hx1⟩

example : seg [2, 3, 5] [2, 0, 1, 1, 2] 0 = [2, 0] ∧
    get E₀ 1 2 (.list [2, 0]) = .ok ⟨[32, 30], [("e", [.val 6, .val 4])]⟩ := by constructor <;> rfl

/-! ## C190: `region.to_dataframe()` and `region[:]` -/

theorem toDataframe_shows {E : Env} (hE : Rect E) {n t : Nat} {f : Frame} (h : toDataframe E n t = .ok f) :
    Shows E n t (List.range (E t).ids.length) f := by
  obtain ⟨rs, ⟨is, his, hrs⟩, h2⟩ := get_shows hE n t _ f h
  have : is.map Int.toNat = List.range (E t).ids.length := by
    have e : ∀ k : Nat, ((k : Int) - 0 + 1 - 1) / 1 = k := by intro k; omega
    simp only [PySlice.range, PySlice.indices, Option.getD_none, show (1 : Int) ≠ 0 by decide, if_false,
      show (1 : Int) > 0 by decide, if_true, Except.ok.injEq, rangeUp, e, Int.toNat_natCast] at his
    rw [← his, List.map_map]
    conv_rhs => rw [← List.map_id (List.range (E t).ids.length)]
    refine List.map_congr_left fun k _ => ?_
    simp
  rw [← this, ← hrs]; exact h2

/-- the frame of a region's table picked with the region's data shows the rows referred to -/
theorem regionToDataframe_shows {E : Env} (hE : Rect E) {n t : Nat} {data : List Int} {f : Frame}
    (h : regionToDataframe E n t data = .ok f) :
    ∃ ks, Forall₂ (fun v k => pyPos (E t).ids.length v = some k) data ks ∧ Shows E n t ks f := by
  unfold regionToDataframe at h
  cases h1 : toDataframe E n t with
  | error e => rw [h1] at h; cases h
  | ok f0 =>
    rw [h1] at h
    have hs := toDataframe_shows hE h1
    have hl : f0.ids.length = (E t).ids.length := by rw [hs.ids_len, List.length_range]
    simp only [hl] at h
    split at h
    · cases h
    · rename_i pos hpos
      rw [mapE_ok_iff] at hpos
      have hp : Forall₂ (fun v k => pyPos (E t).ids.length v = some k) data pos := hpos.imp fun v k hk => by
        unfold ilocPos at hk
        cases hq : pyPos (E t).ids.length v with
        | none => rw [hq] at hk; cases hk
        | some q => rw [hq] at hk; simp only [Except.ok.injEq] at hk; rw [hk]
      refine ⟨pos, hp, iloc_shows hs ?_ h⟩
      rw [forall₂_same]
      intro p hp'
      obtain ⟨j, hj⟩ := List.getElem?_of_mem hp'
      obtain ⟨v, _, hv⟩ := forall₂_getElem? hp hj
      rw [List.getElem?_range (pyPos_lt hv)]

theorem sliceAll (data : List Int) : sliceOf data ⟨none, none, none⟩ = .ok data := by
  unfold sliceOf
  have e : ∀ k : Nat, ((k : Int) - 0 + 1 - 1) / 1 = k := by intro k; omega
  simp only [PySlice.range, PySlice.indices, Option.getD_none, show (1 : Int) ≠ 0 by decide, if_false,
    show (1 : Int) > 0 by decide, if_true, rangeUp, e, Int.toNat_natCast, mapE_ok_iff]
  rw [forall₂_map_left_iff, forall₂_iff_get]
  refine ⟨by simp, ?_⟩
  intro i h1 h2
  simp only [List.get_eq_getElem, List.getElem_range]
  have e3 : (0 : Int) + 1 * (i : Int) = (i : Int) := by omega
  rw [e3, pyGet_nat]
  exact List.getElem?_eq_getElem h2

/-- **C190**  `region.to_dataframe()` and `region[:]` are the same frame, which shows the rows the region refers to, one
for each entry of its data. -/
theorem C190_same (E : Env) (hE : Rect E) (n m t : Nat) (data : List Int) (f g : Frame)
    (hf : regionToDataframe E n t data = .ok f) (hg : regionAt E m t data (.slice ⟨none, none, none⟩) = .ok g) :
    f = g ∧ ∃ ks, Forall₂ (fun v k => pyPos (E t).ids.length v = some k) data ks ∧ Shows E n t ks f := by
  obtain ⟨ks, h1, h2⟩ := regionToDataframe_shows hE hf
  simp only [regionAt, regionGet, sliceAll] at hg
  obtain ⟨ls, h3, h4⟩ := deref_shows (get_shows hE m) hg
  have : ks = ls := forall₂_unique h1 h3 fun a b c x y => by rw [x] at y; exact Option.some.inj y
  subst this
  exact ⟨h2.unique h4, ks, h1, h2⟩

example : regionToDataframe E₀ 2 1 [1, 0, 1] = .ok ⟨[21, 20, 21],
    [("c", [row2 30 4, row2 32 6, row2 30 4]), ("d", [.vals [8, 9], .vals [7], .vals [8, 9]])]⟩ := by rfl

/-- **C190**, missing: empty regions into tables with ragged columns.  Both succeed, and agree, for a region with at least
one entry, all entries numbers of existing rows. -/
theorem C190_total_partial (E : Env) (rank : Nat → Nat) (S : Nat → Prop) (w : WF E rank S) (n t : Nat) (data : List Int)
    (hn : rank t < n) (hd : ∀ v ∈ data, 0 ≤ v ∧ v < (E t).ids.length) (hne : data ≠ []) :
    ∃ f, regionToDataframe E n t data = .ok f ∧ regionAt E n t data (.slice ⟨none, none, none⟩) = .ok f := by
  have hpos : 0 < (E t).ids.length := by
    cases data with
    | nil => exact absurd rfl hne
    | cons v _ => have := hd v List.mem_cons_self; omega
  have hall : ∃ is, (⟨none, none, none⟩ : PySlice).range (E t).ids.length = .ok is ∧ (S t ∨ is ≠ []) := by
    refine ⟨rangeUp 0 (E t).ids.length 1, rfl, .inr fun hc => ?_⟩
    have := congrArg List.length hc
    simp only [rangeUp, List.length_map, List.length_range, List.length_nil] at this
    omega
  obtain ⟨f0, hf0⟩ := get_total w n t (.slice ⟨none, none, none⟩) hn hall
  have hs := toDataframe_shows w.rect (show toDataframe E n t = .ok f0 from hf0)
  obtain ⟨f, hf⟩ := iloc_total hs (pos := data.map Int.toNat) fun p hp => by
    obtain ⟨v, hv, rfl⟩ := List.mem_map.1 hp
    rw [List.length_range]; have := hd v hv; omega
  have hl : f0.ids.length = (E t).ids.length := by rw [hs.ids_len, List.length_range]
  have h1 : regionToDataframe E n t data = .ok f := by
    have : mapE (ilocPos (E t).ids.length) data = .ok (data.map Int.toNat) := by
      rw [mapE_ok_iff]
      exact (forall₂_pos_of_range hd).imp fun v k hk => by unfold ilocPos; rw [hk]
    unfold regionToDataframe
    rw [show toDataframe E n t = .ok f0 from hf0]
    simp only [hl, this, hf]
  obtain ⟨f1, hf1⟩ := get_total w n t (.list (uniq data)) hn
    ⟨fun v hv => hd v (mem_uniq.1 hv), .inr (uniq_ne_nil hne)⟩
  obtain ⟨g, hg⟩ := deref_total w.rect hf1
  have h2 : regionAt E n t data (.slice ⟨none, none, none⟩) = .ok g := by
    simp only [regionAt, regionGet, sliceAll, hg]
  exact ⟨f, h1, by rw [h2, (C190_same E w.rect n n t data f g h1 h2).1]⟩

example : ∀ v ∈ [(1 : Int), 0, 1], 0 ≤ v ∧ v < (E₀ 1).ids.length := by decide

/-- **C190**, violated: for a region without entries into a table with a ragged column, `region.to_dataframe()` is an empty
frame and `region[:]` raises IndexError. -/
theorem C190_empty_fails : ∃ (E : Env) (t : Nat) (f : Frame), ∀ n, regionToDataframe E (n + 1) t [] = .ok f ∧
    regionAt E (n + 1) t [] (.slice ⟨none, none, none⟩) = .error .indexError :=
  ⟨fun _ => ⟨[5], [("d", .ragged [2] [7, 8])]⟩, 0, ⟨[], [("d", [])]⟩, fun n => ⟨by rfl, by rfl⟩⟩

/-! ## C191: `table[...]` gives row numbers -/

/-- what a cell of `table[...]` holds: for a region the number of the row, for a ragged region the numbers of the rows -/
def NumberIs : Col → Nat → Cell → Prop
  | .plain d, r, c => ∃ v, d[r]? = some v ∧ c = .val v
  | .ragged idx d, r, c => r < idx.length ∧ c = .vals (seg idx d r)
  | .region d _, r, c => ∃ v, d[r]? = some v ∧ c = .val v
  | .raggedRegion idx d _, r, c => r < idx.length ∧ c = .vals (seg idx d r)

/-- **C191**  `table[rows]` does not follow the regions: the frame has the ids and, for each column, one cell for each row,
which for a region is the number of the row referred to and for a ragged region the list of these. -/
theorem C191_numbers (E : Env) (hE : Rect E) (t : Nat) (arg : Sel) (f : Frame) (h : getIndex (E t) arg = .ok f) :
    ∃ rs, SelRows (E t).ids.length arg rs ∧ Forall₂ (fun r i => (E t).ids[r]? = some i) rs f.ids ∧
      Forall₂ (fun c d => d.1 = c.1 ∧ Forall₂ (NumberIs c.2) rs d.2) (E t).cols f.cols := by
  rw [getIndex_eq] at h
  obtain ⟨rs, h1, h2, h3⟩ := get_shows (hE.flat t) 1 0 arg f h
  refine ⟨rs, h1, h2, ?_⟩
  simp only [Tbl.flat, forall₂_map_left_iff] at h3
  refine h3.imp ?_
  rintro ⟨nm, c⟩ d ⟨hn, hd⟩
  refine ⟨hn, hd.imp ?_⟩
  intro r x hx
  cases c <;> exact hx

example : getIndex (E₀ 0) (.list [2, 0]) = .ok ⟨[12, 10],
    [("a", [.val 1, .val 1]), ("b", [.vals [1, 2], .vals [2, 0]])]⟩ := by rfl

/-- **C191**  That works whatever the regions refer to — rows that do not exist, the table itself — for every selection of
at least one existing row (of any rows if no column is ragged). -/
theorem C191_total (E : Env) (hE : Rect E) (t : Nat) (arg : Sel)
    (hr : InRange (E t).ids.length (∀ c ∈ (E t).cols, (∃ d, c.2 = .plain d) ∨ ∃ d t', c.2 = .region d t') arg) :
    ∃ f, getIndex (E t) arg = .ok f := by
  rw [getIndex_eq]
  refine get_total (rank := fun _ => 0)
    (S := fun _ => ∀ c ∈ (E t).cols, (∃ d, c.2 = .plain d) ∨ ∃ d t', c.2 = .region d t') ?_ 1 0 arg (by decide) hr
  refine ⟨hE.flat t, ?_, ?_, ?_⟩
  · intro _ hs c hc
    obtain ⟨c', hc', rfl⟩ := List.mem_map.1 hc
    rcases hs c' hc' with ⟨d, hd⟩ | ⟨d, t', hd⟩
    · exact .inl ⟨d, by simp only [hd, Col.flat]⟩
    · exact .inl ⟨d, by simp only [hd, Col.flat]⟩
  · intro _ c hc d t' he
    obtain ⟨⟨nm, c'⟩, hc', rfl⟩ := List.mem_map.1 hc
    cases c' <;> cases he
  · intro _ c hc idx d t' he
    obtain ⟨⟨nm, c'⟩, hc', rfl⟩ := List.mem_map.1 hc
    cases c' <;> cases he

example : getIndex (selfRef 0) (.slice ⟨none, none, none⟩) = .ok ⟨[0, 1], [("parent", [.val 0, .val 0])]⟩ := by rfl

end Verif.Nested

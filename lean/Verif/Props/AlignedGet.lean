import Verif.Lemmas.AlignedGet

/-!
# Selecting from aligned tables (C195–C199)

`NumberIs` and `CellIs` (Verif/Props/Nested.lean, Verif/Lemmas/Nested.lean) say what a cell holds: the number of the row a
region refers to, or that row itself as a frame.  `wide E a` (Verif/Lemmas/AlignedGet.lean) lists all columns under their
two names.
-/

namespace Verif.AlignedGet
open Verif Verif.Nested List

/-! ## a table for the examples -/

/-- table 0: the main table, with a value and a ragged column; 1: a category with a value and a region into 3; 2: a
category without columns; 3: the table referred to -/
def E₁ : Env
  | 0 => ⟨[10, 11], [("x", .plain [1, 2]), ("y", .ragged [2, 3] [7, 8, 9])]⟩
  | 1 => ⟨[1, 0], [("u", .plain [5, 6]), ("v", .region [1, 0] 3)]⟩
  | 2 => ⟨[4, 5], []⟩
  | 3 => ⟨[30, 31], [("w", .plain [70, 71])]⟩
  | _ => ⟨[], []⟩

/-- the aligned table of the examples -/
def a₁ : ATbl := ⟨"tab", 0, [("A", 1), ("B", 2)]⟩

theorem E₁_rect : Rect E₁ := by
  intro t c hc
  match t, hc with
  | 0, hc => fin_cases hc <;> rfl
  | 1, hc => fin_cases hc <;> rfl
  | 2, hc => cases hc
  | 3, hc => fin_cases hc <;> rfl
  | t + 4, hc => cases hc

theorem a₁_aligned : Aligned E₁ a₁ := by
  intro p hp
  replace hp : p ∈ ([("A", 1), ("B", 2)] : List (String × Nat)) := hp
  fin_cases hp <;> rfl

theorem a₁_named : Named E₁ a₁ where
  cat := by intro p hp; replace hp : p ∈ ([("A", 1), ("B", 2)] : List (String × Nat)) := hp; fin_cases hp <;> decide
  main := by intro c hc; fin_cases hc <;> decide
  cols := by
    intro p hp c hc
    replace hp : p ∈ ([("A", 1), ("B", 2)] : List (String × Nat)) := hp
    fin_cases hp
    · fin_cases hc <;> decide
    · cases hc
  nodup := by decide

/-! ## C195: `table[rows]` -/

/-- **C195**  `table[rows]` puts the same rows of all tables beside each other: the index holds the ids of the main table,
the columns are all columns of the main table and for each category its ids and its columns, in order, and each column has
one cell for each selected row — regions as row numbers. -/
theorem C195_rows (E : Env) (hE : Rect E) (a : ATbl) (hA : Aligned E a) (n : Nat) (sel : Sel) (x : Res)
    (h : getItem E n a (.rows sel) = .ok x) :
    ∃ j rs, x = .joined j ∧ SelRows (E a.main).ids.length sel rs ∧
      Forall₂ (fun r i => (E a.main).ids[r]? = some i) rs j.ids ∧
      Forall₂ (fun c d => d.1 = c.1 ∧ Forall₂ (NumberIs c.2) rs d.2) (wide E a) j.cols := by
  obtain ⟨j, hj, rfl⟩ := except_map_ok.1 (show (rowsAt E a sel).map Res.joined = .ok x from h)
  obtain ⟨rs, h1, h2, h3⟩ := rowsAt_show hE hA hj
  exact ⟨j, rs, rfl, h1, h2, h3⟩

example : getItem E₁ 2 a₁ (.rows (.list [1, 0])) = .ok (.joined ⟨[11, 10],
    [(("tab", "x"), [.val 2, .val 1]), (("tab", "y"), [.vals [9], .vals [7, 8]]),
     (("A", "id"), [.val 0, .val 1]), (("A", "u"), [.val 6, .val 5]), (("A", "v"), [.val 0, .val 1]),
     (("B", "id"), [.val 5, .val 4])]⟩) := by rfl

/-- **C195**  This works for every selection of at least one existing row (of any rows if no column is ragged), unless a
category has the name of the main table or a column is named `id`. -/
theorem C195_total (E : Env) (hE : Rect E) (a : ATbl) (hA : Aligned E a) (hN : Named E a) (n : Nat) (sel : Sel)
    (hr : InRange (E a.main).ids.length (Flat (E a.main) ∧ ∀ p ∈ a.cats, Flat (E p.2)) sel) :
    ∃ j, getItem E n a (.rows sel) = .ok (.joined j) := by
  obtain ⟨j, hj⟩ := rowsAt_total hE hA hN hr
  exact ⟨j, by show (rowsAt E a sel).map Res.joined = _; rw [hj]; rfl⟩

example : Rect E₁ ∧ Aligned E₁ a₁ ∧ Named E₁ a₁ ∧ InRange (E₁ a₁.main).ids.length False (.list [1, 0]) :=
  ⟨E₁_rect, a₁_aligned, a₁_named, by decide, .inr (by decide)⟩

theorem labels_of {R : Col → Nat → Cell → Prop} {rs : List Nat} {E : Env} {a : ATbl} {ds : List ((String × String) × List Cell)}
    (h : ColsShow R rs (wide E a) ds) : ds.map (·.1) = colnames E a false := by
  have e : (wide E a).map (·.1) = colnames E a false := by
    unfold wide colnames
    simp [List.map_append, List.map_flatMap, List.map_map, Function.comp_def]
  rw [← e]
  unfold ColsShow at h
  generalize wide E a = cs at h
  clear e
  induction h with
  | nil => rfl
  | cons h1 _ ih => simp only [List.map_cons, h1.1, ih]

/-- **C195**  The columns of `table[rows]` and of `to_dataframe()` are those of
`get_colnames(include_category_tables=True)`, in that order. -/
theorem C195_labels (E : Env) (hE : Rect E) (a : ATbl) (hA : Aligned E a) (n : Nat) (j : Joined)
    (h : (∃ sel, getItem E n a (.rows sel) = .ok (.joined j)) ∨ toDataframeA E (n + 1) a false = .ok j) :
    j.cols.map (·.1) = colnames E a false := by
  rcases h with ⟨sel, h⟩ | h
  · obtain ⟨j', rs, e, _, _, h3⟩ := C195_rows E hE a hA n sel _ h
    cases e
    exact labels_of h3
  · exact labels_of (toDataframeA_show hE hA h).2

example : colnames E₁ a₁ false = [("tab", "x"), ("tab", "y"), ("A", "id"), ("A", "u"), ("A", "v"), ("B", "id")] ∧
    colnames E₁ a₁ true = [("tab", "x"), ("tab", "y"), ("A", "u"), ("A", "v")] := by decide +kernel

/-! ## C196: `to_dataframe` -/

/-- **C196**  `to_dataframe()` puts all rows of all tables beside each other, with the ids of the main table as index and
the rows that regions refer to as frames. -/
theorem C196_all (E : Env) (hE : Rect E) (a : ATbl) (hA : Aligned E a) (n : Nat) (j : Joined)
    (h : toDataframeA E (n + 1) a false = .ok j) :
    j.ids = (E a.main).ids ∧
      Forall₂ (fun c d => d.1 = c.1 ∧ Forall₂ (CellIs E (Shows E n) c.2) (List.range (E a.main).ids.length) d.2)
        (wide E a) j.cols :=
  toDataframeA_show hE hA h

example : toDataframeA E₁ 2 a₁ false = .ok ⟨[10, 11],
    [(("tab", "x"), [.val 1, .val 2]), (("tab", "y"), [.vals [7, 8], .vals [9]]),
     (("A", "id"), [.val 1, .val 0]), (("A", "u"), [.val 5, .val 6]),
     (("A", "v"), [.frame [31] [("w", [.val 71])], .frame [30] [("w", [.val 70])]]),
     (("B", "id"), [.val 4, .val 5])]⟩ := by rfl

/-- **C196**  It works if it works for each of the tables, unless a category has the name of the main table or a column is
named `id`. -/
theorem C196_total (E : Env) (hE : Rect E) (a : ATbl) (hA : Aligned E a) (hN : Named E a) (n : Nat)
    (hm : ∃ f, toDataframe E (n + 1) a.main = .ok f) (hc : ∀ p ∈ a.cats, ∃ f, toDataframe E (n + 1) p.2 = .ok f) :
    ∃ j, toDataframeA E (n + 1) a false = .ok j :=
  toDataframeA_total hE hA hN hm hc

example : (∃ f, toDataframe E₁ 2 a₁.main = .ok f) ∧ ∀ p ∈ a₁.cats, ∃ f, toDataframe E₁ 2 p.2 = .ok f := by
  refine ⟨⟨⟨[10, 11], [("x", [.val 1, .val 2]), ("y", [.vals [7, 8], .vals [9]])]⟩, by rfl⟩, ?_⟩
  intro p hp
  replace hp : p ∈ ([("A", 1), ("B", 2)] : List (String × Nat)) := hp
  fin_cases hp
  · exact ⟨⟨[1, 0], [("u", [.val 5, .val 6]), ("v", [.frame [31] [("w", [.val 71])], .frame [30] [("w", [.val 70])]])]⟩,
      by rfl⟩
  · exact ⟨⟨[4, 5], []⟩, by rfl⟩

/-- **C196**  A column of the main table and a category table by name: the column itself, and all rows of the category. -/
theorem C196_names (E : Env) (hE : Rect E) (a : ATbl) (n : Nat) (s : String) (x : Res)
    (h : getItem E (n + 1) a (.name (some s)) = .ok x) :
    (∃ c, colOf (E a.main) s = some c ∧ x = .column c) ∨
    (colOf (E a.main) s = none ∧ ∃ t f, Dict.get? a.cats s = some t ∧ x = .frame f ∧
      Shows E (n + 1) t (List.range (E t).ids.length) f) ∨
    (colOf (E a.main) s = none ∧ Dict.get? a.cats s = none ∧ s = a.name ∧
      ∃ j, toDataframeA E (n + 1) a false = .ok j ∧ x = .joined j) := by
  simp only [getItem, getName, Option.bind_some] at h
  cases h1 : colOf (E a.main) s with
  | some c => rw [h1] at h; cases h; exact .inl ⟨c, rfl, rfl⟩
  | none =>
    rw [h1] at h
    simp only [getCategory, Dict.has] at h
    cases h2 : Dict.get? a.cats s with
    | some t =>
      simp only [h2] at h
      simp only [Option.isSome_some, Bool.not_true, Bool.false_and, Bool.false_eq_true, if_false] at h
      obtain ⟨f, hf, rfl⟩ := except_map_ok.1 h
      exact .inr (.inl ⟨rfl, t, f, rfl, rfl, toDataframe_shows hE hf⟩)
    | none =>
      simp only [h2] at h
      by_cases hs : s = a.name
      · simp only [Option.isSome_none, Bool.not_false, Bool.true_and, hs, beq_self_eq_true, if_true] at h
        obtain ⟨j, hj, rfl⟩ := except_map_ok.1 h
        exact .inr (.inr ⟨rfl, rfl, hs, j, hj, rfl⟩)
      · simp [hs] at h

example : getItem E₁ 2 a₁ (.name (some "y")) = .ok (.column (.ragged [2, 3] [7, 8, 9])) ∧
    getItem E₁ 2 a₁ (.name (some "B")) = .ok (.frame ⟨[4, 5], []⟩) := ⟨by rfl, by rfl⟩

/-- **C196**  `to_dataframe(ignore_category_ids=True)` takes the ids of a category for the numbers of rows: row `r` shows
row `r` of the main table but of each category the row whose id is `r`. -/
theorem C196_ignore_ids (E : Env) (hE : Rect E) (a : ATbl) (hA : Aligned E a) (n : Nat) (j : Joined)
    (h : toDataframeA E (n + 1) a true = .ok j) :
    j.ids = (E a.main).ids ∧ ∃ dm ds, j.cols = dm ++ List.flatten ds ∧
      Forall₂ (fun c d => d.1 = (a.name, c.1) ∧
        Forall₂ (CellIs E (Shows E n) c.2) (List.range (E a.main).ids.length) d.2) (E a.main).cols dm ∧
      Forall₂ (fun p ds => Forall₂ (fun c d => d.1 = (p.1, c.1) ∧ ∃ rs, Forall₂ (CellIs E (Shows E n) c.2) rs d.2 ∧
        Forall₂ (fun (r k : Nat) => (E p.2).ids[k]? = some (r : Int)) (List.range (E a.main).ids.length) rs)
        (E p.2).cols ds) a.cats ds := by
  obtain ⟨h1, dm, ds, e, h2, h3⟩ := toDataframeA_labels hE hA h
  refine ⟨h1, dm, ds, e, ?_, ?_⟩
  · unfold ColsShow at h2
    rw [forall₂_map_left_iff] at h2
    exact h2
  · refine h3.imp ?_
    rintro p d ⟨hall, hd⟩
    unfold ColsShow at hd
    rw [forall₂_map_left_iff] at hd
    refine hd.imp ?_
    rintro c x ⟨hx1, hx2⟩
    refine ⟨hx1, _, hx2, ?_⟩
    unfold labelled
    rw [forall₂_map_right_iff, forall₂_same]
    intro r hr
    have := hall r (List.mem_range.1 hr)
    rw [List.getElem?_eq_getElem (List.idxOf_lt_length_of_mem this), List.getElem_idxOf]

example : toDataframeA E₁ 2 ⟨"tab", 0, [("A", 1)]⟩ true = .ok ⟨[10, 11],
    [(("tab", "x"), [.val 1, .val 2]), (("tab", "y"), [.vals [7, 8], .vals [9]]),
     (("A", "u"), [.val 6, .val 5]),
     (("A", "v"), [.frame [30] [("w", [.val 70])], .frame [31] [("w", [.val 71])]])]⟩ := by rfl

/-- **C196** (partial: only for categories whose ids are `0, 1, …`)  Then `to_dataframe(ignore_category_ids=True)` is
`to_dataframe()` without the ids of the categories: all rows of all tables beside each other. -/
theorem C196_ignore_ids_partial (E : Env) (hE : Rect E) (a : ATbl) (hA : Aligned E a) (n : Nat) (j : Joined)
    (hi : ∀ p ∈ a.cats, (E p.2).ids = (List.range (E a.main).ids.length).map fun r : Nat => (r : Int))
    (h : toDataframeA E (n + 1) a true = .ok j) :
    j.ids = (E a.main).ids ∧
      Forall₂ (fun c d => d.1 = c.1 ∧ Forall₂ (CellIs E (Shows E n) c.2) (List.range (E a.main).ids.length) d.2)
        (wideNoIds E a) j.cols := by
  obtain ⟨h1, dm, ds, e, h2, h3⟩ := toDataframeA_labels hE hA h
  refine ⟨h1, ?_⟩
  rw [e]
  refine rel_append h2 (colsShow_flatten ?_)
  refine forall₂_mem_imp h3 ?_
  rintro p hp d ⟨hall, hd⟩
  have : labelled (E p.2).ids (E a.main).ids.length = List.range (E a.main).ids.length := by
    unfold labelled
    conv_rhs => rw [← List.map_id (List.range (E a.main).ids.length)]
    refine List.map_congr_left fun r hr => ?_
    have hm := hall r (List.mem_range.1 hr)
    have hl := List.idxOf_lt_length_of_mem hm
    have hg := List.getElem_idxOf hl
    simp only [hi p hp, List.getElem_map, List.getElem_range] at hg
    rw [hi p hp]
    exact_mod_cast hg
  rw [this] at hd
  exact hd

/-- two tables with two rows, the ids of the category counting up -/
def E₂ : Env
  | 0 => ⟨[10, 11], [("x", .plain [1, 2])]⟩
  | 1 => ⟨[0, 1], [("u", .plain [5, 6])]⟩
  | _ => ⟨[], []⟩

example : toDataframeA E₂ 1 ⟨"tab", 0, [("A", 1)]⟩ true = .ok ⟨[10, 11],
    [(("tab", "x"), [.val 1, .val 2]), (("A", "u"), [.val 5, .val 6])]⟩ := by rfl

/-- **C196** fails: with other ids `to_dataframe(ignore_category_ids=True)` pairs rows of the main table with other rows of
the category than `to_dataframe()` does. -/
theorem C196_ignore_ids_fails : ∃ (E : Env) (a : ATbl) (j k : Joined), Rect E ∧ Aligned E a ∧ Named E a ∧
    toDataframeA E 1 a false = .ok j ∧ toDataframeA E 1 a true = .ok k ∧
    j.cols.find? (fun c => c.1 = ("A", "u")) = some (("A", "u"), [.val 5, .val 6]) ∧
    k.cols.find? (fun c => c.1 = ("A", "u")) = some (("A", "u"), [.val 6, .val 5]) := by
  refine ⟨fun t => match t with
    | 0 => ⟨[10, 11], [("x", .plain [1, 2])]⟩
    | 1 => ⟨[1, 0], [("u", .plain [5, 6])]⟩
    | _ => ⟨[], []⟩, ⟨"tab", 0, [("A", 1)]⟩,
    ⟨[10, 11], [(("tab", "x"), [.val 1, .val 2]), (("A", "id"), [.val 1, .val 0]), (("A", "u"), [.val 5, .val 6])]⟩,
    ⟨[10, 11], [(("tab", "x"), [.val 1, .val 2]), (("A", "u"), [.val 6, .val 5])]⟩, ?_, ?_, ?_, by rfl, by rfl, by rfl, by rfl⟩
  · intro t c hc
    match t, hc with
    | 0, hc => fin_cases hc; rfl
    | 1, hc => fin_cases hc; rfl
    | t + 2, hc => cases hc
  · intro p hp; replace hp : p ∈ ([("A", 1)] : List (String × Nat)) := hp; fin_cases hp; rfl
  · refine ⟨?_, ?_, ?_, by decide⟩
    · intro p hp; replace hp : p ∈ ([("A", 1)] : List (String × Nat)) := hp; fin_cases hp; decide
    · intro c hc; fin_cases hc; decide
    · intro p hp c hc; replace hp : p ∈ ([("A", 1)] : List (String × Nat)) := hp; fin_cases hp; fin_cases hc; decide

/-! ## C197: cells -/

/-- what `table[row, (category, column)]` gives for row `r` of a column: a value, for a region the number of the row, for
ragged columns a tuple of these -/
def PairIs : Col → Nat → Res → Prop
  | .plain d, r, x => ∃ v, d[r]? = some v ∧ x = .cell (.val v)
  | .ragged idx d, r, x => r < idx.length ∧ x = .tuple (seg idx d r)
  | .region d _, r, x => ∃ v, d[r]? = some v ∧ x = .cell (.val v)
  | .raggedRegion idx d _, r, x => r < idx.length ∧ x = .tuple (seg idx d r)

theorem pairIs_oneCell {c : Col} {r : Nat} {x : Cell} (h : NumberIs c r x) : PairIs c r (oneCell x) := by
  cases c with
  | plain d => obtain ⟨v, h1, rfl⟩ := h; exact ⟨v, h1, rfl⟩
  | ragged i d => obtain ⟨h1, rfl⟩ := h; exact ⟨h1, rfl⟩
  | region d t => obtain ⟨v, h1, rfl⟩ := h; exact ⟨v, h1, rfl⟩
  | raggedRegion i d t => obtain ⟨h1, rfl⟩ := h; exact ⟨h1, rfl⟩

theorem rowPair_of_rows {E : Env} (hE : Rect E) {a : ATbl} (hA : Aligned E a) (hN : Named E a) {row : Int} {cat col : String}
    {c : Col} (hc : colAt E a cat col = some c) {j : Joined} (h : rowsAt E a (.int row) = .ok j) :
    ∃ r x, pyPos (E a.main).ids.length row = some r ∧ rowPair E a row (some cat) col = .ok x ∧ PairIs c r x := by
  obtain ⟨rs, ⟨r, hr, rfl⟩, _, h3⟩ := rowsAt_show hE hA h
  obtain ⟨d, hd, hx⟩ := find?_show h3 (wide_find? hN hc)
  cases hx with
  | cons hx h0 =>
    cases h0
    refine ⟨r, _, hr, ?_, pairIs_oneCell hx⟩
    unfold rowPair
    simp only [h, cellOfRow, hd]

/-- **C197**  `table[row, (category, column)]` is the cell of that column in that row, negative rows counting from the
end.  The main table is named by its name.  A region gives the number of the row referred to. -/
theorem C197_pair (E : Env) (hE : Rect E) (a : ATbl) (hA : Aligned E a) (hN : Named E a) (n : Nat) (row : Int)
    (cat col : String) (c : Col) (hc : colAt E a cat col = some c) (x : Res)
    (h : getItem E n a (.rowPair row (some cat) col) = .ok x) :
    ∃ r, pyPos (E a.main).ids.length row = some r ∧ PairIs c r x := by
  have h' : rowPair E a row (some cat) col = .ok x := h
  cases h1 : rowsAt E a (.int row) with
  | error e => unfold rowPair at h'; rw [h1] at h'; cases h'
  | ok j =>
    obtain ⟨r, y, hr, hy, hp⟩ := rowPair_of_rows hE hA hN hc h1
    rw [hy] at h'
    cases h'
    exact ⟨r, hr, hp⟩

/-- **C197**  There is such a cell for every row, counted from the start, and every column. -/
theorem C197_pair_total (E : Env) (hE : Rect E) (a : ATbl) (hA : Aligned E a) (hN : Named E a) (n : Nat) (row : Int)
    (h0 : 0 ≤ row) (h1 : row < (E a.main).ids.length) (cat col : String) (c : Col) (hc : colAt E a cat col = some c) :
    ∃ x, getItem E n a (.rowPair row (some cat) col) = .ok x := by
  obtain ⟨j, hj⟩ := rowsAt_total hE hA hN (sel := .int row) ⟨h0, h1⟩
  obtain ⟨_, x, _, hx, _⟩ := rowPair_of_rows hE hA hN hc hj
  exact ⟨x, hx⟩

example : colAt E₁ a₁ "tab" "y" = some (.ragged [2, 3] [7, 8, 9]) ∧
    getItem E₁ 2 a₁ (.rowPair 0 (some "tab") "y") = .ok (.tuple [7, 8]) ∧
    colAt E₁ a₁ "A" "v" = some (.region [1, 0] 3) ∧
    getItem E₁ 2 a₁ (.rowPair (-1) (some "A") "v") = .ok (.cell (.val 0)) ∧
    getItem E₁ 2 a₁ (.rowPair 1 (some "B") "id") = .ok (.cell (.val 5)) := ⟨by rfl, by rfl, by rfl, by rfl, by rfl⟩

/-- **C197**  `table[row, category, column]` and `table[category, column, row]` are the same. -/
theorem C197_orders (E : Env) (n : Nat) (a : ATbl) (row : Int) (cat : Option String) (col : String) :
    getItem E n a (.rowCatCol row cat col) = getItem E n a (.catColRow cat col row) := rfl

example : getItem E₁ 2 a₁ (.rowCatCol 0 (some "A") "v") = .ok (.cell (.frame [31] [("w", [.val 71])])) := by rfl

/-- the column under a category, `None` standing for the main table -/
def colAtO (E : Env) (a : ATbl) (cat : Option String) (col : String) : Option Col :=
  colAt E a (cat.getD a.name) col

theorem categoryAt_col {E : Env} {a : ATbl} (hN : Named E a) {n : Nat} {cat : Option String} {col : String} {c : Col}
    (hc : colAtO E a cat col = some c) :
    categoryAt E n a cat (.name col) = .ok (.column c) ∨
      (col = "id" ∧ ∃ l, c = .plain l ∧ categoryAt E n a cat (.name col) = .ok (.ids l)) := by
  have hmain : colOf (E a.main) col = some c → getName E n a (some col) = .ok (.column c) := by
    intro h
    simp only [getName, Option.bind_some, h]
  unfold colAtO at hc
  cases cat with
  | none =>
    simp only [Option.getD_none, colAt, if_true] at hc
    left
    simp only [categoryAt, getCategory]
    exact hmain hc
  | some cat =>
    simp only [Option.getD_some, colAt] at hc
    have hself : Dict.get? a.cats a.name = none := by
      rw [Dict.get?_eq_none_iff]
      intro hk
      obtain ⟨p, hp, he⟩ := List.mem_map.1 hk
      exact hN.cat p hp he
    by_cases hcat : cat = a.name
    · subst hcat
      rw [if_pos rfl] at hc
      left
      simp only [categoryAt, getCategory, Dict.has, hself, Option.isSome_none, Bool.not_false, Bool.true_and,
        beq_self_eq_true, if_true]
      exact hmain hc
    · rw [if_neg hcat] at hc
      cases h1 : Dict.get? a.cats cat with
      | none => rw [h1] at hc; cases hc
      | some t =>
        rw [h1] at hc
        simp only [categoryAt, getCategory, Dict.has, h1, Option.isSome_some, Bool.not_true, Bool.false_and,
          Bool.false_eq_true, if_false, tableAt]
        by_cases hid : col = "id"
        · simp only [hid, if_true, Option.some.injEq] at hc ⊢
          exact .inr ⟨trivial, _, hc.symm, rfl⟩
        · simp only [hid, if_false] at hc ⊢
          left
          rw [hc]

/-- **C197**  `table[category, column]` is that column, the main table being named by its name or `None`; the ids of a
category are found under `id`. -/
theorem C197_column (E : Env) (a : ATbl) (hN : Named E a) (n : Nat) (cat : Option String) (col : String)
    (c : Col) (hc : colAtO E a cat col = some c) :
    getItem E n a (.catCol cat col) = .ok (.column c) ∨
      (col = "id" ∧ ∃ l, c = .plain l ∧ getItem E n a (.catCol cat col) = .ok (.ids l)) :=
  categoryAt_col hN hc

example : colAtO E₁ a₁ none "x" = some (.plain [1, 2]) ∧
    getItem E₁ 2 a₁ (.catCol none "x") = .ok (.column (.plain [1, 2])) ∧
    getItem E₁ 2 a₁ (.catCol (some "A") "id") = .ok (.ids [1, 0]) := ⟨by rfl, by rfl, by rfl⟩

/-- **C197**  `table[category, column, row]` is the cell of that column in that row, negative rows counting from the end; a
region gives the row referred to, as a frame. -/
theorem C197_cell (E : Env) (hE : Rect E) (a : ATbl) (hN : Named E a) (n : Nat) (row : Int) (cat : Option String)
    (col : String) (c : Col) (hc : colAtO E a cat col = some c) (x : Res)
    (h : getItem E n a (.catColRow cat col row) = .ok x) :
    ∃ r y, pyPos c.len row = some r ∧ x = .cell y ∧ CellIs E (Shows E n) c r y := by
  rcases categoryAt_col hN (n := n) hc with h1 | ⟨_, l, rfl, h1⟩
  · simp only [getItem, h1, index] at h
    cases h2 : colGet (Nested.get E n) (.int row) c with
    | error e => rw [h2] at h; cases h
    | ok g =>
      simp only [h2] at h
      cases h3 : single g with
      | error e => rw [h3] at h; cases h
      | ok cs =>
        rw [h3] at h
        obtain ⟨k, hk, hs⟩ := col_int (get_shows hE n) h2 h3
        cases hs with
        | cons hx h0 => cases h0; cases h; exact ⟨k, _, hk, rfl, hx⟩
  · simp only [getItem, h1, index] at h
    obtain ⟨v, hv, rfl⟩ := except_map_ok.1 h
    obtain ⟨k, hk, hv⟩ := pyGet_ok.1 hv
    exact ⟨k, _, hk, rfl, v, hv, rfl⟩

example : getItem E₁ 2 a₁ (.catColRow none "y" (-1)) = .ok (.cell (.vals [9])) ∧
    getItem E₁ 2 a₁ (.catColRow (some "A") "v" 0) = .ok (.cell (.frame [31] [("w", [.val 71])])) := ⟨by rfl, by rfl⟩

/-- **C197** (partial: not for regions; lists and tuples are told apart; the main table must be given by name)  The three
ways to select a cell give the same: the value, or the values of a ragged column — as a tuple for
`table[row, (category, column)]`, as a list otherwise. -/
theorem C197_agree_partial (E : Env) (hE : Rect E) (a : ATbl) (hA : Aligned E a) (hN : Named E a) (n : Nat) (row : Int)
    (h0 : 0 ≤ row) (h1 : row < (E a.main).ids.length) (cat col : String) :
    (∀ d, colAt E a cat col = some (.plain d) → d.length = (E a.main).ids.length →
      ∃ v, getItem E n a (.rowPair row (some cat) col) = .ok (.cell (.val v)) ∧
        getItem E n a (.rowCatCol row (some cat) col) = .ok (.cell (.val v)) ∧
        getItem E n a (.catColRow (some cat) col row) = .ok (.cell (.val v))) ∧
    (∀ idx d, colAt E a cat col = some (.ragged idx d) → idx.length = (E a.main).ids.length →
      ∃ vs, getItem E n a (.rowPair row (some cat) col) = .ok (.tuple vs) ∧
        getItem E n a (.rowCatCol row (some cat) col) = .ok (.cell (.vals vs)) ∧
        getItem E n a (.catColRow (some cat) col row) = .ok (.cell (.vals vs))) := by
  constructor
  · intro d hc hl
    obtain ⟨x, hx⟩ := C197_pair_total E hE a hA hN n row h0 h1 cat col _ hc
    obtain ⟨r, hr, v, hv, rfl⟩ := C197_pair E hE a hA hN n row cat col _ hc _ hx
    have hg : pyGet d row = .ok v := pyGet_ok.2 ⟨r, by rw [hl]; exact hr, hv⟩
    have h3 : getItem E n a (.catColRow (some cat) col row) = .ok (.cell (.val v)) := by
      rcases categoryAt_col hN (n := n) (cat := some cat) hc with e | ⟨_, l, e', e⟩
      · simp only [getItem, e, index, colGet, dataGet, hg, Except.map, single]
      · cases e'
        simp only [getItem, e, index, hg, Except.map]
    exact ⟨v, hx, h3, h3⟩
  · intro idx d hc hl
    obtain ⟨x, hx⟩ := C197_pair_total E hE a hA hN n row h0 h1 cat col _ hc
    obtain ⟨r, hr, _, rfl⟩ := C197_pair E hE a hA hN n row cat col _ hc _ hx
    obtain ⟨vs, hvs⟩ := raggedRow_total (data := d) h0 (hl.symm ▸ h1)
    obtain ⟨k, hk, rfl⟩ := raggedRow_ok hvs
    rw [hl, hr] at hk
    cases hk
    have h3 : getItem E n a (.catColRow (some cat) col row) = .ok (.cell (.vals (seg idx d r))) := by
      rcases categoryAt_col hN (n := n) (cat := some cat) hc with e | ⟨_, l, e', e⟩
      · simp only [getItem, e, index, colGet, indexGet, hvs, Except.map, single]
      · cases e'
    exact ⟨_, hx, h3, h3⟩

example : getItem E₁ 2 a₁ (.rowPair 1 (some "A") "u") = .ok (.cell (.val 6)) ∧
    getItem E₁ 2 a₁ (.rowCatCol 1 (some "A") "u") = .ok (.cell (.val 6)) := ⟨by rfl, by rfl⟩

/-- **C197** fails for regions: of the ways documented to select the same cell, one gives the number of the row and the
others the row. -/
theorem C197_region_fails : ∃ (E : Env) (a : ATbl) (f : Frame), Rect E ∧ Aligned E a ∧ Named E a ∧
    getItem E 2 a (.rowPair 0 (some "A") "v") = .ok (.cell (.val 1)) ∧
    getItem E 2 a (.rowCatCol 0 (some "A") "v") = .ok (.cell f.cell) :=
  ⟨E₁, a₁, ⟨[31], [("w", [.val 71])]⟩, E₁_rect, a₁_aligned, a₁_named, by rfl, by rfl⟩

/-- **C197** fails for `None`: `table[row, None, column]` selects from the main table, as documented, but
`table[row, (None, column)]` is a KeyError, for every table and row. -/
theorem C197_none_fails (E : Env) (hE : Rect E) (a : ATbl) (hA : Aligned E a) (hN : Named E a) (n : Nat) (row : Int)
    (h0 : 0 ≤ row) (h1 : row < (E a.main).ids.length) (col : String) :
    getItem E n a (.rowPair row none col) = .error .keyError ∧ getItem E n a (.rowCat row none) = .error .keyError := by
  obtain ⟨j, hj⟩ := rowsAt_total hE hA hN (sel := .int row) ⟨h0, h1⟩
  simp only [getItem, rowPair, rowCat, hj, cellOfRow, and_self]

example : getItem E₁ 2 a₁ (.rowCatCol 1 none "x") = .ok (.cell (.val 2)) := by rfl

/-! ## C198: rows of one table -/

theorem rowOfTable_many {j : Joined} {cat : String} {c d : (String × String) × List Cell}
    {l : List ((String × String) × List Cell)} (h : j.cols.filter (fun c => c.1.1 = cat) = c :: d :: l) :
    rowOfTable j cat = .ok (.frame ⟨j.ids, (c :: d :: l).map fun c => (c.1.2, c.2)⟩) := by
  unfold rowOfTable
  rw [h]

/-- **C198** (partial: the category must have a column)  `table[row, category]` and `table[category, row]` show the same row
of the category: the first with the id of the main table as index and the id of the category as a column, the second with
the id of the category as index. -/
theorem C198_category_partial (E : Env) (hE : Rect E) (a : ATbl) (hA : Aligned E a) (hN : Named E a) (n : Nat) (row : Int)
    (h0 : 0 ≤ row) (h1 : row < (E a.main).ids.length) (cat : String) (t : Nat) (ht : Dict.get? a.cats cat = some t)
    (hne : (E t).cols ≠ []) :
    ∃ i f, (E a.main).ids[row.toNat]? = some i ∧ getItem E n a (.catRow (some cat) row) = .ok (.frame f) ∧
      Forall₂ (fun r i => (E t).ids[r]? = some i) [row.toNat] f.ids ∧
      Forall₂ (fun c d => d.1 = c.1 ∧ Forall₂ (NumberIs c.2) [row.toNat] d.2) (E t).cols f.cols ∧
      getItem E n a (.rowCat row (some cat)) = .ok (.frame ⟨[i], ("id", f.ids.map .val) :: f.cols⟩) := by
  have hat := hA _ (Dict.mem_of_get? ht)
  obtain ⟨f, hf⟩ := C191_total E hE t (.int row) ⟨h0, hat.symm ▸ h1⟩
  obtain ⟨ss, ⟨k, hk, rfl⟩, hfs⟩ := getIndex_shows hE hf
  have hat' : (E t).ids.length = (E a.main).ids.length := hat
  rw [hat', pyPos_of_range h0 h1] at hk
  cases hk
  obtain ⟨j, hj⟩ := rowsAt_total hE hA hN (sel := .int row) ⟨h0, h1⟩
  obtain ⟨rs, ⟨k, hk, rfl⟩, hi, hc⟩ := rowsAt_show hE hA hj
  rw [pyPos_of_range h0 h1] at hk
  cases hk
  have hjf := filter_show hc (fun k => decide (k.1 = cat))
  rw [wide_filter_cat hN ht] at hjf
  have hu := untag_show hjf
  have he := colsShow_unique hu (es := ("id", f.ids.map .val) :: f.cols)
    (.cons ⟨rfl, ids_show (fun d r v hv => ⟨v, hv, rfl⟩) hfs.1⟩ hfs.2)
  obtain ⟨jids, jcols⟩ := j
  cases hi with
  | @cons _ i _ l hi1 hi2 =>
    cases hi2
    refine ⟨i, f, hi1, ?_, hfs.1, hfs.2, ?_⟩
    · simp only [getItem, categoryAt, getCategory, Dict.has, ht, Option.isSome_some, Bool.not_true, Bool.false_and,
        Bool.false_eq_true, if_false, tableAt, hf, Except.map]
    · simp only [getItem, rowCat, hj]
      have hlen : (jcols.filter fun c => c.1.1 = cat).length = (E t).cols.length + 1 := by
        have := hu.length_eq
        simp only [List.length_cons, List.length_map] at this
        exact this.symm
      have hpos : 0 < (E t).cols.length := List.length_pos_of_ne_nil hne
      cases hl : jcols.filter fun c => c.1.1 = cat with
      | nil => rw [hl] at hlen; simp at hlen
      | cons x xs =>
        cases xs with
        | nil => rw [hl] at hlen; simp only [List.length_cons, List.length_nil] at hlen; omega
        | cons y ys =>
          rw [rowOfTable_many (j := ⟨[i], jcols⟩) hl]
          simp only [hl] at he
          rw [he]

example : getItem E₁ 2 a₁ (.rowCat 1 (some "A")) =
      .ok (.frame ⟨[11], [("id", [.val 0]), ("u", [.val 6]), ("v", [.val 0])]⟩) ∧
    getItem E₁ 2 a₁ (.catRow (some "A") 1) = .ok (.frame ⟨[0], [("u", [.val 6]), ("v", [.val 0])]⟩) := ⟨by rfl, by rfl⟩

/-- **C198** fails for a category without columns: `table[row, category]` is an array with its id, not a frame. -/
theorem C198_category_fails : ∃ (E : Env) (a : ATbl), Rect E ∧ Aligned E a ∧ Named E a ∧
    getItem E 2 a (.catRow (some "B") 1) = .ok (.frame ⟨[5], []⟩) ∧
    getItem E 2 a (.rowCat 1 (some "B")) = .ok (.array [.val 5]) :=
  ⟨E₁, a₁, E₁_rect, a₁_aligned, a₁_named, by rfl, by rfl⟩

/-- **C198** (partial: the main table must have two columns)  `table[row, table.name]` shows the row of the main table
alone. -/
theorem C198_main_partial (E : Env) (hE : Rect E) (a : ATbl) (hA : Aligned E a) (hN : Named E a) (n : Nat) (row : Int)
    (h0 : 0 ≤ row) (h1 : row < (E a.main).ids.length) (hne : 2 ≤ (E a.main).cols.length) :
    ∃ f, getItem E n a (.rowCat row (some a.name)) = .ok (.frame f) ∧
      Forall₂ (fun r i => (E a.main).ids[r]? = some i) [row.toNat] f.ids ∧
      Forall₂ (fun c d => d.1 = c.1 ∧ Forall₂ (NumberIs c.2) [row.toNat] d.2) (E a.main).cols f.cols := by
  obtain ⟨j, hj⟩ := rowsAt_total hE hA hN (sel := .int row) ⟨h0, h1⟩
  obtain ⟨rs, ⟨k, hk, rfl⟩, hi, hc⟩ := rowsAt_show hE hA hj
  rw [pyPos_of_range h0 h1] at hk
  cases hk
  have hjf := filter_show hc (fun k => decide (k.1 = a.name))
  rw [wide_filter_main hN] at hjf
  have hu := untag_show hjf
  have hlen : (j.cols.filter fun c => c.1.1 = a.name).length = (E a.main).cols.length := by
    have := hu.length_eq
    simp only [List.length_map] at this
    exact this.symm
  simp only [getItem, rowCat, hj]
  cases hl : j.cols.filter fun c => c.1.1 = a.name with
  | nil => rw [hl] at hlen; simp at hlen; omega
  | cons x xs =>
    cases xs with
    | nil => rw [hl] at hlen; simp at hlen; omega
    | cons y ys =>
      rw [rowOfTable_many hl]
      rw [hl] at hu
      exact ⟨_, rfl, hi, hu⟩

example : getItem E₁ 2 a₁ (.rowCat 1 (some "tab")) = .ok (.frame ⟨[11], [("x", [.val 2]), ("y", [.vals [9]])]⟩) := by rfl

/-- **C198** fails for a main table with one column: `table[row, table.name]` is an array, not a frame. -/
theorem C198_main_fails : ∃ (E : Env) (a : ATbl), Rect E ∧ Aligned E a ∧ Named E a ∧ (E a.main).cols ≠ [] ∧
    getItem E 1 a (.rowCat 1 (some a.name)) = .ok (.array [.val 2]) := by
  refine ⟨E₂, ⟨"tab", 0, [("A", 1)]⟩, ?_, ?_, ?_, by decide, by rfl⟩
  · intro t c hc
    match t, hc with
    | 0, hc => fin_cases hc; rfl
    | 1, hc => fin_cases hc; rfl
    | t + 2, hc => cases hc
  · intro p hp; replace hp : p ∈ ([("A", 1)] : List (String × Nat)) := hp; fin_cases hp; rfl
  · refine ⟨?_, ?_, ?_, by decide⟩
    · intro p hp; replace hp : p ∈ ([("A", 1)] : List (String × Nat)) := hp; fin_cases hp; decide
    · intro c hc; fin_cases hc; decide
    · intro p hp c hc; replace hp : p ∈ ([("A", 1)] : List (String × Nat)) := hp; fin_cases hp; fin_cases hc; decide

/-- **C198** fails for the main table: `table[table.name, row]` and `table[None, row]` are the row of all tables,
`table[row]`, and not that of the main table, whenever there is a category. -/
theorem C198_main_row_fails (E : Env) (hE : Rect E) (a : ATbl) (hA : Aligned E a) (hN : Named E a) (n : Nat) (row : Int)
    (h0 : 0 ≤ row) (h1 : row < (E a.main).ids.length) (hc : a.cats ≠ []) :
    ∃ j, getItem E n a (.catRow (some a.name) row) = .ok (.joined j) ∧ getItem E n a (.catRow none row) = .ok (.joined j) ∧
      getItem E n a (.rows (.int row)) = .ok (.joined j) ∧ ∃ c ∈ j.cols, c.1.1 ≠ a.name := by
  obtain ⟨j, hj⟩ := rowsAt_total hE hA hN (sel := .int row) ⟨h0, h1⟩
  have hself : Dict.get? a.cats a.name = none := by
    rw [Dict.get?_eq_none_iff]
    intro hk
    obtain ⟨p, hp, he⟩ := List.mem_map.1 hk
    exact hN.cat p hp he
  refine ⟨j, ?_, ?_, ?_, ?_⟩
  · simp only [getItem, categoryAt, getCategory, Dict.has, hself, Option.isSome_none, Bool.not_false, Bool.true_and,
      beq_self_eq_true, if_true, hj, Except.map]
  · simp only [getItem, categoryAt, getCategory, hj, Except.map]
  · simp only [getItem, hj, Except.map]
  · obtain ⟨rs, _, _, h3⟩ := rowsAt_show hE hA hj
    have hl := labels_of h3
    obtain ⟨p, l, hp⟩ := List.exists_cons_of_ne_nil hc
    have : (p.1, "id") ∈ j.cols.map (·.1) := by
      rw [hl]
      unfold colnames
      rw [hp]
      simp
    obtain ⟨c, hc1, hc2⟩ := List.mem_map.1 this
    exact ⟨c, hc1, by rw [hc2]; exact hN.cat p (hp ▸ List.mem_cons_self)⟩

example : a₁.cats ≠ [] ∧ Named E₁ a₁ := ⟨by decide, a₁_named⟩

/-! ## C199: `in` -/

/-- **C199** (partial: the category must exist, the column not be `id`)  `(category, column) in table` says whether
`table[category, column]` is a column. -/
theorem C199_pair_partial (E : Env) (a : ATbl) (n : Nat) (cat col : String) (t : Nat)
    (ht : Dict.get? a.cats cat = some t) (hid : col ≠ "id") :
    (containsPair E a (some cat) col = .ok true ∧ ∃ c, getItem E n a (.catCol (some cat) col) = .ok (.column c)) ∨
    (containsPair E a (some cat) col = .ok false ∧ getItem E n a (.catCol (some cat) col) = .error .keyError) := by
  simp only [containsPair, getItem, categoryAt, getCategory, Dict.has, ht, Option.isSome_some, Bool.not_true,
    Bool.false_and, Bool.false_eq_true, if_false, tableAt, hid]
  cases h : colOf (E t) col with
  | none => right; simp
  | some c => left; simp

example : containsPair E₁ a₁ (some "A") "u" = .ok true ∧ containsPair E₁ a₁ (some "A") "x" = .ok false := ⟨by rfl, by rfl⟩

/-- **C199** fails: for a category that does not exist `(category, column) in table` raises KeyError instead of being
False, for every column. -/
theorem C199_unknown_fails (E : Env) (a : ATbl) (cat col : String) (h : Dict.get? a.cats cat = none) (hn : cat ≠ a.name) :
    containsPair E a (some cat) col = .error .keyError := by
  simp [containsPair, getCategory, Dict.has, h, hn]

example : Dict.get? a₁.cats "C" = none := by decide +kernel

/-- **C199** fails: `(category, 'id') in table` is False for every category without such a column, though
`get_colnames(include_category_tables=True)` lists it and it can be selected. -/
theorem C199_id_fails (E : Env) (a : ATbl) (hN : Named E a) (n : Nat) (cat : String) (t : Nat)
    (ht : Dict.get? a.cats cat = some t) :
    containsPair E a (some cat) "id" = .ok false ∧ (cat, "id") ∈ colnames E a false ∧
      getItem E n a (.catCol (some cat) "id") = .ok (.ids (E t).ids) := by
  have hm := Dict.mem_of_get? ht
  refine ⟨?_, ?_, ?_⟩
  · simp only [containsPair, getCategory, Dict.has, ht, Option.isSome_some, Bool.not_true, Bool.false_and,
      Bool.false_eq_true, if_false]
    have : colOf (E t) "id" = none := by
      unfold colOf
      rw [Option.map_eq_none_iff, List.find?_eq_none]
      intro c hc
      simpa using hN.cols _ hm c hc
    rw [this]; rfl
  · unfold colnames
    refine List.mem_append_right _ (List.mem_flatMap.2 ⟨_, hm, ?_⟩)
    simp
  · simp [getItem, categoryAt, getCategory, Dict.has, ht, tableAt]

example : Dict.get? a₁.cats "A" = some 1 := by decide +kernel

/-- **C199** (partial: not for the name of the table)  `name in table` says whether `table[name]` finds a column or a
category. -/
theorem C199_name_partial (E : Env) (a : ATbl) (n : Nat) (s : String) (hn : s ≠ a.name) :
    (containsName E a s = true ∧ ((∃ c, getItem E n a (.name (some s)) = .ok (.column c)) ∨
      ∃ t, Dict.get? a.cats s = some t ∧ getItem E n a (.name (some s)) = (toDataframe E n t).map .frame)) ∨
    (containsName E a s = false ∧ getItem E n a (.name (some s)) = .error .keyError) := by
  cases h1 : colOf (E a.main) s with
  | some c => left; simp [containsName, getItem, getName, h1]
  | none =>
    cases h2 : Dict.get? a.cats s with
    | some t => left; simp [containsName, getItem, getName, getCategory, Dict.has, h1, h2]
    | none => right; simp [containsName, getItem, getName, getCategory, Dict.has, h1, h2, hn]

example : containsName E₁ a₁ "x" = true ∧ containsName E₁ a₁ "A" = true ∧ containsName E₁ a₁ "u" = false := by
  decide +kernel

/-- **C199** fails: `table.name in table` is False though `table[table.name]` works. -/
theorem C199_self_fails : ∃ (E : Env) (a : ATbl) (j : Joined), Rect E ∧ Aligned E a ∧ Named E a ∧
    containsName E a a.name = false ∧ getItem E 2 a (.name (some a.name)) = .ok (.joined j) :=
  ⟨E₁, a₁, _, E₁_rect, a₁_aligned, a₁_named, by decide +kernel, by rfl⟩

end Verif.AlignedGet

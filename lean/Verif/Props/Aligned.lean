import Verif.Lemmas.Aligned
import Verif.Props.Table

/-!
# Properties of aligned tables
-/

namespace Verif.Aligned
open Verif

/-- **C22.** A constructed aligned table has, after any history of successful calls, distinct category names, and all its
category tables have as many rows as the main table. -/
theorem C22_aligned (name : String) (main : Table.State) (ts : Option (List TableArg)) (cats : Option (List String)) (s0 s : State)
    (ops : List Op) (h0 : init name main ts cats = .ok s0) (h : runOk s0 ops = some s) :
    (s.cats.map Prod.fst).Nodup ∧ ∀ p ∈ s.cats, p.2.ids.length = s.main.ids.length := by
  have i0 : Inv s0 := by
    cases ts with
    | none =>
      cases cats with
      | some _ => simp [init] at h0
      | none =>
        simp only [init, Except.ok.injEq] at h0
        subst h0
        exact ⟨by simp [Dict.keys], by simp⟩
    | some l =>
      obtain ⟨-, -, h3, -, h5⟩ := init_ok h0
      exact ⟨h3, fun c t hg => (h5 c t hg).1⟩
  have i := runOk_inv ops s0 s i0 h
  exact ⟨i.nodup, fun p hp => i.len p.1 p.2 (Dict.get?_of_mem i.nodup hp)⟩

/-- **C22 (columns).** Starting from an aligned table all of whose tables have aligned columns, and adding only categories with
aligned columns, after any history of successful calls every column of every table has as many rows as the main table.  (The
constructor may start from a misaligned main table: `C22_init_fails`.) -/
theorem C22_columns_partial (s s' : State) (ops : List Op) (hn : (s.cats.map Prod.fst).Nodup)
    (hl : ∀ p ∈ s.cats, p.2.len = s.main.len) (hm : s.main.colnames.Nodup ∧ ∀ c ∈ s.main.cols, c.len = s.main.len)
    (hc : ∀ p ∈ s.cats, p.2.colnames.Nodup ∧ ∀ c ∈ p.2.cols, c.len = p.2.len)
    (ha : ∀ t, Op.addCategory t ∈ ops → t.table.colnames.Nodup ∧ ∀ c ∈ t.table.cols, c.len = t.table.len)
    (h : runOk s ops = some s') :
    (∀ c ∈ s'.main.cols, c.len = s'.main.len) ∧ ∀ p ∈ s'.cats, ∀ c ∈ p.2.cols, c.len = s'.main.len := by
  have i0 : Inv s := ⟨hn, fun c t hg => hl (c, t) (Dict.mem_of_get? hg)⟩
  have m0 : Table.Inv s.main := ⟨hm.1, hm.2⟩
  have c0 : ∀ c t, Dict.get? s.cats c = some t → Table.Inv t := fun c t hg =>
    ⟨(hc (c, t) (Dict.mem_of_get? hg)).1, (hc (c, t) (Dict.mem_of_get? hg)).2⟩
  have key : ∀ (ops : List Op) (s : State), Inv s → Table.Inv s.main → (∀ c t, Dict.get? s.cats c = some t → Table.Inv t) →
      (∀ t, Op.addCategory t ∈ ops → Table.Inv t.table) → ∀ s', runOk s ops = some s' →
      Inv s' ∧ Table.Inv s'.main ∧ ∀ c t, Dict.get? s'.cats c = some t → Table.Inv t := by
    intro ops
    induction ops with
    | nil => intro s i m c _ s' h; simp only [runOk, Option.some.injEq] at h; subst h; exact ⟨i, m, c⟩
    | cons op ops ih =>
      intro s i m c hop s' h
      simp only [runOk] at h
      cases hs : step s op with
      | mk s1 r =>
        rw [hs] at h
        cases r with
        | error e => simp at h
        | ok x =>
          obtain ⟨a1, a2, a3⟩ := step_tables i hs
          refine ih s1 a3 ?_ ?_ (fun t ht => hop t (by simp [ht])) s' h
          · rcases a1 with a1 | ⟨o, a1, -⟩
            · rw [a1]; exact m
            · exact Table.step_inv a1 m
          · intro n t1 hg1
            cases hg : Dict.get? s.cats n with
            | some t =>
              obtain ⟨t', b1, b2⟩ := a2 n t hg
              rw [hg1] at b1
              simp only [Option.some.injEq] at b1
              subst b1
              rcases b2 with rfl | ⟨o, b2, -⟩
              · exact c n _ hg
              · exact Table.step_inv b2 (c n t hg)
            | none =>
              rw [Dict.get?_eq_none_iff] at hg
              have hmem1 : n ∈ s1.cats.keys := by rw [← Dict.has_iff]; simp [Dict.has, hg1]
              cases op with
              | addRow d id u =>
                simp only [step, Prod.mk.injEq] at hs
                obtain ⟨-, -, k3, -⟩ := addRow_ok (data := d) (id := id) (u := u) (s' := s1) (left := (addRow s d id u).2.1) i.nodup
                  (by rw [← hs.1, ← hs.2])
                rw [k3] at hmem1; exact absurd hmem1 hg
              | addColumn cat nm d ix =>
                obtain ⟨-, k3, -⟩ := addColumn_ok hs
                rw [k3] at hmem1; exact absurd hmem1 hg
              | addCategory t =>
                obtain ⟨-, -, -, -, -, k5⟩ := addCategory_ok hs
                rw [k5, Dict.get?_append, Dict.get?_eq_none_iff.2 hg] at hg1
                simp only [Option.none_or, Dict.get?] at hg1
                split at hg1
                · simp only [Option.some.injEq] at hg1
                  subst hg1
                  exact hop t (by simp)
                · simp at hg1
  obtain ⟨i, m, c⟩ := key ops s i0 m0 c0 (fun t ht => ⟨(ha t ht).1, (ha t ht).2⟩) s' h
  refine ⟨m.len, fun p hp col hcol => ?_⟩
  have hg := Dict.get?_of_mem i.nodup hp
  rw [(c _ _ hg).len col hcol]
  exact i.len _ _ hg

/-- example: two categories, one with a ragged column -/
def demo : State :=
  { name := "t"
    main := Table.fresh [("a", 0)] []
    cats := [("c1", Table.fresh [("b", 1)] []), ("c2", Table.fresh [("x", 0)] [])] }

/-- a history on the example -/
def demoOps : List Op :=
  [.addRow [("c2", .row [("x", .atom 5)] none false), ("a", .cell (.atom 1)), ("c1", .row [("b", .list [.atom 1, .atom 2])] (some 7) true)] none false,
   .addColumn (some "c1") "z" [.atom 3] .none,
   .addColumn (some "t") "w" [.atom 4] .none,
   .addCategory { name := "c3", table := { ids := [9], cols := [], specs := [] } },
   .addRow [("c3", .row [] none false), ("c2", .row [("x", .atom 6)] none false), ("a", .cell (.atom 1)), ("w", .cell (.atom 1)),
     ("c1", .row [("b", .list []), ("z", .atom 4)] none false)] (some 3) true]

/-- non-vacuity -/
example : init "t" (Table.fresh [("a", 0)] [])
    (some [{ name := "c2", table := Table.fresh [("x", 0)] [] }, { name := "c1", table := Table.fresh [("b", 1)] [] }]) (some ["c1", "c2"]) =
    .ok demo := rfl

example : (runOk demo demoOps).map (fun s => (s.main.ids, s.cats.map fun p => (p.1, p.2.ids))) =
    some ([0, 3], [("c1", [7, 1]), ("c2", [0, 1]), ("c3", [9, 1])]) := by decide +kernel

/-- **C22 fails** for the columns of the main table at construction: ids are made up for a main table whose predefined columns
are empty. -/
theorem C22_init_fails : ∃ s, init "t" (Table.fresh [("a", 0)] [])
    (some [{ name := "c", table := { ids := [0, 1], cols := [], specs := [] } }]) none = .ok s ∧ s.main.ids.length = 2 ∧
      s.main.cols.map Table.Column.len = [0] :=
  ⟨_, rfl, rfl, rfl⟩

/-- **C22 fails** when a rejected row is caught: the main table has a row that the category does not. -/
theorem C22_after_rejection_fails : ∃ data, ∃ left s', addRow demo data none false = (s', left, .error .valueError) ∧
    s'.main.ids.length = 1 ∧ s'.cats.map (fun p => p.2.ids.length) = [1, 0] :=
  ⟨[("a", .cell (.atom 1)), ("c1", .row [("b", .list [])] none false), ("c2", .row [] none false)], _, _, rfl, rfl, by decide +kernel⟩

/-- **C22 (constructor).** Given category tables, an accepted constructor keeps exactly these tables, under their names, in the
order of `categories` (else of the tables). -/
theorem C22_init_order (name : String) (main : Table.State) (ts : List TableArg) (cats : Option (List String)) (s : State)
    (h : init name main (some ts) cats = .ok s) :
    s.cats.map Prod.fst = cats.getD (ts.map TableArg.name) ∧
    (∀ p ∈ s.cats, ∃ t ∈ ts, t.name = p.1 ∧ t.table = p.2) ∧ s.cats.length = ts.length ∧
    (main.ids ≠ [] → s.main = main) := by
  obtain ⟨h1, h2, h3, -, h5⟩ := init_ok h
  refine ⟨h2, fun p hp => (h5 p.1 p.2 (Dict.get?_of_mem h3 hp)).2, ?_, ?_⟩
  · unfold init at h
    simp only at h
    split at h
    · simp at h
    · split at h
      · simp at h
      · rename_i hl
        have : s.cats.length = s.cats.keys.length := by simp [Dict.keys]
        rw [this, h2]
        simpa using hl
  · intro hne
    rw [h1]
    unfold initIds
    split
    · rfl
    · rw [if_neg (by simpa using hne)]

/-- **C23 (what holds).** A row without an entry for some category is rejected with all tables unchanged; with all categories
there, a row that lacks a column of the main table is rejected with all tables unchanged. -/
theorem C23_rejected_partial (s : State) (data : Dict String Arg) (id : Option Int) (u : Bool)
    (hbad : (∃ p ∈ s.cats, Dict.has data p.1 = false) ∨ ∃ n ∈ s.main.colnames, (Dict.has data n = false ∨ n ∈ s.cats.map Prod.fst)) :
    ∃ left e, addRow s data id u = (s, left, .error e) ∧ (e = .keyError ∨ e = .valueError) := by
  unfold addRow
  simp only
  split
  · exact ⟨_, _, rfl, .inl rfl⟩
  · rename_i hmiss
    rcases hbad with ⟨p, hp, hd⟩ | ⟨n, hn, hbad⟩
    · refine absurd (List.any_eq_true.2 ⟨p.1, List.mem_map.2 ⟨p, hp, rfl⟩, ?_⟩) hmiss
      rw [catData_fst]
      simp [hd]
    · have hno : Dict.has (mainRow s.cats.keys data) n = false := by
        rw [Dict.has_false_iff]
        unfold mainRow Dict.keys
        simp only [List.map_map, List.mem_map, List.mem_filter, decide_eq_true_eq, not_exists, not_and]
        rintro p ⟨h1, h2, -⟩ he
        simp only [Function.comp_apply] at he
        subst he
        rcases hbad with hb | hb
        · rw [Dict.has_false_iff] at hb
          exact hb (Dict.mem_keys_of_mem (v := p.2) (by exact h1))
        · obtain ⟨q, hq, he⟩ := List.mem_map.1 hb
          exact h2 q hq he
      have := (Table.C16_rejected_unchanged_partial s.main (mainRow s.cats.keys data) id u).1 ⟨n, hn, hno⟩
      simp only [mainData_set, mainData_rest]
      rw [this]
      exact ⟨_, _, rfl, .inr rfl⟩

/-- **C23 fails**: a row that a category rejects has been added to the main table. -/
theorem C23_category_fails : ∃ data left s', addRow demo data none false = (s', left, .error .typeError) ∧
    s'.main.ids.length = demo.main.ids.length + 1 :=
  ⟨[("a", .cell (.atom 1)), ("c1", .cell (.atom 3)), ("c2", .row [] none false)], _, _, rfl, rfl⟩

/-- **C23 fails** for the caller's dict, also when the row is accepted: the categories are gone, `id` and `enforce_unique_id`
are there, and giving the same dict again is rejected. -/
theorem C23_dict_fails : ∃ data left s', addRow demo data none false = (s', left, .ok ()) ∧
    left.map Prod.fst = ["a", "id", "enforce_unique_id"] ∧ (addRow s' left none false).2.2 = .error .keyError :=
  ⟨[("a", .cell (.atom 1)), ("c1", .row [("b", .list [])] none false), ("c2", .row [("x", .atom 1)] none false)], _, _, rfl,
    by decide +kernel, by decide +kernel⟩

/-- **C78 (one row each).** An accepted row adds to the main table the entries that are neither categories nor `id` nor
`enforce_unique_id`, and to each category the entries given for it. -/
theorem C78_add_row (s s' : State) (data left : Dict String Arg) (id : Option Int) (u : Bool) (hn : (s.cats.map Prod.fst).Nodup)
    (h : addRow s data id u = (s', left, .ok ())) :
    Table.addRow s.main ((data.filter fun p => p.1 ∉ s.cats.map Prod.fst ∧ p.1 ≠ "id" ∧ p.1 ≠ "enforce_unique_id").map fun p =>
      (p.1, p.2.value)) id u = (s'.main, .ok ()) ∧
    s'.cats.map Prod.fst = s.cats.map Prod.fst ∧
    ∀ p ∈ s.cats, ∃ d i w t', Dict.get? data p.1 = some (.row d i w) ∧ Table.addRow p.2 d i w = (t', .ok ()) ∧ (p.1, t') ∈ s'.cats := by
  obtain ⟨h1, -, h3, h4⟩ := addRow_ok hn h
  refine ⟨h1, h3, fun p hp => ?_⟩
  obtain ⟨d, i, w, t', e1, e2, e3⟩ := h4 p.1 p.2 (Dict.get?_of_mem hn hp)
  exact ⟨d, i, w, t', e1, e2, Dict.mem_of_get? e3⟩

/-- **C78 (accepted).** If the main table accepts its part and every category accepts the entries given for it, the row is
accepted. -/
theorem C78_accepts (s : State) (data : Dict String Arg) (id : Option Int) (u : Bool) (hn : (s.cats.map Prod.fst).Nodup)
    (hm : (Table.addRow s.main ((data.filter fun p => p.1 ∉ s.cats.map Prod.fst ∧ p.1 ≠ "id" ∧ p.1 ≠ "enforce_unique_id").map fun p =>
      (p.1, p.2.value)) id u).2 = .ok ())
    (hc : ∀ p ∈ s.cats, ∃ d i w, Dict.get? data p.1 = some (.row d i w) ∧ (Table.addRow p.2 d i w).2 = .ok ()) :
    (addRow s data id u).2.2 = .ok () := by
  unfold addRow
  simp only
  have hfst : (catData s.cats data).map Prod.fst = s.cats.keys := by
    rw [catData_fst, List.filter_eq_self]
    intro c hcm
    obtain ⟨p, hp, rfl⟩ := List.mem_map.1 hcm
    obtain ⟨d, i, w, h1, -⟩ := hc p hp
    simp [Dict.has, h1]
  rw [if_neg (by rw [hfst]; simp), mainData_set, mainData_rest]
  change (Table.addRow s.main (mainRow s.cats.keys data) id u).2 = .ok () at hm
  rw [hm]
  simp only
  have key : ∀ (cd : List (String × Arg)) (cats : Dict String Table.State), (cd.map Prod.fst).Nodup →
      (∀ c a, (c, a) ∈ cd → ∃ d i w t, a = .row d i w ∧ Dict.get? cats c = some t ∧ (Table.addRow t d i w).2 = .ok ()) →
      (addCats cats cd).2 = .ok () := by
    intro cd
    induction cd with
    | nil => intro _ _ _; rfl
    | cons p cd ih =>
      intro cats hnd hall
      obtain ⟨c, a⟩ := p
      obtain ⟨d, i, w, t, rfl, h1, h2⟩ := hall c a (by simp)
      simp only [List.map_cons, List.nodup_cons] at hnd
      simp only [addCats, h1, h2]
      refine ih _ hnd.2 ?_
      intro c' a' hm'
      obtain ⟨d', i', w', t', e1, e2, e3⟩ := hall c' a' (by simp [hm'])
      refine ⟨d', i', w', t', e1, ?_, e3⟩
      rw [Dict.get?_set_ne]
      · exact e2
      · intro he; rw [← he] at hnd; exact hnd.1 (List.mem_map.2 ⟨(c', a'), hm', rfl⟩)
  refine key _ _ (by rw [hfst]; exact hn) ?_
  intro c a hca
  obtain ⟨h1, h2⟩ := mem_catData.1 hca
  obtain ⟨p, hp, rfl⟩ := List.mem_map.1 h1
  obtain ⟨d, i, w, h3, h4⟩ := hc p hp
  rw [h2] at h3
  simp only [Option.some.injEq] at h3
  exact ⟨d, i, w, p.2, h3, Dict.get?_of_mem hn hp, h4⟩

/-- **C78 (read back).** Whatever history of successful calls follows an accepted row, at the position the row was added the
main table and every category hold the ids and values given for them.  Tables are well formed before (they are if built by
successful calls, C14) and columns hold fewer than 2^64 values. -/
theorem C78_read_back (s1 s2 s : State) (data left : Dict String Arg) (id : Option Int) (u : Bool) (after : List Op)
    (hi : (s1.cats.map Prod.fst).Nodup ∧ ∀ p ∈ s1.cats, p.2.len = s1.main.len)
    (hf : Fine s1.main ∧ ∀ p ∈ s1.cats, Fine p.2)
    (h2 : addRow s1 data id u = (s2, left, .ok ())) (h3 : runOk s2 after = some s) (hv : ∀ o ∈ after, o.Valid)
    (hs : (∀ c ∈ s.main.cols, c.total < 2 ^ 64) ∧ ∀ p ∈ s.cats, ∀ c ∈ p.2.cols, c.total < 2 ^ 64) :
    (∃ vs, s.main.row s1.main.len = .ok (id.getD s1.main.len, vs) ∧ vs.map Prod.fst = s.main.colnames ∧
      ∀ name ∈ s2.main.colnames, ∃ a, Dict.get? data name = some a ∧ (name, a.value) ∈ vs) ∧
    ∀ p ∈ s1.cats, ∃ d i w t vs, Dict.get? data p.1 = some (.row d i w) ∧ (p.1, t) ∈ s.cats ∧
      t.row s1.main.len = .ok (i.getD s1.main.len, vs) ∧
      ∀ name ∈ p.2.colnames, ∃ v, Dict.get? d name = some v ∧ (name, v) ∈ vs := by
  have i1 : Inv s1 := ⟨hi.1, fun c t hg => hi.2 (c, t) (Dict.mem_of_get? hg)⟩
  obtain ⟨a1, -, a3, a4⟩ := addRow_ok hi.1 h2
  have i2 : Inv s2 := (step_tables (op := .addRow data id u) i1 (by simp only [step, h2])).2.2
  have i := runOk_inv after s2 s i2 h3
  obtain ⟨⟨os, b1, b2⟩, b3⟩ := runOk_tables after s2 s i2 h3 hv
  constructor
  · obtain ⟨vs, c1, c2, c3⟩ := row_read_back hf.1 a1 b1 b2 hs.1
    refine ⟨vs, c1, c2, ?_⟩
    intro name hname
    obtain ⟨v, e1, e2⟩ := c3 name hname
    -- the entry of the main row comes from the data
    have : ∀ (l : Dict String Arg) v, Dict.get? (mainRow s1.cats.keys l) name = some v → ∃ a, Dict.get? l name = some a ∧ a.value = v := by
      intro l
      induction l with
      | nil => intro v hv; simp [mainRow] at hv
      | cons x xs ih =>
        obtain ⟨k, a⟩ := x
        intro v hv
        by_cases hk : k = name
        · subst hk
          by_cases hp : k ∉ s1.cats.keys ∧ k ≠ "id" ∧ k ≠ "enforce_unique_id"
          · have : mainRow s1.cats.keys ((k, a) :: xs) = (k, a.value) :: mainRow s1.cats.keys xs := by
              simp only [mainRow]
              rw [List.filter_cons, if_pos (by simpa using hp)]
              rfl
            rw [this] at hv
            simp only [Dict.get?, if_true, Option.some.injEq] at hv
            exact ⟨a, by simp [Dict.get?], hv⟩
          · have : k ∉ Dict.keys (mainRow s1.cats.keys ((k, a) :: xs)) := by
              intro hm
              simp only [mainRow, Dict.keys, List.map_map, List.mem_map, List.mem_filter, decide_eq_true_eq,
                Function.comp_apply] at hm
              obtain ⟨q, ⟨-, hq⟩, he⟩ := hm
              rw [he] at hq
              exact hp ⟨fun hm => hq.1 (by obtain ⟨a, ha, hb⟩ := List.mem_map.1 hm; exact ⟨a, ha, hb⟩), hq.2⟩
            rw [← Dict.get?_eq_none_iff] at this
            rw [this] at hv; simp at hv
        · have hv' : Dict.get? (mainRow s1.cats.keys xs) name = some v := by
            simp only [mainRow] at hv
            rw [List.filter_cons] at hv
            split at hv
            · simp only [List.map_cons, Dict.get?, hk, if_false] at hv
              exact hv
            · exact hv
          obtain ⟨a', h1, h2⟩ := ih v hv'
          exact ⟨a', by simp only [Dict.get?, hk, if_false]; exact h1, h2⟩
    obtain ⟨a, h1, h2⟩ := this data v e1
    exact ⟨a, h1, by rw [h2]; exact e2⟩
  · intro p hp
    obtain ⟨d, j, w, t2, c1, c2, c3⟩ := a4 p.1 p.2 (Dict.get?_of_mem hi.1 hp)
    obtain ⟨t, os', e1, e2, e3⟩ := b3 p.1 t2 c3
    obtain ⟨vs, f1, f2, f3⟩ := row_read_back (hf.2 p hp) c2 e2 e3 (hs.2 (p.1, t) (Dict.mem_of_get? e1))
    rw [hi.2 p hp] at f1
    refine ⟨d, j, w, t, vs, c1, Dict.mem_of_get? e1, f1, ?_⟩
    intro name hname
    apply f3
    have hg2 := Table.addRow_ok c2
    obtain ⟨s1', new, -, -, g3, -, -, -, g7⟩ := hg2
    obtain ⟨c, hc, rfl⟩ := List.mem_map.1 hname
    obtain ⟨c', hc', v, -, ha⟩ := Table.forall₂_mem_left g7 c (by rw [g3]; simp [hc])
    exact List.mem_map.2 ⟨c', hc', ha.name⟩

/-- non-vacuity: the first row of the example after the whole history -/
example : ((runOk demo demoOps).map fun s => (s.main.row 0).toOption.map fun r => r.1) = some (some 0) := by decide +kernel

theorem fine_fresh (initial specs : List (String × Nat)) (h : (initial.map Prod.fst).Nodup) : Fine (Table.fresh initial specs) :=
  ⟨Table.fresh_inv h, Table.fresh_good _ _⟩

example : Fine demo.main ∧ ∀ p ∈ demo.cats, Fine p.2 := by
  refine ⟨fine_fresh _ _ (by simp), ?_⟩
  intro p hp
  simp only [demo, List.mem_cons, List.not_mem_nil, or_false] at hp
  rcases hp with rfl | rfl <;> exact fine_fresh _ _ (by simp)

/-- **C78 (whole rows).** `table[i]` returns the row `i` of the main table and of every category, under the categories' names
in order, and succeeds exactly when all of them have it. -/
theorem C78_row (s : State) (i : Int) :
    (∀ r rs, s.row i = .ok (r, rs) ↔ s.main.row i = .ok r ∧
      List.Forall₂ (fun (p : String × Table.State) (q : String × Int × List (String × Value)) => q.1 = p.1 ∧ p.2.row i = .ok q.2) s.cats rs) := by
  have key : ∀ (cats : Dict String Table.State) rs, catRows i cats = .ok rs ↔
      List.Forall₂ (fun (p : String × Table.State) (q : String × Int × List (String × Value)) => q.1 = p.1 ∧ p.2.row i = .ok q.2) cats rs := by
    intro cats
    induction cats with
    | nil => intro rs; simp only [catRows, Except.ok.injEq, List.forall₂_nil_left_iff]; exact eq_comm
    | cons p cats ih =>
      intro rs
      obtain ⟨c, t⟩ := p
      simp only [catRows, List.forall₂_cons_left_iff]
      cases hr : t.row i with
      | error e => simp
      | ok r =>
        simp only
        cases hcr : catRows i cats with
        | error e =>
          simp only [reduceCtorEq, false_iff]
          rintro ⟨q, qs, ⟨-, -⟩, h2, -⟩
          rw [(ih qs).2 h2] at hcr; simp at hcr
        | ok rs' =>
          simp only [Except.ok.injEq]
          constructor
          · rintro rfl; exact ⟨(c, r), rs', ⟨rfl, rfl⟩, (ih rs').1 hcr, rfl⟩
          · rintro ⟨⟨q1, q2⟩, qs, ⟨h1, h2⟩, h3, rfl⟩
            have := (ih qs).2 h3
            rw [hcr] at this
            simp only [Except.ok.injEq] at this h1 h2
            subst this; subst h1; subst h2; rfl
  intro r rs
  unfold State.row
  cases hm : s.main.row i with
  | error e => simp
  | ok r' =>
    simp only
    cases hcr : catRows i s.cats with
    | error e =>
      simp only [reduceCtorEq, Except.ok.injEq, false_iff, not_and]
      intro _ hf
      rw [(key _ _).2 hf] at hcr; simp at hcr
    | ok rs' =>
      simp only [Except.ok.injEq, Prod.mk.injEq]
      rw [← key, hcr]
      simp

/-- **C78 (columns).** `add_column` with a category changes that category table only; without one, or with the table's own name
when no category has it, the main table only; an unknown category is a KeyError and changes nothing. -/
theorem C78_add_column (s : State) (cat : Option String) (name : String) (data : List Value) (ix : Table.IndexArg) :
    let r := addColumn s cat name data ix
    (∀ c t, cat = some c → Dict.get? s.cats c = some t → r.2 = (Table.addColumn t name data ix).2 ∧ r.1.main = s.main ∧
      Dict.get? r.1.cats c = some (Table.addColumn t name data ix).1 ∧ ∀ c', c' ≠ c → Dict.get? r.1.cats c' = Dict.get? s.cats c') ∧
    ((cat = none ∨ cat = some s.name ∧ s.name ∉ s.cats.map Prod.fst) →
      r = ({ s with main := (Table.addColumn s.main name data ix).1 }, (Table.addColumn s.main name data ix).2)) ∧
    (∀ c, cat = some c → c ∉ s.cats.map Prod.fst → c ≠ s.name → r = (s, .error .keyError)) := by
  dsimp only
  refine ⟨?_, ?_, ?_⟩
  · rintro c t rfl hg
    simp only [addColumn, getCategory, hg, Option.getD_some]
    exact ⟨trivial, trivial, Dict.get?_set_self, fun c' hc' => Dict.get?_set_ne hc'⟩
  · rintro (rfl | ⟨rfl, hn⟩)
    · rfl
    · have : Dict.get? s.cats s.name = none := Dict.get?_eq_none_iff.2 hn
      simp [addColumn, getCategory, this]
  · rintro c rfl hn hne
    have : Dict.get? s.cats c = none := Dict.get?_eq_none_iff.2 hn
    simp [addColumn, getCategory, this, hne]

/-- **C78 (categories).** `add_category` appends the table, under a new name, to those that are there, or is rejected and changes
nothing; it is accepted exactly if the table is no aligned table, has the main table's length and a new name. -/
theorem C78_add_category (s : State) (t : TableArg) :
    (t.isAligned = false ∧ t.table.len = s.main.len ∧ t.name ∉ s.cats.map Prod.fst →
      addCategory s t = ({ s with cats := s.cats ++ [(t.name, t.table)] }, .ok ())) ∧
    (¬(t.isAligned = false ∧ t.table.len = s.main.len ∧ t.name ∉ s.cats.map Prod.fst) → addCategory s t = (s, .error .valueError)) := by
  have hh : Dict.has s.cats t.name = false ↔ t.name ∉ s.cats.map Prod.fst := Dict.has_false_iff
  unfold addCategory
  constructor
  · rintro ⟨h1, h2, h3⟩
    rw [if_neg (by simpa using h2), if_neg (by rw [hh.2 h3]; simp), if_neg (by simp [h1]), Dict.set_of_not_mem h3]
  · intro hn
    split
    · rfl
    · rename_i h2
      split
      · rfl
      · rename_i h3
        split
        · rfl
        · rename_i h4
          exact absurd ⟨by simpa using h4, by simpa using h2, hh.1 (by simpa using h3)⟩ hn

/-- **C78 fails** when the main table has a column with the name of a category: no row is ever accepted. -/
theorem C78_name_clash_fails : ∃ s s1 : State, addColumn s none "c1" [] .none = (s1, .ok ()) ∧
    ∀ data id u, (addRow s1 data id u).2.2 ≠ .ok () := by
  refine ⟨demo, (addColumn demo none "c1" [] .none).1, rfl, ?_⟩
  intro data id u hok
  obtain ⟨left, e, h, -⟩ := C23_rejected_partial (addColumn demo none "c1" [] .none).1 data id u
    (.inr ⟨"c1", by decide +kernel, .inr (by decide +kernel)⟩)
  rw [h] at hok
  simp at hok

/-- **C78 fails** for an `id` given inside the data dict: it is dropped without notice. -/
theorem C78_id_in_data_fails : ∃ data left s', addRow demo data none false = (s', left, .ok ()) ∧
    Dict.has data "id" = true ∧ s'.main.ids = [0] :=
  ⟨[("id", .cell (.atom 42)), ("a", .cell (.atom 1)), ("c1", .row [("b", .list [])] none false), ("c2", .row [("x", .atom 1)] none false)],
    _, _, rfl, by decide +kernel, by decide +kernel⟩

end Verif.Aligned

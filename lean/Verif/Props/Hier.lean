import Verif.Lemmas.Hier

/-!
# C156–C160: linked tables, hierarchical data frames, tables from data frames
-/

namespace Verif.Hier
open Verif

/-! ## C156: the links that can be reached -/

/-- a table that can be reached from the tables given through region columns -/
inductive Reach (g : Nat → List GCol) (S : List Nat) : Nat → Prop
  | start {t : Nat} : t ∈ S → Reach g S t
  | step {t u : Nat} {n : String} : Reach g S t → GCol.region n (some u) ∈ g t → Reach g S u

/-- the links found are those of the tables that can be reached, table by table, each table once; whatever cycles there are -/
theorem C156_links_partial (g : Nat → List GCol) (self : Nat) (others U : List Nat) (hn : (self :: others).Nodup) (hs : ∀ t ∈ self :: others, t ∈ U)
    (hU : ∀ t ∈ U, ∀ n m, GCol.region n m ∈ g t → ∃ u ∈ U, m = some u) (fuel : Nat) (hf : U.length ≤ fuel) :
    ∃ (links : List Link) (tables : List Nat), linkedTables g fuel self others = .ok links ∧ tables.Nodup ∧
      (∃ found, tables = self :: others ++ found) ∧ (∀ t, t ∈ tables ↔ Reach g (self :: others) t) ∧
      links.map Link.source = tables.flatMap (fun t => (foreignColumns (g t)).map (fun _ => t)) ∧
      links.map Link.column = tables.flatMap (fun t => foreignColumns (g t)) ∧
      ∀ l, l ∈ links ↔ Reach g (self :: others) l.source ∧ GCol.region l.column l.target ∈ g l.source := by
  obtain ⟨V, h1, h2, ⟨N, h3⟩, h4, h5, h6⟩ := linkLoop_spec g U hU fuel 0 ((self :: others).map some) []
    (List.Pairwise.map some (fun _ _ h e => h (Option.some.inj e)) hn) (by
      intro x hx
      obtain ⟨t, ht, rfl⟩ := List.mem_map.1 hx
      exact ⟨t, hs t ht, rfl⟩) (by simp) rfl (by intro t ht; simp at ht) (by omega)
  have hV : ∃ W : List Nat, V = W.map some := by
    refine ⟨V.filterMap id, ?_⟩
    rw [List.map_filterMap]
    have : ∀ L : List (Option Nat), (∀ x ∈ L, ∃ u ∈ U, x = some u) → L = L.filterMap (fun x => (id x).map some) := by
      intro L
      induction L with
      | nil => intro _; rfl
      | cons x L ih =>
        intro h
        obtain ⟨u, -, rfl⟩ := h x (by simp)
        rw [List.filterMap_cons]
        show _ = some u :: _
        rw [← ih (fun y hy => h y (List.mem_cons_of_mem _ hy))]
    exact this V h4
  obtain ⟨W, rfl⟩ := hV
  have hWn : W.Nodup := List.Pairwise.of_map some (fun _ _ h e => h (congrArg some e)) h2
  have hstart : ∀ t ∈ self :: others, t ∈ W := by
    intro t ht
    have : some t ∈ W.map some := by rw [h3]; exact List.mem_append.2 (.inl (List.mem_map_of_mem ht))
    simpa using this
  have hreach : ∀ t, t ∈ W ↔ Reach g (self :: others) t := by
    intro t
    constructor
    · intro ht
      have := h6 (fun x => ∃ t, x = some t ∧ Reach g (self :: others) t ∧ t ∈ U) (by
        intro x hx
        obtain ⟨t, ht, rfl⟩ := List.mem_map.1 hx
        exact ⟨t, rfl, .start ht, hs t ht⟩) (by
        rintro t n m ⟨t', e, hr, htU⟩ hm
        cases e
        obtain ⟨u, hu, rfl⟩ := hU t htU n m hm
        exact ⟨u, rfl, .step hr hm, hu⟩) (some t) (List.mem_map_of_mem ht)
      obtain ⟨t', e, hr, -⟩ := this
      cases e
      exact hr
    · intro hr
      induction hr with
      | start ht => exact hstart _ ht
      | step _ hm ih =>
        have := h5 _ (List.mem_map_of_mem ih) _ _ hm
        simpa using this
  have hfound : ∃ found, W = self :: others ++ found := by
    refine ⟨W.drop (self :: others).length, ?_⟩
    have : (W.take (self :: others).length).map some = (self :: others).map some := by
      rw [List.map_take, h3, List.take_left' (by simp)]
    have e := (List.map_inj_right (fun _ _ h => Option.some.inj h)).1 this
    calc W = W.take (self :: others).length ++ W.drop (self :: others).length := (List.take_append_drop _ _).symm
      _ = _ := by rw [e]
  have hflat : (W.map some).flatMap (linksO g) = W.flatMap (fun t => linksOf t (g t)) := by
    rw [List.flatMap_map]; rfl
  have hone : ∀ (t : Nat) (cs : List GCol), (linksOf t cs).map Link.source = (foreignColumns cs).map (fun _ => t) ∧
      (linksOf t cs).map Link.column = foreignColumns cs := by
    intro t cs
    induction cs with
    | nil => exact ⟨rfl, rfl⟩
    | cons c cs ih =>
      cases c with
      | plain n => exact ih
      | region n m => exact ⟨by simp [linksOf, foreignColumns, ih.1], by simp [linksOf, foreignColumns, ih.2]⟩
  refine ⟨_, W, h1, hWn, hfound, hreach, ?_, ?_, ?_⟩
  · rw [hflat, List.map_flatMap]
    congr 1
    funext t
    exact (hone t (g t)).1
  · rw [hflat, List.map_flatMap]
    congr 1
    funext t
    exact (hone t (g t)).2
  · intro l
    rw [hflat, List.mem_flatMap]
    constructor
    · rintro ⟨t, ht, hl⟩
      obtain ⟨rfl, h⟩ := mem_linksOf.1 hl
      exact ⟨(hreach _).1 ht, h⟩
    · rintro ⟨h, h'⟩
      exact ⟨l.source, (hreach _).2 h, mem_linksOf.2 ⟨rfl, h'⟩⟩

/-- two tables that refer to each other, one of them also to itself -/
def gEx : Nat → List GCol
  | 0 => [.plain "a", .region "to1" (some 1), .region "self" (some 0)]
  | 1 => [.region "back" (some 0), .region "to2" (some 2)]
  | _ => [.plain "b"]

example : linkedTables gEx 3 0 [] = .ok [⟨0, "to1", some 1⟩, ⟨0, "self", some 0⟩, ⟨1, "back", some 0⟩, ⟨1, "to2", some 2⟩] := by
  decide +kernel

example : ([0] : List Nat).Nodup ∧ (∀ t ∈ [0], t ∈ [0, 1, 2]) ∧ (∀ t ∈ [0, 1, 2], ∀ c ∈ gEx t, ∀ n m, c = .region n m → m ∈ [some 0, some 1, some 2]) := by
  refine ⟨by decide, by decide, ?_⟩
  intro t ht c hc n m e
  subst e
  simp only [List.mem_cons, List.not_mem_nil, or_false] at ht
  rcases ht with rfl | rfl | rfl <;> simp [gEx] at hc ⊢ <;> rcases hc with ⟨-, rfl⟩ | ⟨-, rfl⟩ <;> simp

/-- a region column without a table: the search fails -/
theorem C156_no_table_fails : linkedTables (fun _ => [.region "r" none]) 9 0 [] = .error .attributeError := by
  decide +kernel

/-- category tables of an aligned table that is reached through a column are not searched: table 1 has the category 2 with a region column -/
theorem C156_aligned_fails :
    alignedLinkedTables (fun t => if t = 0 then [.region "r" (some 1)] else if t = 2 then [.region "c" (some 3)] else [])
      (fun t => if t = 1 then [2] else []) 9 0 false = .ok [⟨0, "r", some 1⟩] ∧
    alignedLinkedTables (fun t => if t = 0 then [.region "r" (some 1)] else if t = 2 then [.region "c" (some 3)] else [])
      (fun t => if t = 1 then [2] else []) 9 1 false = .ok [⟨2, "c", some 3⟩] := by
  decide +kernel

theorem C156_has_foreign (cs : List GCol) : hasForeign cs = true ↔ foreignColumns cs ≠ [] := by
  induction cs with
  | nil => simp [hasForeign, foreignColumns]
  | cons c cs ih =>
    cases c with
    | plain n => simpa [hasForeign, foreignColumns] using ih
    | region n t => simp [hasForeign, foreignColumns]

/-! ## C157: the rows of a hierarchical data frame -/

section
variable {V : Type} [DecidableEq V]

/-- the rows for one row of a table: one for each way to follow the references down to the last table -/
def expand : HTab V → Nat → List (List (Cell V) × List (Cell V))
  | .leaf _ _ rows, j => match rows[j]? with
    | none => []
    | some r => [([], .id r.1 :: r.2.map .val)]
  | .node _ _ _ _ rows target, i => match rows[i]? with
    | none => []
    | some r => r.2.2.flatMap (fun j => (expand target j).map (fun x => (.id r.1 :: r.2.1.map .val ++ x.1, x.2)))

/-- the references are rows of the target; the ids of a target that is expanded further are unique, and none of its rows that are referred to is
without references -/
def Good : HTab V → Prop
  | .leaf _ _ _ => True
  | .node _ _ _ nest rows target => nest ≤ 1 ∧ (∀ r ∈ rows, ∀ j ∈ r.2.2, j < target.ids.length) ∧
      (target.isLeaf = false → target.ids.Nodup ∧ ∀ r ∈ rows, ∀ j ∈ r.2.2, expand target j ≠ []) ∧ Good target

omit [DecidableEq V] in
theorem expand_head (T : HTab V) (hT : T.isLeaf = false) (i : Nat) : ∀ x ∈ expand T i, ∃ d, T.ids[i]? = some d ∧ x.1.head? = some (.id d) := by
  cases T with
  | leaf => cases hT
  | node name cs h nest rows target =>
    intro x hx
    unfold expand at hx
    split at hx
    · cases hx
    · rename_i r hr
      obtain ⟨j, -, hx⟩ := List.mem_flatMap.1 hx
      obtain ⟨y, -, rfl⟩ := List.mem_map.1 hx
      refine ⟨r.1, ?_, rfl⟩
      show (rows.map _)[i]? = _
      rw [List.getElem?_map, hr]
      rfl

theorem toHier_node (name : String) (cs : List String) (h : String) (nest : Nat) (rows : List (Int × List V × List Nat)) (target : HTab V)
    (hg : Good (.node name cs h nest rows target)) : ∃ f, toHier (.node name cs h nest rows target) = .ok f ∧
      f.rows = (List.range rows.length).flatMap (expand (.node name cs h nest rows target)) := by
  induction target generalizing name cs h nest rows with
  | leaf tn tcs trows =>
    obtain ⟨h1, h2, -, -⟩ := hg
    have key : allRows (leafRefs (.leaf tn tcs trows)) rows = .ok (rows.flatMap (fun r => r.2.2.flatMap (fun j =>
        (expand (.leaf tn tcs trows) j).map (fun x => (.id r.1 :: r.2.1.map .val ++ x.1, x.2))))) := by
      apply allRows_ok
      intro r hr
      have hlt : ∀ j ∈ r.2.2, j < trows.length := by
        intro j hj
        have := h2 r hr j hj
        simpa [HTab.ids] using this
      rw [leafRefs_ok _ _ (fun j => match trows[j]? with | some t => .id t.1 :: t.2.map .val | none => [])]
      · congr 1
        have : ∀ js : List Nat, (∀ j ∈ js, j < trows.length) →
            js.map (fun j => ((Cell.id r.1 :: r.2.1.map .val : List (Cell V)), (match trows[j]? with | some t => .id t.1 :: t.2.map .val | none => []))) =
            js.flatMap (fun j => (expand (.leaf tn tcs trows) j).map (fun x => (.id r.1 :: r.2.1.map .val ++ x.1, x.2))) := by
          intro js
          induction js with
          | nil => intro _; rfl
          | cons j js ih =>
            intro hjs
            rw [List.map_cons, List.flatMap_cons, ← ih (fun k hk => hjs k (List.mem_cons_of_mem _ hk))]
            have hj := hjs j (by simp)
            simp only [expand, List.getElem?_eq_getElem hj, List.map_cons, List.map_nil, List.append_nil, List.singleton_append]
        exact this _ hlt
      · intro j hj
        unfold HTab.tuple
        simp only [List.getElem?_eq_getElem (hlt j hj)]
    refine ⟨⟨rows.flatMap (fun r => r.2.2.flatMap (fun j =>
        (expand (.leaf tn tcs trows) j).map (fun x => (.id r.1 :: r.2.1.map .val ++ x.1, x.2)))), levelNames name cs h,
        [tn, "id"] :: tcs.map (fun c => [tn, c])⟩, ?_, ?_⟩
    · unfold toHier
      rw [if_neg (by omega)]
      show (if true = true then _ else _) = _
      rw [if_pos rfl, key]
      rfl
    · simp only
      rw [← flatMap_range]
      congr 1
      funext i
      conv => rhs; unfold expand
      cases rows[i]? <;> rfl
  | node tn tcs th tnest trows tt ih =>
    obtain ⟨h1, h2, h3, h4⟩ := hg
    obtain ⟨hnd, hne⟩ := h3 rfl
    obtain ⟨f, hf, hrows⟩ := ih tn tcs th tnest trows h4
    have hloc : ∀ j < trows.length, expand (.node tn tcs th tnest trows tt) j ≠ [] → ∀ i, (HTab.node tn tcs th tnest trows tt).ids[j]? = some i →
        loc f.rows i = .ok (expand (.node tn tcs th tnest trows tt) j) := by
      intro j hj hne i hi
      have hfil : f.rows.filter (fun r => decide (r.1.head? = some (.id i))) = expand (.node tn tcs th tnest trows tt) j := by
        rw [hrows, filter_groups _ _ j, if_pos hj]
        · intro k hk hkj x hx
          obtain ⟨d, hd, he⟩ := expand_head _ rfl k x hx
          rw [he]
          refine decide_eq_false ?_
          intro e
          have e' : d = i := by cases e; rfl
          subst e'
          have hlk : k < (HTab.node tn tcs th tnest trows tt).ids.length := by simpa [HTab.ids] using hk
          exact hkj ((List.getElem?_inj hlk hnd).1 (by rw [hd, hi]))
        · intro x hx
          obtain ⟨d, hd, he⟩ := expand_head _ rfl j x hx
          rw [hi] at hd
          cases hd
          exact decide_eq_true he
      unfold loc
      rw [hfil]
      cases he : expand (.node tn tcs th tnest trows tt) j with
      | nil => exact (hne he).elim
      | cons a as => rfl
    have key : allRows (nodeRefs (HTab.node tn tcs th tnest trows tt).ids f.rows) rows = .ok (rows.flatMap (fun r => r.2.2.flatMap (fun j =>
        (expand (.node tn tcs th tnest trows tt) j).map (fun x => (.id r.1 :: r.2.1.map .val ++ x.1, x.2))))) := by
      apply allRows_ok
      intro r hr
      apply nodeRefs_ok
      intro j hj
      have hlt := h2 r hr j hj
      refine ⟨_, List.getElem?_eq_getElem hlt, ?_⟩
      exact hloc j (by simpa [HTab.ids] using hlt) (hne r hr j hj) _ (List.getElem?_eq_getElem hlt)
    refine ⟨⟨rows.flatMap (fun r => r.2.2.flatMap (fun j =>
        (expand (.node tn tcs th tnest trows tt) j).map (fun x => (.id r.1 :: r.2.1.map .val ++ x.1, x.2)))),
        levelNames name cs h ++ f.indexNames, f.columns⟩, ?_, ?_⟩
    · unfold toHier
      rw [if_neg (by omega)]
      show (if false = true then _ else _) = _
      rw [if_neg (by simp), hf]
      simp only
      rw [key]
    · simp only
      rw [← flatMap_range]
      congr 1
      funext i
      conv => rhs; unfold expand
      cases rows[i]? <;> rfl

/-- the rows of the frame are the ways to follow the references, in the order of the rows and references -/
theorem C157_rows_partial (T : HTab V) (hT : T.isLeaf = false) (hg : Good T) :
    ∃ f, toHier T = .ok f ∧ f.rows = (List.range T.ids.length).flatMap (expand T) := by
  cases T with
  | leaf => cases hT
  | node name cs h nest rows target =>
    obtain ⟨f, h1, h2⟩ := toHier_node name cs h nest rows target hg
    exact ⟨f, h1, by rw [h2]; simp [HTab.ids]⟩

/-- the number of ways from one row -/
def ways : HTab V → Nat → Nat
  | .leaf _ _ _, _ => 1
  | .node _ _ _ _ rows target, i => match rows[i]? with
    | none => 0
    | some r => (r.2.2.map (ways target)).sum

omit [DecidableEq V] in
theorem expand_length (T : HTab V) (hg : Good T) (i : Nat) (hi : i < T.ids.length) : (expand T i).length = ways T i := by
  induction T generalizing i with
  | leaf n cs rows =>
    have : i < rows.length := by simpa [HTab.ids] using hi
    simp [expand, ways, List.getElem?_eq_getElem this]
  | node name cs h nest rows target ih =>
    obtain ⟨-, h2, -, h4⟩ := hg
    unfold expand ways
    cases hr : rows[i]? with
    | none => rfl
    | some r =>
      simp only [List.length_flatMap, List.length_map]
      congr 1
      apply List.map_congr_left
      intro j hj
      exact ih h4 j (h2 r (List.mem_of_getElem? hr) j hj)

theorem C157_count_partial (T : HTab V) (hT : T.isLeaf = false) (hg : Good T) :
    ∃ f, toHier T = .ok f ∧ f.rows.length = ((List.range T.ids.length).map (ways T)).sum := by
  obtain ⟨f, h1, h2⟩ := C157_rows_partial T hT hg
  refine ⟨f, h1, ?_⟩
  rw [h2, List.length_flatMap]
  congr 1
  apply List.map_congr_left
  intro i hi
  exact expand_length T hg i (List.mem_range.1 hi)

end

def hLeaf : HTab String := .leaf "electrodes" ["x"] [(10, ["a"]), (11, ["b"]), (12, ["c"])]
def hMid : HTab String := .node "units" ["q", "el"] "el" 1 [(5, ["u"], [0, 2]), (6, ["v"], [1])] hLeaf
def hTop : HTab String := .node "trials" ["unit"] "unit" 0 [(0, [], [1]), (1, [], [0])] hMid

theorem hTop_good : Good hTop := by
  refine ⟨by decide, by decide, ?_, ?_⟩
  · intro _
    refine ⟨by decide, by decide⟩
  · refine ⟨by decide, by decide, ?_, trivial⟩
    intro h
    cases h

example : (toHier hTop).toOption.map (fun f => f.rows) = some [([.id 0, .id 6, .val "v"], [.id 11, .val "b"]),
    ([.id 1, .id 5, .val "u"], [.id 10, .val "a"]), ([.id 1, .id 5, .val "u"], [.id 12, .val "c"])] := by
  decide +kernel

/-- a row of the first table without references does not appear in the frame -/
theorem C157_dropped_fails : (toHier (.node "t" ["r"] "r" 1 [(0, [], []), (1, [], [2])] hLeaf)).toOption.map (fun f => f.rows) =
    some [([.id 1], [.id 12, .val "c"])] := by
  decide +kernel

/-- a row without references in a table in the middle: KeyError -/
theorem C157_empty_middle_fails :
    toHier (.node "trials" ["unit"] "unit" 0 [(0, [], [1])] (.node "units" ["el"] "el" 1 [(5, [], [0]), (6, [], [])] hLeaf)) =
      .error .keyError := by
  decide +kernel

/-- two rows with the same id in a table in the middle: a reference to one of them gives the rows of both -/
theorem C157_same_id_fails :
    (toHier (.node "trials" ["unit"] "unit" 0 [(0, [], [1])] (.node "units" ["el"] "el" 1 [(5, [], [0]), (5, [], [1])] hLeaf))).toOption.map (fun f => f.rows) =
      some [([.id 0, .id 5], [.id 10, .val "a"]), ([.id 0, .id 5], [.id 11, .val "b"])] := by
  decide +kernel

/-- a region column with two indices: AttributeError -/
theorem C157_nested_index_fails : toHier (.node "t" ["r"] "r" 2 [(0, [], [0])] hLeaf) = .error .attributeError := by
  decide +kernel

/-! ## C158: the labels of a hierarchical data frame -/

section
variable {V : Type} [DecidableEq V]

/-- each row has a value for each column -/
def Rect : HTab V → Prop
  | .leaf _ cs rows => ∀ r ∈ rows, r.2.length = cs.length
  | .node _ cs h _ rows target => (∀ r ∈ rows, r.2.1.length = (cs.filter (fun c => decide (c ≠ h))).length) ∧ Rect target

/-- each row has as many index values as the index has names, and as many values as there are columns -/
theorem C158_width {T : HTab V} (hr : Rect T) {f : Frame V} (h : toHier T = .ok f) :
    ∀ r ∈ f.rows, r.1.length = f.indexNames.length ∧ r.2.length = f.columns.length := by
  induction T generalizing f with
  | leaf n cs rows =>
    cases h
    intro r hr'
    obtain ⟨x, hx, rfl⟩ := List.mem_map.1 hr'
    exact ⟨rfl, by simp [hr x hx]⟩
  | node name cs hc nest rows target ih =>
    obtain ⟨hr1, hr2⟩ := hr
    have hpre : ∀ r ∈ rows, (Cell.id r.1 :: r.2.1.map Cell.val : List (Cell V)).length = (levelNames name cs hc).length := by
      intro r hr'
      simp [levelNames, hr1 r hr']
    unfold toHier at h
    split at h
    · cases h
    · split at h
      · rename_i hl
        split at h
        · cases h
        · rename_i out hout
          cases h
          apply allRows_inv (leafRefs target) (fun x => x.1.length = (levelNames name cs hc).length ∧
            x.2.length = ([target.name, "id"] :: target.colnames.map (fun c => [target.name, c])).length) rows out _ hout
          intro r hr' o ho x hx
          obtain ⟨h1, j, -, h2⟩ := leafRefs_inv _ _ _ _ ho x hx
          refine ⟨by rw [h1]; exact hpre r hr', ?_⟩
          cases target with
          | node => cases hl
          | leaf tn tcs trows =>
            unfold HTab.tuple at h2
            simp only at h2
            split at h2
            · rename_i t ht
              have := hr2 t (List.mem_of_getElem? ht)
              rw [← Option.some.inj h2]
              simp [HTab.colnames, this]
            · cases h2
      · split at h
        · cases h
        · rename_i hdf hhdf
          split at h
          · cases h
          · rename_i out hout
            cases h
            apply allRows_inv (nodeRefs target.ids hdf.rows) (fun x => x.1.length = (levelNames name cs hc ++ hdf.indexNames).length ∧
              x.2.length = hdf.columns.length) rows out _ hout
            intro r hr' o ho x hx
            obtain ⟨y, hy, rfl⟩ := nodeRefs_inv _ _ _ _ _ ho x hx
            obtain ⟨h1, h2⟩ := ih hr2 hhdf y hy
            exact ⟨by rw [List.length_append, List.length_append, h1, hpre r hr'], h2⟩

/-- the tables of the hierarchy and the columns that are kept of each -/
def tablesOf : HTab V → List (String × List String)
  | .leaf n cs _ => [(n, cs)]
  | .node n cs h _ _ target => (n, cs.filter (fun c => decide (c ≠ h))) :: tablesOf target

/-- index and columns are labelled with all tables and their columns in turn, the last table making up the columns -/
theorem C158_labels {T : HTab V} (hT : T.isLeaf = false) {f : Frame V} (h : toHier T = .ok f) :
    f.indexNames ++ f.columns = (tablesOf T).flatMap (fun p => [p.1, "id"] :: p.2.map (fun c => [p.1, c])) := by
  induction T generalizing f with
  | leaf => cases hT
  | node name cs hc nest rows target ih =>
    unfold toHier at h
    split at h
    · cases h
    · split at h
      · rename_i hl
        split at h
        · cases h
        · cases h
          cases target with
          | node => cases hl
          | leaf tn tcs trows => simp [tablesOf, levelNames, HTab.name, HTab.colnames]
      · rename_i hl
        split at h
        · cases h
        · rename_i hdf hhdf
          split at h
          · cases h
          · cases h
            have := ih (by simpa using hl) hhdf
            rw [List.append_assoc, this]
            simp [tablesOf, levelNames]

end

example : Rect hTop ∧ hTop.isLeaf = false := by
  refine ⟨⟨by decide, ⟨by decide, ?_⟩⟩, rfl⟩
  show ∀ r ∈ [((10 : Int), ["a"]), (11, ["b"]), (12, ["c"])], r.2.length = ["x"].length
  decide

example : (toHier hTop).toOption.map (fun f => (f.indexNames, f.columns)) =
    some ([["trials", "id"], ["units", "id"], ["units", "q"]], [["electrodes", "id"], ["electrodes", "x"]]) := by
  decide +kernel

/-! ## C159: labels -/

/-- a label without nesting: a string is kept, a tuple has the strings given -/
def flatLabel (l : Label) (ss : List String) : Label :=
  if l.isTuple then .tup (ss.map .str) else l

/-- a flat label has the strings of the label in their order -/
theorem C159_flat (l : Label) (fuel : Nat) (hf : depth l ≤ fuel) :
    flattenName fuel l = some (flatLabel l (leaves l)) := by
  cases l with
  | str s => rfl
  | tup ls =>
    have e : depth (.tup ls) = 1 + depthL ls := rfl
    unfold flattenName
    simp only
    rw [flattenLoop_spec fuel ls (by omega)]
    rfl

mutual
/-- no empty tuple in the label -/
def Full : Label → Prop
  | .str _ => True
  | .tup ls => ls ≠ [] ∧ FullL ls
def FullL : List Label → Prop
  | [] => True
  | l :: ls => Full l ∧ FullL ls
end

mutual
theorem leaves_ne : ∀ (l : Label), Full l → leaves l ≠ []
  | .str s, _ => by simp [leaves]
  | .tup ls, h => leavesL_ne ls h.2 h.1
theorem leavesL_ne : ∀ (ls : List Label), FullL ls → ls ≠ [] → leavesL ls ≠ []
  | [], _, h => (h rfl).elim
  | l :: ls, h, _ => by
    intro e
    exact leaves_ne l h.1 (List.append_eq_nil_iff.1 e).1
end

mutual
theorem colName_last : ∀ (l : Label), Full l → colName l = (leaves l).getLast?
  | .str s, _ => by rw [colName]; rfl
  | .tup ls, h => by
    rw [colName]
    exact colNameL_last ls h.2
theorem colNameL_last : ∀ (ls : List Label), FullL ls → colName.colNameL ls = (leavesL ls).getLast?
  | [], _ => by rw [colName.colNameL]; rfl
  | [l], h => by
    rw [colName.colNameL, colName_last l h.1]
    show _ = (leaves l ++ []).getLast?
    rw [List.append_nil]
  | a :: l :: ls, h => by
    rw [colName.colNameL, colNameL_last (l :: ls) h.2]
    show _ = (leaves a ++ leavesL (l :: ls)).getLast?
    have hne := leavesL_ne (l :: ls) h.2 (by simp)
    rw [List.getLast?_append]
    cases hg : (leavesL (l :: ls)).getLast? with
    | none => exact (hne (List.getLast?_eq_none_iff.1 hg)).elim
    | some v => rfl
end

/-- the columns kept are those whose last string is not `id`, in their order with their contents -/
theorem C159_drop {C : Type} : ∀ (cols : List (Label × C)), (∀ p ∈ cols, Full p.1) →
    dropIds cols = .ok (cols.filter (fun p => decide ((leaves p.1).getLast? ≠ some "id")))
  | [], _ => rfl
  | (l, c) :: cols, h => by
    have hl := h (l, c) (by simp)
    unfold dropIds
    rw [colName_last l hl, C159_drop cols (fun p hp => h p (List.mem_cons_of_mem _ hp))]
    cases hg : (leaves l).getLast? with
    | none => exact (leaves_ne l hl (List.getLast?_eq_none_iff.1 hg)).elim
    | some n =>
      simp only
      by_cases hn : n = "id"
      · rw [if_pos hn, List.filter_cons, if_neg (by simp [hg, hn])]
      · rw [if_neg hn, List.filter_cons, if_pos (by simp [hg, hn])]

/-- the last string of the flat label is that of the label, and there are at most `max_levels` of them -/
theorem C159_levels (l : Label) (hl : Full l) (fuel : Nat) (hf : depth l ≤ fuel) (k : Option Nat) (hk : k ≠ some 0) :
    ∃ fl l', flattenName fuel l = some fl ∧ selectLevels k fl = some l' ∧ Full l' ∧ leaves l' <:+ leaves l ∧
      (∀ n, k = some n → (leaves l').length = min n (leaves l).length) ∧ (k = none → leaves l' = leaves l) := by
  have hstr : ∀ ss : List String, leavesL (ss.map .str) = ss := by
    intro ss
    induction ss with
    | nil => rfl
    | cons s ss ih =>
      show [s] ++ leavesL (ss.map .str) = _
      rw [ih]; rfl
  have hfull : ∀ ss : List String, FullL (ss.map .str) := by
    intro ss
    induction ss with
    | nil => trivial
    | cons s ss ih => exact ⟨trivial, ih⟩
  cases l with
  | str s =>
    refine ⟨.str s, .str s, rfl, by cases k <;> rfl, trivial, List.suffix_refl _, ?_, fun _ => rfl⟩
    intro n hn
    have : n ≠ 0 := fun h => hk (by rw [hn, h])
    show 1 = min n 1
    omega
  | tup ls =>
    have hne := leaves_ne _ hl
    refine ⟨flatLabel (.tup ls) (leaves (.tup ls)), ?_⟩
    rw [C159_flat _ fuel hf]
    match k, hk with
    | none, _ =>
      refine ⟨.tup ((leaves (.tup ls)).map .str), rfl, rfl, ⟨by simpa using hne, hfull _⟩, ?_, ?_, ?_⟩
      · show leavesL _ <:+ _
        rw [hstr]
        exact List.suffix_refl _
      · intro n hn; cases hn
      · intro _; exact hstr _
    | some 1, _ =>
      obtain ⟨s, hs⟩ : ∃ s, (leaves (.tup ls)).getLast? = some s := by
        cases hg : (leaves (.tup ls)).getLast? with
        | none => exact (hne (List.getLast?_eq_none_iff.1 hg)).elim
        | some s => exact ⟨s, rfl⟩
      refine ⟨.str s, rfl, ?_, trivial, ?_, ?_, ?_⟩
      · show ((leaves (.tup ls)).map Label.str).getLast? = _
        rw [List.getLast?_map, hs]
        rfl
      · obtain ⟨ys, hys⟩ := List.getLast?_eq_some_iff.1 hs
        exact ⟨ys, by rw [hys]; rfl⟩
      · intro n hn
        cases hn
        have : 0 < (leaves (.tup ls)).length := List.length_pos_iff.2 hne
        show 1 = min 1 _
        omega
      · intro h; cases h
    | some (n + 2), _ =>
      have hlen : 0 < (leaves (.tup ls)).length := List.length_pos_iff.2 hne
      have hd : ((leaves (.tup ls)).map Label.str).drop (((leaves (.tup ls)).map Label.str).length - (n + 2)) =
          ((leaves (.tup ls)).drop ((leaves (.tup ls)).length - (n + 2))).map Label.str := by
        rw [List.length_map, List.map_drop]
      refine ⟨.tup (((leaves (.tup ls)).drop ((leaves (.tup ls)).length - (n + 2))).map Label.str), rfl, ?_, ⟨?_, hfull _⟩, ?_, ?_, ?_⟩
      · rw [← hd]; rfl
      · intro e
        have := List.map_eq_nil_iff.1 e
        have := List.drop_eq_nil_iff.1 this
        omega
      · show leavesL _ <:+ _
        rw [hstr]
        exact List.drop_suffix _ _
      · intro m hm
        cases hm
        show (leavesL _).length = _
        rw [hstr, List.length_drop]
        omega
      · intro h; cases h
    | some 0, hk => exact (hk rfl).elim

theorem suffix_last {a b : List String} (h : a <:+ b) (ha : a ≠ []) : a.getLast? = b.getLast? := by
  obtain ⟨c, rfl⟩ := h
  rw [List.getLast?_append]
  cases hg : a.getLast? with
  | none => exact (ha (List.getLast?_eq_none_iff.1 hg)).elim
  | some v => rfl

/-- flattening and dropping the ids commute -/
theorem C159_commute {C : Type} (fuel : Nat) (k : Option Nat) (hk : k ≠ some 0) : ∀ (cols : List (Label × C)),
    (∀ p ∈ cols, Full p.1 ∧ depth p.1 ≤ fuel) →
    ∃ flat kept out, flattenColumns fuel k cols = .ok flat ∧ dropIds cols = .ok kept ∧ dropIds flat = .ok out ∧ flattenColumns fuel k kept = .ok out
  | [], _ => ⟨[], [], [], by simp [flattenColumns, hk], rfl, rfl, by simp [flattenColumns, hk]⟩
  | (l, c) :: cols, h => by
    obtain ⟨flat, kept, out, h1, h2, h3, h4⟩ := C159_commute fuel k hk cols (fun p hp => h p (List.mem_cons_of_mem _ hp))
    obtain ⟨hl, hd⟩ := h (l, c) (by simp)
    obtain ⟨fl, l', g1, g2, g3, g4, -, -⟩ := C159_levels l hl fuel hd k hk
    have hlast : colName l' = colName l := by
      rw [colName_last _ g3, colName_last _ hl, suffix_last g4 (leaves_ne _ g3)]
    have hone : ∀ cs r, flattenColumns fuel k cs = .ok r → flattenColumns fuel k ((l, c) :: cs) = .ok ((l', c) :: r) := by
      intro cs r hr
      unfold flattenColumns
      rw [if_neg hk, g1]
      simp only [g2, hr]
    cases hn : colName l with
    | none =>
      rw [colName_last _ hl] at hn
      exact (leaves_ne l hl (List.getLast?_eq_none_iff.1 hn)).elim
    | some n =>
      have hdrop : ∀ (x : Label) (cs r : List (Label × C)), colName x = some n → dropIds cs = .ok r →
          dropIds ((x, c) :: cs) = if n = "id" then .ok r else .ok ((x, c) :: r) := by
        intro x cs r hx hr
        unfold dropIds
        rw [hx, hr]
      by_cases hid : n = "id"
      · refine ⟨_, kept, out, hone _ _ h1, ?_, ?_, h4⟩
        · rw [hdrop l cols kept hn h2, if_pos hid]
        · rw [hdrop l' flat out (by rw [hlast]; exact hn) h3, if_pos hid]
      · refine ⟨_, (l, c) :: kept, (l', c) :: out, hone _ _ h1, ?_, ?_, hone _ _ h4⟩
        · rw [hdrop l cols kept hn h2, if_neg hid]
        · rw [hdrop l' flat out (by rw [hlast]; exact hn) h3, if_neg hid]

def lEx : Label := .tup [.str "t", .tup [.tup [.str "u", .str "v"], .str "id"]]

example : Full lEx ∧ depth lEx ≤ 3 ∧ leaves lEx = ["t", "u", "v", "id"] ∧ colName lEx = some "id" := by
  refine ⟨?_, by decide, rfl, rfl⟩
  simp [lEx, Full, FullL]

/-- labels cut to their last level need not differ any more -/
theorem C159_ambiguous_fails : flattenColumns 2 (some 1) [(.tup [.str "a", .str "id"], 0), (.tup [.str "b", .str "id"], 1)] =
    .ok [(.str "id", 0), (.str "id", 1)] := rfl

/-! ## C160: tables from data frames -/

/-- every cell of the data frame is found again in the table -/
theorem C160_cells {V : Type} (declared : String → Option Bool) : ∀ (cols : List (String × List (DCell V))) (out : List (String × BCol V)),
    fromFrame declared cols = .ok out → out.map (fun p => p.1) = cols.map (fun p => p.1) ∧
      ∀ (k : Nat) (n : String) (cells : List (DCell V)), cols[k]? = some (n, cells) → ∃ c : BCol V, out[k]? = some (n, c) ∧ ∀ i : Nat, cellAt c i = cells[i]?
  | [], out, h => by cases h; exact ⟨rfl, by simp⟩
  | (n, cells) :: cols, out, h => by
    unfold fromFrame at h
    split at h
    · cases h
    · rename_i b hb
      split at h
      · cases h
      · rename_i c hc
        split at h
        · rename_i cs hcs
          cases h
          obtain ⟨h1, h2⟩ := C160_cells declared cols cs hcs
          refine ⟨by simp [h1], ?_⟩
          intro k m cells' hk
          cases k with
          | succ k => exact h2 k m cells' hk
          | zero =>
            simp only [List.getElem?_cons_zero, Option.some.injEq, Prod.mk.injEq] at hk
            obtain ⟨rfl, rfl⟩ := hk
            refine ⟨c, rfl, ?_⟩
            unfold buildColumn at hc
            split at hc
            · split at hc
              · cases hc
              · rename_i x xs
                split at hc
                · rename_i ns hns
                  cases hc
                  obtain ⟨vss, e1, e2, e3⟩ := cellLens_many _ _ hns
                  intro i
                  unfold cellAt
                  simp only
                  rw [ends_get, e1, ← e1, e3, e2]
                  simp only [List.length_map, Nat.zero_add]
                  by_cases hi : i < vss.length
                  · rw [if_pos hi]
                    simp only
                    rw [e1, List.getElem?_map, List.getElem?_eq_getElem hi]
                    simp only [Option.map_some]
                    congr 2
                    rw [ends_get]
                    have := slice_flatten vss i hi
                    cases i with
                    | zero => simpa using this
                    | succ i =>
                      simp only [Nat.add_one_ne_zero, if_false, Nat.add_sub_cancel, List.length_map, if_pos (show i < vss.length by omega),
                        Option.getD_some, Nat.zero_add]
                      exact this
                  · rw [if_neg hi, e1, List.getElem?_eq_none (l := vss.map DCell.many) (by rw [List.length_map]; omega)]
                · cases hc
            · cases hc
              intro i
              rfl
        · cases h

/-- a column that is not described gets an index if its first cell is a list and the lists have different lengths -/
theorem C160_ragged_partial {V : Type} (declared : String → Option Bool) (n : String) (hd : declared n = none) (vss : List (List (DCell V))) (hne : vss ≠ []) :
    ∃ c, fromFrame declared [(n, vss.map .many)] = .ok [(n, c)] ∧
      ((∃ ix data, c = .ragged ix data) ↔ ∃ a ∈ vss, ∃ b ∈ vss, a.length ≠ b.length) := by
  cases vss with
  | nil => exact (hne rfl).elim
  | cons v vss =>
    have hidx : indexOf declared n ((v :: vss).map DCell.many) =
        .ok (decide (((v :: vss).map List.length).tail ≠ ((v :: vss).map List.length).dropLast)) := by
      unfold indexOf
      rw [hd]
      show needsIndex (.many v :: vss.map .many) = _
      unfold needsIndex
      simp only [DCell.isMany, if_true]
      have := cellLens_ok (v :: vss)
      rw [List.map_cons] at this
      rw [this]
    by_cases hall : ((v :: vss).map List.length).tail = ((v :: vss).map List.length).dropLast
    · refine ⟨.plain ((v :: vss).map .many), ?_, ?_⟩
      · unfold fromFrame
        rw [hidx]
        simp only [hall, ne_eq, not_true_eq_false, decide_false]
        rfl
      · have := (tail_dropLast _).1 hall
        constructor
        · rintro ⟨ix, data, e⟩; cases e
        · rintro ⟨a, ha, b, hb, e⟩
          exact (e (this _ (List.mem_map_of_mem ha) _ (List.mem_map_of_mem hb))).elim
    · refine ⟨.ragged (ends 0 ((v :: vss).map List.length)) (concatCells ((v :: vss).map .many)), ?_, ?_⟩
      · unfold fromFrame
        rw [hidx]
        simp only [ne_eq, hall, not_false_eq_true, decide_true]
        have : buildColumn true ((v :: vss).map DCell.many) =
            .ok (.ragged (ends 0 ((v :: vss).map List.length)) (concatCells ((v :: vss).map .many))) := by
          have h0 := cellLens_ok (v :: vss)
          rw [List.map_cons] at h0
          show (match cellLens (DCell.many v :: vss.map .many) with | .ok ns => Except.ok (BCol.ragged (ends 0 ns) (concatCells _)) | .error e => .error e) = _
          rw [h0]
          rfl
        rw [this]
        rfl
      · constructor
        · intro _
          apply Classical.byContradiction
          intro hno
          apply hall
          apply (tail_dropLast _).2
          intro a ha b hb
          obtain ⟨x, hx, rfl⟩ := List.mem_map.1 ha
          obtain ⟨y, hy, rfl⟩ := List.mem_map.1 hb
          exact Classical.byContradiction (fun e => hno ⟨x, hx, y, hy, e⟩)
        · intro _; exact ⟨_, _, rfl⟩

/-- columns whose cells are all values without a length, or all lists, are accepted if there are rows -/
theorem C160_accepts_partial {V : Type} : ∀ (cols : List (String × List (DCell V))),
    (∀ p ∈ cols, p.2 ≠ [] ∧ ((∀ c ∈ p.2, c.isMany = true) ∨ (∀ c ∈ p.2, c.isMany = false))) → ∃ out, fromFrame (fun _ => none) cols = .ok out
  | [], _ => ⟨[], rfl⟩
  | (n, cells) :: cols, h => by
    obtain ⟨out, hout⟩ := C160_accepts_partial cols (fun p hp => h p (List.mem_cons_of_mem _ hp))
    obtain ⟨hne, hor⟩ := h (n, cells) (by simp)
    simp only at hne hor
    have hcol : ∃ c, fromFrame (fun _ => none) [(n, cells)] = .ok [(n, c)] := by
      rcases hor with hm | hm
      · have : ∃ vss : List (List (DCell V)), cells = vss.map .many := by
          clear hne h
          induction cells with
          | nil => exact ⟨[], rfl⟩
          | cons c cs ih =>
            obtain ⟨vss, rfl⟩ := ih (fun x hx => hm x (List.mem_cons_of_mem _ hx))
            have hc := hm c (by simp)
            cases c with
            | one => cases hc
            | many vs => exact ⟨vs :: vss, rfl⟩
        obtain ⟨vss, rfl⟩ := this
        obtain ⟨c, hc, -⟩ := C160_ragged_partial (fun _ => none) n rfl vss (by intro e; apply hne; rw [e]; rfl)
        exact ⟨c, hc⟩
      · cases cells with
        | nil => exact (hne rfl).elim
        | cons c cs =>
          refine ⟨.plain (c :: cs), ?_⟩
          have hc := hm c (by simp)
          unfold fromFrame indexOf needsIndex
          simp only [hc, Bool.false_eq_true, if_false]
          rfl
    obtain ⟨c, hc⟩ := hcol
    refine ⟨(n, c) :: out, ?_⟩
    unfold fromFrame at hc ⊢
    split at hc
    · cases hc
    · rename_i b hb
      split at hc
      · cases hc
      · rename_i c' hc'
        rw [hout]
        simp only
        have : c' = c := by
          have e : Except.ok (ε := Err) [(n, c')] = .ok [(n, c)] := hc
          cases e
          rfl
        rw [this]

example : (fromFrame (fun _ => none) [("x", [.many [.one 1, .one 2], .many [], .many [.one 3]]), ("y", [.one 7, .one 8, .one 9])]) =
    .ok [("x", .ragged [2, 2, 3] [.one 1, .one 2, .one 3]), ("y", .plain [.one 7, .one 8, .one 9])] := rfl

/-- a data frame without rows: IndexError -/
theorem C160_empty_fails : fromFrame (V := Nat) (fun _ => none) [("x", [])] = .error .indexError := rfl

/-- the first cell decides: a list after a value is kept as it is, a value after a list is an error -/
theorem C160_mixed_fails : fromFrame (fun _ => none) [("x", [.one 1, .many [.one 2, .one 3]])] = .ok [("x", .plain [.one 1, .many [.one 2, .one 3]])] ∧
    fromFrame (fun _ => none) [("x", [.many [.one 2, .one 3], .one 1])] = .error .typeError := ⟨rfl, rfl⟩

/-- a description of the column without `index` makes lists of different lengths a column without an index -/
theorem C160_described_fails : fromFrame (fun _ => some false) [("x", [.many [.one 1], .many [.one 2, .one 3]])] =
    .ok [("x", .plain [.many [.one 1], .many [.one 2, .one 3]])] := rfl

end Verif.Hier

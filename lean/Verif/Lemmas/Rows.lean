import Verif.Model.Rows

/-! Lemmas about `Verif.Rows`: rows that are stored stay, the cache only grows, and what is stored fits the columns. -/

namespace Verif.Rows
open Verif

/-! ### `pyGet` at a natural number -/

theorem pyGet_nat {α : Type} {l : List α} {k : Nat} (h : k < l.length) : pyGet l (k : Int) = .ok l[k] := by
  unfold pyGet pyPos
  have h0 : (0 : Int) ≤ (k : Int) := Int.natCast_nonneg k
  rw [if_pos h0]
  simp [h]

theorem pyGet_nat_err {α : Type} {l : List α} {k : Nat} (h : ¬ k < l.length) : pyGet l (k : Int) = .error .indexError := by
  unfold pyGet pyPos
  have h0 : (0 : Int) ≤ (k : Int) := Int.natCast_nonneg k
  rw [if_pos h0]
  simp [h]

theorem pyGet_ok_nat {α : Type} {l : List α} {k : Nat} {x : α} (h : pyGet l (k : Int) = .ok x) :
    ∃ hk : k < l.length, l[k] = x := by
  by_cases hk : k < l.length
  · rw [pyGet_nat hk] at h
    cases h
    exact ⟨hk, rfl⟩
  · rw [pyGet_nat_err hk] at h
    cases h

theorem pyGet_mem {α : Type} {l : List α} {i : Int} {x : α} (h : pyGet l i = .ok x) : x ∈ l := by
  unfold pyGet at h
  split at h
  · cases h
  · split at h
    · next hx =>
      cases h
      exact List.mem_of_getElem? hx
    · cases h

/-! ### The position of a column -/

theorem colIndex_some {T : Tbl} (hn : T.names.Nodup) {k : Nat} (hk : k < T.names.length) :
    T.colIndex T.names[k] = some k := by
  have hk' : T.names.length - 1 - k < T.names.reverse.length := by
    rw [List.length_reverse]
    omega
  have e : T.names.reverse[T.names.length - 1 - k]'hk' = T.names[k] := by
    rw [List.getElem_reverse]
    congr 1
    omega
  have hi : T.names.reverse.idxOf T.names[k] = T.names.length - 1 - k := by
    rw [← e]
    exact List.Nodup.idxOf_getElem (List.nodup_reverse.2 hn) _ hk'
  unfold Tbl.colIndex
  simp only [hi]
  rw [if_pos (by omega)]
  congr 1
  omega

theorem colIndex_none {T : Tbl} {c : String} (h : c ∉ T.names) : T.colIndex c = none := by
  unfold Tbl.colIndex
  have : T.names.reverse.idxOf c = T.names.reverse.length := List.idxOf_eq_length (by simpa using h)
  simp only [this, List.length_reverse]
  rw [if_neg (by omega)]

theorem colIndex_lt {T : Tbl} {c : String} {k : Nat} (h : T.colIndex c = some k) : k < T.names.length := by
  unfold Tbl.colIndex at h
  simp only at h
  split at h
  · cases h
    omega
  · cases h

/-! ### `rowOf` -/

theorem rowOf_ok {rows : List RowObj} {kw : Dict String Arg} {cs : List String} {row : List Cell} :
    rowOf rows kw cs = .ok row ↔
      cs.map (fun c => (Dict.get? kw c).bind (cellOf rows)) = row.map some := by
  induction cs generalizing row with
  | nil => cases row <;> simp [rowOf]
  | cons c cs ih =>
    unfold rowOf
    cases hg : Dict.get? kw c with
    | none => cases row <;> simp [hg]
    | some v =>
      cases hc : cellOf rows v with
      | none => cases row <;> simp [hg, hc]
      | some x =>
        simp only [hc]
        cases hr : rowOf rows kw cs with
        | error e =>
          cases row with
          | nil => simp
          | cons y ys =>
            simp only [List.map_cons, hg, Option.bind_some, hc, List.cons.injEq, reduceCtorEq, false_iff, not_and]
            intro _ he
            rw [← ih, hr] at he
            cases he
        | ok xs =>
          have := (ih (row := xs)).1 hr
          cases row with
          | nil => simp
          | cons y ys =>
            simp only [List.map_cons, hg, Option.bind_some, hc, List.cons.injEq, Except.ok.injEq, Option.some.injEq]
            constructor
            · rintro ⟨rfl, rfl⟩
              exact ⟨rfl, this⟩
            · rintro ⟨rfl, he⟩
              refine ⟨rfl, ?_⟩
              rw [this] at he
              exact List.map_injective_iff.2 (fun _ _ h => Option.some.inj h) he

theorem rowOf_length {rows : List RowObj} {kw : Dict String Arg} {cs : List String} {row : List Cell}
    (h : rowOf rows kw cs = .ok row) : row.length = cs.length := by
  have := congrArg List.length (rowOf_ok.1 h)
  simpa using this.symm

theorem rowOf_get {rows : List RowObj} {kw : Dict String Arg} {cs : List String} {row : List Cell}
    (h : rowOf rows kw cs = .ok row) {k : Nat} (hk : k < cs.length) :
    (Dict.get? kw cs[k]).bind (cellOf rows) = some (row[k]'(by rw [rowOf_length h]; exact hk)) := by
  have := rowOf_ok.1 h
  have hk' : k < (cs.map (fun c => (Dict.get? kw c).bind (cellOf rows))).length := by simpa using hk
  have e := List.getElem_of_eq this hk'
  simpa using e

/-! ### `addRow` -/

theorem addRow_cases (w : World) (t : Nat) (kw : Dict String Arg) :
    ((addRow w t kw).1 = w ∧ ∃ e, (addRow w t kw).2 = .error e) ∨
      ∃ T row, w.tbls[t]? = some T ∧ T.isList = true ∧ binds T.cols kw = true ∧ rowOf w.rows kw T.names = .ok row ∧
        addRow w t kw = ({ w with tbls := w.tbls.set t { T with data := T.data ++ [row] } }, .ok (T.data.length : Int)) := by
  unfold addRow
  cases hT : w.tbls[t]? with
  | none => exact .inl ⟨rfl, _, rfl⟩
  | some T =>
    simp only
    by_cases hb : binds T.cols kw
    · rw [if_pos hb]
      unfold addValues
      by_cases hl : T.isList
      · rw [if_pos hl]
        cases hr : rowOf w.rows kw T.names with
        | error e => exact .inl ⟨rfl, _, rfl⟩
        | ok row => exact .inr ⟨T, row, rfl, hl, hb, hr, rfl⟩
      · rw [if_neg hl]
        exact .inl ⟨rfl, _, rfl⟩
    · rw [if_neg hb]
      exact .inl ⟨rfl, _, rfl⟩

theorem newRow_cases (w : World) (cols : List ColDef) (kw : Dict String Arg) (table : Option Nat) (idx : Option Int) :
    ((newRow w cols kw table idx).1 = w ∧ ∃ e, (newRow w cols kw table idx).2 = .error e) ∨
      (∃ i, idx = some i ∧ binds cols kw = true ∧ newRow w cols kw table idx =
        ({ w with rows := w.rows ++ [⟨attrsOf cols kw, i, table⟩] }, .ok w.rows.length)) ∨
      ∃ t w' i, idx = none ∧ table = some t ∧ binds cols kw = true ∧ addRow w t (attrsOf cols kw) = (w', .ok i) ∧
        newRow w cols kw table idx =
          ({ w' with rows := w'.rows ++ [⟨attrsOf cols kw, i, some t⟩] }, .ok w'.rows.length) := by
  unfold newRow
  by_cases hb : binds cols kw
  · rw [if_pos hb]
    cases idx with
    | some i => exact .inr (.inl ⟨i, rfl, hb, rfl⟩)
    | none =>
      cases table with
      | none => exact .inl ⟨rfl, _, rfl⟩
      | some t =>
        simp only
        rcases addRow_cases w t (attrsOf cols kw) with ⟨h1, e, h2⟩ | ⟨T, row, -, -, -, -, h⟩
        · refine .inl ?_
          generalize addRow w t (attrsOf cols kw) = p at h1 h2 ⊢
          obtain ⟨w', r⟩ := p
          simp only at h1 h2
          subst h1 h2
          exact ⟨rfl, _, rfl⟩
        · refine .inr (.inr ⟨t, _, _, by simp, by simp, hb, h, ?_⟩)
          rw [h]
  · rw [if_neg hb]
    exact .inl ⟨rfl, _, rfl⟩

theorem getRow_cases (w : World) (t : Nat) (i : Int) :
    ((getRow w t i).1 = w ∧ ∃ e, (getRow w t i).2 = .error e) ∨
      (∃ T r, w.tbls[t]? = some T ∧ Dict.get? T.cache i = some r ∧ getRow w t i = (w, .ok r)) ∨
      ∃ T row, w.tbls[t]? = some T ∧ Dict.get? T.cache i = none ∧ pyGet T.data i = .ok row ∧ row.length = T.cols.length ∧
        binds T.cols (T.names.zip (row.map Arg.val)) = true ∧ getRow w t i =
          ({ tbls := w.tbls.set t { T with cache := Dict.set T.cache i w.rows.length }
             rows := w.rows ++ [⟨attrsOf T.cols (T.names.zip (row.map Arg.val)), i, some t⟩] }, .ok w.rows.length) := by
  unfold getRow
  cases hT : w.tbls[t]? with
  | none => exact .inl ⟨rfl, _, rfl⟩
  | some T =>
    simp only
    cases hc : Dict.get? T.cache i with
    | some r => exact .inr (.inl ⟨T, r, rfl, hc, rfl⟩)
    | none =>
      simp only
      cases hp : pyGet T.data i with
      | error e => exact .inl ⟨rfl, _, rfl⟩
      | ok row =>
        simp only
        split
        · next h => exact .inr (.inr ⟨T, row, rfl, hc, hp, h.1, h.2, rfl⟩)
        · exact .inl ⟨rfl, _, rfl⟩

/-! ### What later calls keep -/

/-- `w'` has all that `w` has: the same columns, the rows stored so far, the cached Row objects, and the indices of Row
objects. -/
structure Ext (w w' : World) : Prop where
  tbl : ∀ {t : Nat} {T : Tbl}, w.tbls[t]? = some T → ∃ T', w'.tbls[t]? = some T' ∧ T'.cols = T.cols ∧ T'.isList = T.isList ∧
    T.data <+: T'.data ∧ ∀ i r, Dict.get? T.cache i = some r → Dict.get? T'.cache i = some r
  row : ∀ {r : Nat} {o : RowObj}, w.rows[r]? = some o → ∃ o', w'.rows[r]? = some o' ∧ o'.idx = o.idx

theorem Ext.refl (w : World) : Ext w w :=
  ⟨fun h => ⟨_, h, rfl, rfl, List.prefix_rfl, fun _ _ h => h⟩, fun h => ⟨_, h, rfl⟩⟩

theorem Ext.trans {a b c : World} (h : Ext a b) (g : Ext b c) : Ext a c := by
  constructor
  · intro t T hT
    obtain ⟨T', h1, h2, h3, h4, h5⟩ := h.tbl hT
    obtain ⟨T'', g1, g2, g3, g4, g5⟩ := g.tbl h1
    exact ⟨T'', g1, g2.trans h2, g3.trans h3, h4.trans g4, fun i r hr => g5 i r (h5 i r hr)⟩
  · intro r o ho
    obtain ⟨o', h1, h2⟩ := h.row ho
    obtain ⟨o'', g1, g2⟩ := g.row h1
    exact ⟨o'', g1, g2.trans h2⟩

theorem getElem?_lt {α : Type} {l : List α} {i : Nat} {x : α} (h : l[i]? = some x) : i < l.length :=
  (List.getElem?_eq_some_iff.1 h).1

/-- a table replaced by one with more rows or cached objects, and Row objects added -/
theorem Ext.mk' {w : World} {t : Nat} {T T' : Tbl} (hT : w.tbls[t]? = some T) (hc : T'.cols = T.cols)
    (hl : T'.isList = T.isList) (hd : T.data <+: T'.data)
    (hk : ∀ i r, Dict.get? T.cache i = some r → Dict.get? T'.cache i = some r) (os : List RowObj) :
    Ext w { tbls := w.tbls.set t T', rows := w.rows ++ os } := by
  constructor
  · intro t' S hS
    by_cases h : t = t'
    · subst h
      rw [hT] at hS
      cases hS
      refine ⟨T', ?_, hc, hl, hd, hk⟩
      exact List.getElem?_set_self (getElem?_lt hT)
    · exact ⟨S, by rw [List.getElem?_set_ne h]; exact hS, rfl, rfl, List.prefix_rfl, fun _ _ h => h⟩
  · intro r o ho
    refine ⟨o, ?_, rfl⟩
    rw [List.getElem?_append_left (getElem?_lt ho)]
    exact ho

theorem Ext.rows {w : World} (os : List RowObj) : Ext w { w with rows := w.rows ++ os } := by
  constructor
  · intro t T hT
    exact ⟨T, hT, rfl, rfl, List.prefix_rfl, fun _ _ h => h⟩
  · intro r o ho
    exact ⟨o, by rw [List.getElem?_append_left (getElem?_lt ho)]; exact ho, rfl⟩

theorem addRow_ext (w : World) (t : Nat) (kw : Dict String Arg) : Ext w (addRow w t kw).1 := by
  rcases addRow_cases w t kw with ⟨h, -⟩ | ⟨T, row, hT, -, -, -, h⟩
  · rw [h]
    exact .refl w
  · rw [h]
    have := Ext.mk' (T' := { T with data := T.data ++ [row] }) hT rfl rfl (List.prefix_append _ _) (fun _ _ h => h) []
    simpa using this

theorem newRow_ext (w : World) (cols : List ColDef) (kw : Dict String Arg) (table : Option Nat) (idx : Option Int) :
    Ext w (newRow w cols kw table idx).1 := by
  rcases newRow_cases w cols kw table idx with ⟨h, -⟩ | ⟨i, -, -, h⟩ | ⟨t, w', i, -, -, -, ha, h⟩
  · rw [h]
    exact .refl w
  · rw [h]
    exact .rows _
  · rw [h]
    have := addRow_ext w t (attrsOf cols kw)
    rw [ha] at this
    exact this.trans (.rows _)

theorem getRow_ext (w : World) (t : Nat) (i : Int) : Ext w (getRow w t i).1 := by
  rcases getRow_cases w t i with ⟨h, -⟩ | ⟨T, r, -, -, h⟩ | ⟨T, row, hT, hc, -, -, -, h⟩
  · rw [h]
    exact .refl w
  · rw [h]
    exact .refl w
  · rw [h]
    refine Ext.mk' (T' := { T with cache := Dict.set T.cache i w.rows.length }) hT rfl rfl List.prefix_rfl ?_ _
    intro j r hr
    by_cases hj : j = i
    · subst hj
      rw [hc] at hr
      cases hr
    · show Dict.get? (Dict.set T.cache i w.rows.length) j = some r
      rw [Dict.get?_set_ne hj]
      exact hr

theorem step_ext (w : World) (op : Op) : Ext w (step w op) := by
  cases op with
  | mk cols l data =>
    constructor
    · intro t T hT
      refine ⟨T, ?_, rfl, rfl, List.prefix_rfl, fun _ _ h => h⟩
      show (w.tbls ++ _)[t]? = some T
      rw [List.getElem?_append_left (getElem?_lt hT)]
      exact hT
    · intro r o ho
      exact ⟨o, ho, rfl⟩
  | add t kw => exact addRow_ext w t kw
  | new cols kw t i => exact newRow_ext w cols kw t i
  | get t i => exact getRow_ext w t i
  | setIdx r i => exact .refl w
  | setTable r t =>
    show Ext w (Rows.setTable w r t).1
    unfold Rows.setTable
    cases hr : w.rows[r]? with
    | none => exact .refl w
    | some o =>
      cases t with
      | none => exact .refl w
      | some t =>
        constructor
        · intro t T hT
          exact ⟨T, hT, rfl, rfl, List.prefix_rfl, fun _ _ h => h⟩
        · intro r' o' ho'
          show ∃ o'', (w.rows.set r _)[r']? = some o'' ∧ _
          by_cases h : r = r'
          · subst h
            rw [hr] at ho'
            cases ho'
            exact ⟨_, List.getElem?_set_self (getElem?_lt hr), rfl⟩
          · exact ⟨o', by rw [List.getElem?_set_ne h]; exact ho', rfl⟩
  | setAttr r c v =>
    show Ext w (Rows.setAttr w r c v).1
    unfold Rows.setAttr
    cases hr : w.rows[r]? with
    | none => exact .refl w
    | some o =>
      constructor
      · intro t T hT
        exact ⟨T, hT, rfl, rfl, List.prefix_rfl, fun _ _ h => h⟩
      · intro r' o' ho'
        show ∃ o'', (w.rows.set r _)[r']? = some o'' ∧ _
        by_cases h : r = r'
        · subst h
          rw [hr] at ho'
          cases ho'
          exact ⟨_, List.getElem?_set_self (getElem?_lt hr), rfl⟩
        · exact ⟨o', by rw [List.getElem?_set_ne h]; exact ho', rfl⟩

theorem run_ext (w : World) (ops : List Op) : Ext w (run w ops) := by
  induction ops generalizing w with
  | nil => exact .refl w
  | cons op ops ih => exact (step_ext w op).trans (ih (step w op))

end Verif.Rows

namespace Verif.Rows
open Verif

/-! ### What is stored fits the columns -/

theorem attrsOf_get {cols : List ColDef} {kw : Dict String Arg} {c : String} :
    Dict.get? (attrsOf cols kw) c = if c ∈ cols.map ColDef.name then Dict.get? kw c else none := by
  induction cols with
  | nil => simp [attrsOf, Dict.get?]
  | cons d cols ih =>
    unfold attrsOf at ih ⊢
    rw [List.filterMap_cons]
    cases hg : Dict.get? kw d.name with
    | none =>
      simp only [Option.map_none, ih, List.map_cons, List.mem_cons]
      by_cases hc : c = d.name
      · subst hc
        simp [hg]
      · simp [hc]
    | some v =>
      simp only [Option.map_some, Dict.get?]
      by_cases hc : d.name = c
      · subst hc
        simp [hg]
      · rw [if_neg hc, ih]
        simp [Ne.symm hc]

theorem get?_zip {names : List String} {row : List Arg} (hn : names.Nodup) (hl : row.length = names.length) {k : Nat}
    (hk : k < names.length) : Dict.get? (names.zip row) names[k] = some (row[k]'(by rw [hl]; exact hk)) := by
  refine Dict.get?_of_mem ?_ ?_
  · have : Dict.keys (names.zip row) = names := by
      unfold Dict.keys
      exact List.map_fst_zip (by rw [hl])
    rw [this]
    exact hn
  · have : (names.zip row)[k]'(by simp [hl, hk]) = (names[k], row[k]'(by rw [hl]; exact hk)) := by simp
    rw [← this]
    exact List.getElem_mem _

/-- The columns have different names, those for Row objects take their indices too, and every row has a value of the right
kind for each column. -/
structure Fits (T : Tbl) : Prop where
  names : T.names.Nodup
  rowInt : ∀ c ∈ T.cols, c.row = true → c.int = true
  len : ∀ row ∈ T.data, row.length = T.cols.length
  kind : ∀ row ∈ T.data, ∀ k (h : k < T.cols.length) (h' : k < row.length), T.cols[k].takes (.val row[k]) = true

theorem names_length (T : Tbl) : T.names.length = T.cols.length := by simp [Tbl.names]

theorem names_get (T : Tbl) {k : Nat} (h : k < T.cols.length) :
    T.names[k]'(by rw [names_length]; exact h) = T.cols[k].name := by simp [Tbl.names]

theorem binds_zip {T : Tbl} (hn : T.names.Nodup) {row : List Cell} (hl : row.length = T.cols.length)
    (hk : ∀ k (h : k < T.cols.length) (h' : k < row.length), T.cols[k].takes (.val row[k]) = true) :
    binds T.cols (T.names.zip (row.map Arg.val)) = true := by
  unfold binds
  rw [Bool.and_eq_true, List.all_eq_true, List.all_eq_true]
  constructor
  · intro c hc
    obtain ⟨k, hkl, rfl⟩ := List.mem_iff_getElem.1 hc
    have := get?_zip (row := row.map Arg.val) hn (by rw [List.length_map, hl, names_length]) (k := k)
      (by rw [names_length]; exact hkl)
    rw [names_get T hkl] at this
    rw [this]
    simp only [List.getElem_map]
    exact hk k hkl (by rw [hl]; exact hkl)
  · intro p hp
    have : p.1 ∈ T.names := (List.of_mem_zip hp).1
    unfold Tbl.names at this
    rw [List.mem_map] at this
    obtain ⟨c, hc, e⟩ := this
    rw [List.any_eq_true]
    exact ⟨c, hc, by simp [e]⟩

theorem binds_iff {cols : List ColDef} {kw : Dict String Arg} : binds cols kw = true ↔
    (∀ c ∈ cols, ∃ v, Dict.get? kw c.name = some v ∧ c.takes v = true) ∧ ∀ k ∈ Dict.keys kw, k ∈ cols.map ColDef.name := by
  unfold binds
  rw [Bool.and_eq_true, List.all_eq_true, List.all_eq_true]
  constructor
  · rintro ⟨h1, h2⟩
    constructor
    · intro c hc
      have := h1 c hc
      cases hg : Dict.get? kw c.name with
      | none => rw [hg] at this; cases this
      | some v => rw [hg] at this; exact ⟨v, rfl, this⟩
    · intro k hk
      unfold Dict.keys at hk
      rw [List.mem_map] at hk
      obtain ⟨p, hp, rfl⟩ := hk
      have := h2 p hp
      rw [List.any_eq_true] at this
      obtain ⟨c, hc, e⟩ := this
      exact List.mem_map.2 ⟨c, hc, by simpa using e⟩
  · rintro ⟨h1, h2⟩
    constructor
    · intro c hc
      obtain ⟨v, hv, ht⟩ := h1 c hc
      rw [hv]
      exact ht
    · intro p hp
      have := h2 p.1 (Dict.mem_keys_of_mem (v := p.2) hp)
      rw [List.mem_map] at this
      obtain ⟨c, hc, e⟩ := this
      rw [List.any_eq_true]
      exact ⟨c, hc, by simp [e]⟩

theorem takes_cell {c : ColDef} {rows : List RowObj} {v : Arg} {x : Cell} (hr : c.row = true → c.int = true)
    (ht : c.takes v = true) (hx : cellOf rows v = some x) : c.takes (.val x) = true := by
  cases v with
  | val y =>
    simp only [cellOf, Option.some.injEq] at hx
    subst hx
    exact ht
  | row r =>
    simp only [cellOf] at hx
    cases ho : rows[r]? with
    | none => rw [ho] at hx; cases hx
    | some o =>
      rw [ho] at hx
      simp only [Option.map_some, Option.some.injEq] at hx
      subst hx
      exact hr ht

theorem Fits.push {T : Tbl} (h : Fits T) {rows : List RowObj} {kw : Dict String Arg} {row : List Cell}
    (hb : binds T.cols kw = true) (hr : rowOf rows kw T.names = .ok row) : Fits { T with data := T.data ++ [row] } := by
  have hlen : row.length = T.cols.length := by rw [rowOf_length hr, names_length]
  refine ⟨h.names, h.rowInt, ?_, ?_⟩
  · intro r hr'
    rcases List.mem_append.1 hr' with hr' | hr'
    · exact h.len r hr'
    · rw [List.mem_singleton] at hr'
      subst hr'
      exact hlen
  · intro r hr' k hk hk'
    rcases List.mem_append.1 hr' with hr' | hr'
    · exact h.kind r hr' k hk hk'
    · rw [List.mem_singleton] at hr'
      subst hr'
      have e := rowOf_get hr (k := k) (by rw [names_length]; exact hk)
      rw [names_get T hk] at e
      obtain ⟨v, hv, ht⟩ := (binds_iff.1 hb).1 T.cols[k] (List.getElem_mem hk)
      rw [hv] at e
      simp only [Option.bind_some] at e
      exact takes_cell (h.rowInt _ (List.getElem_mem hk)) ht e

/-- Calls that leave the attributes and tables of Row objects alone and construct tables with data that fit. -/
def Op.plain : Op → Prop
  | .mk cols l data => Fits { cols := cols, isList := l, data := data }
  | .setTable _ _ => False
  | .setAttr _ _ _ => False
  | _ => True

/-- The invariant of plain calls: tables fit, and cached Row objects are those of their row. -/
structure Good (w : World) : Prop where
  fits : ∀ {t : Nat} {T : Tbl}, w.tbls[t]? = some T → Fits T
  cache : ∀ {t : Nat} {T : Tbl} {i : Int} {r : Nat}, w.tbls[t]? = some T → Dict.get? T.cache i = some r →
    ∃ o, w.rows[r]? = some o ∧ o.idx = i ∧ o.table = some t ∧
      (0 ≤ i → ∃ row, pyGet T.data i = .ok row ∧ o.vals = attrsOf T.cols (T.names.zip (row.map Arg.val)))

theorem pyGet_prefix {α : Type} {l l' : List α} (h : l <+: l') {i : Int} (hi : 0 ≤ i) {x : α} (hx : pyGet l i = .ok x) :
    pyGet l' i = .ok x := by
  obtain ⟨k, rfl⟩ := Int.eq_ofNat_of_zero_le hi
  obtain ⟨hk, e⟩ := pyGet_ok_nat hx
  obtain ⟨s, rfl⟩ := h
  rw [pyGet_nat (by rw [List.length_append]; omega)]
  rw [List.getElem_append_left hk, e]

theorem Good.set {w : World} (h : Good w) {t : Nat} {T T' : Tbl} (hT : w.tbls[t]? = some T) (hf : Fits T')
    (os : List RowObj)
    (hc : ∀ i r, Dict.get? T'.cache i = some r → ∃ o, (w.rows ++ os)[r]? = some o ∧ o.idx = i ∧ o.table = some t ∧
      (0 ≤ i → ∃ row, pyGet T'.data i = .ok row ∧ o.vals = attrsOf T'.cols (T'.names.zip (row.map Arg.val)))) :
    Good { tbls := w.tbls.set t T', rows := w.rows ++ os } := by
  constructor
  · intro t' S hS
    by_cases e : t = t'
    · subst e
      rw [List.getElem?_set_self (getElem?_lt hT)] at hS
      cases hS
      exact hf
    · rw [List.getElem?_set_ne e] at hS
      exact h.fits hS
  · intro t' S i r hS hr
    by_cases e : t = t'
    · subst e
      rw [List.getElem?_set_self (getElem?_lt hT)] at hS
      cases hS
      exact hc i r hr
    · rw [List.getElem?_set_ne e] at hS
      obtain ⟨o, ho, h2⟩ := h.cache hS hr
      exact ⟨o, by rw [List.getElem?_append_left (getElem?_lt ho)]; exact ho, h2⟩

theorem Good.rows {w : World} (h : Good w) (os : List RowObj) : Good { w with rows := w.rows ++ os } := by
  constructor
  · intro t S hS
    exact h.fits hS
  · intro t S i r hS hr
    obtain ⟨o, ho, h2⟩ := h.cache hS hr
    exact ⟨o, by rw [List.getElem?_append_left (getElem?_lt ho)]; exact ho, h2⟩

theorem Good.addRow {w : World} (h : Good w) (t : Nat) (kw : Dict String Arg) : Good (Rows.addRow w t kw).1 := by
  rcases addRow_cases w t kw with ⟨e, -⟩ | ⟨T, row, hT, -, hb, hr, e⟩
  · rw [e]
    exact h
  · rw [e]
    have := Good.set (T' := { T with data := T.data ++ [row] }) h hT ((h.fits hT).push hb hr) [] (by
      intro i r hir
      obtain ⟨o, ho, h1, h2, h3⟩ := h.cache hT hir
      refine ⟨o, by simpa using ho, h1, h2, fun hi => ?_⟩
      obtain ⟨rw', hg, hv⟩ := h3 hi
      exact ⟨rw', pyGet_prefix (List.prefix_append _ _) hi hg, hv⟩)
    simpa using this

theorem Good.step {w : World} (h : Good w) {op : Op} (hp : op.plain) : Good (Rows.step w op) := by
  cases op with
  | mk cols l data =>
    have hp : Fits { cols := cols, isList := l, data := data } := hp
    constructor
    · intro t T hT
      have hT : (w.tbls ++ [({ cols := cols, isList := l, data := data } : Tbl)])[t]? = some T := hT
      by_cases ht : t < w.tbls.length
      · rw [List.getElem?_append_left ht] at hT
        exact h.fits hT
      · rw [List.getElem?_append_right (by omega)] at hT
        have := List.mem_of_getElem? hT
        rw [List.mem_singleton] at this
        subst this
        exact hp
    · intro t T i r hT hr
      have hT : (w.tbls ++ [({ cols := cols, isList := l, data := data } : Tbl)])[t]? = some T := hT
      by_cases ht : t < w.tbls.length
      · rw [List.getElem?_append_left ht] at hT
        exact h.cache hT hr
      · rw [List.getElem?_append_right (by omega)] at hT
        have := List.mem_of_getElem? hT
        rw [List.mem_singleton] at this
        subst this
        cases hr
  | add t kw => exact h.addRow t kw
  | new cols kw t i =>
    show Good (newRow w cols kw t i).1
    rcases newRow_cases w cols kw t i with ⟨e, -⟩ | ⟨i, -, -, e⟩ | ⟨t, w', i, -, -, -, ha, e⟩
    · rw [e]
      exact h
    · rw [e]
      exact h.rows _
    · rw [e]
      have := h.addRow t (attrsOf cols kw)
      rw [ha] at this
      exact this.rows _
  | get t i =>
    show Good (getRow w t i).1
    rcases getRow_cases w t i with ⟨e, -⟩ | ⟨T, r, -, -, e⟩ | ⟨T, row, hT, hc, hg, hl, hb, e⟩
    · rw [e]
      exact h
    · rw [e]
      exact h
    · rw [e]
      refine Good.set (T' := { T with cache := Dict.set T.cache i w.rows.length }) h hT
        ⟨(h.fits hT).names, (h.fits hT).rowInt, (h.fits hT).len, (h.fits hT).kind⟩ _ ?_
      intro j r hr
      have hr : Dict.get? (Dict.set T.cache i w.rows.length) j = some r := hr
      by_cases hj : j = i
      · subst hj
        rw [Dict.get?_set, if_pos rfl] at hr
        cases hr
        refine ⟨⟨attrsOf T.cols (T.names.zip (row.map Arg.val)), j, some t⟩, ?_, rfl, rfl, fun _ => ⟨row, hg, rfl⟩⟩
        rw [List.getElem?_append_right (Nat.le_refl _)]
        simp
      · rw [Dict.get?_set_ne hj] at hr
        obtain ⟨o, ho, h2⟩ := h.cache hT hr
        exact ⟨o, by rw [List.getElem?_append_left (getElem?_lt ho)]; exact ho, h2⟩
  | setIdx r i => exact h
  | setTable r t => exact hp.elim
  | setAttr r c v => exact hp.elim

theorem Good.run {w : World} (h : Good w) {ops : List Op} (hp : ∀ op ∈ ops, op.plain) : Good (Rows.run w ops) := by
  induction ops generalizing w with
  | nil => exact h
  | cons op ops ih =>
    exact ih (h.step (hp op (List.mem_cons_self ..))) fun o ho => hp o (List.mem_cons_of_mem _ ho)

theorem Good.empty : Good {} := ⟨fun h => (by simp at h), fun h => (by simp at h)⟩

/-! ### Columns, cells and `which` -/

theorem colOf_ok {k : Nat} {data : List (List Cell)} (h : ∀ row ∈ data, k < row.length) :
    ∃ l, colOf k data = .ok l ∧ l.map some = data.map fun row => row[k]? := by
  induction data with
  | nil => exact ⟨[], rfl, rfl⟩
  | cons row data ih =>
    obtain ⟨l, h1, h2⟩ := ih fun r hr => h r (List.mem_cons_of_mem _ hr)
    have hk := h row (List.mem_cons_self ..)
    refine ⟨row[k] :: l, ?_, ?_⟩
    · unfold colOf
      rw [pyGet_nat hk]
      simp only [h1]
    · simp [h2, hk]

theorem whichFrom_ok {k : Nat} {v : Cell} {data : List (List Cell)} (h : ∀ row ∈ data, k < row.length) (i : Nat) :
    ∃ is, whichFrom k (.val v) i data = .ok is ∧ is.Pairwise (· < ·) ∧ (∀ j ∈ is, i ≤ j) ∧
      ∀ j, i + j ∈ is ↔ ∃ row x, data[j]? = some row ∧ row[k]? = some x ∧ cellEq x (.val v) = .ok true := by
  induction data generalizing i with
  | nil => exact ⟨[], rfl, List.Pairwise.nil, by simp, by simp⟩
  | cons row data ih =>
    obtain ⟨is, h1, h2, h3, h4⟩ := ih (fun r hr => h r (List.mem_cons_of_mem _ hr)) (i + 1)
    have hk := h row (List.mem_cons_self ..)
    unfold whichFrom
    rw [pyGet_nat hk]
    simp only [h1]
    cases hb : cellEq row[k] (.val v) with
    | error e => unfold cellEq at hb; cases hb
    | ok b =>
      simp only
      have h4' : ∀ j, i + (j + 1) ∈ is ↔
          ∃ row x, data[j]? = some row ∧ row[k]? = some x ∧ cellEq x (.val v) = .ok true := by
        intro j
        rw [← h4 j]
        have : i + (j + 1) = i + 1 + j := by omega
        rw [this]
      have hi : i ∉ is := fun hm => by have := h3 i hm; omega
      cases b with
      | true =>
        refine ⟨i :: is, by simp, ?_, ?_, ?_⟩
        · exact List.pairwise_cons.2 ⟨fun j hj => by have := h3 j hj; omega, h2⟩
        · intro j hj
          rcases List.mem_cons.1 hj with rfl | hj
          · exact Nat.le_refl _
          · have := h3 j hj
            omega
        · intro j
          cases j with
          | zero => simp [hk, hb]
          | succ j =>
            rw [List.mem_cons, h4' j]
            constructor
            · rintro (e | hh)
              · omega
              · simpa using hh
            · intro hh
              exact .inr (by simpa using hh)
      | false =>
        refine ⟨is, by simp, h2, fun j hj => by have := h3 j hj; omega, ?_⟩
        intro j
        cases j with
        | zero => simp [hi, hk, hb]
        | succ j =>
          rw [h4' j]
          simp

end Verif.Rows

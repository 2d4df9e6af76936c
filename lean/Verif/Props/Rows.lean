import Verif.Lemmas.Rows
import Mathlib.Data.List.Induction

/-!
# C179–C182: tables of rows, Row objects, data frames and derived classes
-/

namespace Verif.Rows
open Verif

/-! ## Examples used below -/

/-- a string and an integer column -/
def exCols : List ColDef := [⟨"col1", false, false, true, false, false⟩, ⟨"col2", true, false, false, false, false⟩]

/-- a string column and one for Row objects and their indices -/
def exRef : List ColDef := [⟨"what", false, false, true, false, false⟩, ⟨"who", true, false, false, false, true⟩]

/-- values for a row -/
def exKw (s : String) (n : Int) : Dict String Arg := [("col1", .val (.str s)), ("col2", .val (.int n))]

theorem exFits : Fits { cols := exCols, isList := true, data := [] } :=
  ⟨by decide, by decide, by simp, by simp⟩

/-! ## C179: the table -/

/-- **C179** `add_row` takes exactly: a list-backed table, one value of the right kind for each column, and nothing else. -/
theorem C179_accepts {w : World} {t : Nat} {T : Tbl} (hT : w.tbls[t]? = some T) {kw : Dict String Arg}
    (hr : ∀ c r, Dict.get? kw c = some (.row r) → r < w.rows.length) :
    (∃ i, (addRow w t kw).2 = .ok i) ↔
      T.isList = true ∧ (∀ c ∈ T.cols, ∃ v, Dict.get? kw c.name = some v ∧ c.takes v = true) ∧
        ∀ k ∈ Dict.keys kw, k ∈ T.cols.map ColDef.name := by
  rw [← binds_iff]
  constructor
  · rintro ⟨i, hi⟩
    rcases addRow_cases w t kw with ⟨-, e, h⟩ | ⟨T', row, hT', hl, hb, -, -⟩
    · rw [h] at hi
      cases hi
    · rw [hT] at hT'
      cases hT'
      exact ⟨hl, hb⟩
  · rintro ⟨hl, hb⟩
    have hrow : ∀ cs : List String, (∀ c ∈ cs, ∃ v, Dict.get? kw c = some v) → ∃ row, rowOf w.rows kw cs = .ok row := by
      intro cs
      induction cs with
      | nil => exact fun _ => ⟨[], rfl⟩
      | cons c cs ih =>
        intro h
        obtain ⟨v, hv⟩ := h c (List.mem_cons_self ..)
        obtain ⟨row, h2⟩ := ih fun c hc => h c (List.mem_cons_of_mem _ hc)
        have : ∃ x, cellOf w.rows v = some x := by
          cases v with
          | val x => exact ⟨x, rfl⟩
          | row r =>
            refine ⟨.int (w.rows[r]'(hr c r hv)).idx, ?_⟩
            simp [cellOf, hr c r hv]
        obtain ⟨x, hx⟩ := this
        refine ⟨x :: row, ?_⟩
        unfold rowOf
        simp only [hv, hx, h2]
    obtain ⟨row, hrow⟩ := hrow T.names (by
      intro c hc
      unfold Tbl.names at hc
      rw [List.mem_map] at hc
      obtain ⟨d, hd, rfl⟩ := hc
      obtain ⟨v, hv, -⟩ := (binds_iff.1 hb).1 d hd
      exact ⟨v, hv⟩)
    refine ⟨T.data.length, ?_⟩
    unfold addRow
    simp only [hT]
    rw [if_pos hb]
    unfold addValues
    rw [if_pos hl]
    simp only [hrow]

/-- **C179** what is refused changes nothing. -/
theorem C179_refused {w : World} {t : Nat} {kw : Dict String Arg} {e : Err} (h : (addRow w t kw).2 = .error e) :
    (addRow w t kw).1 = w := by
  rcases addRow_cases w t kw with ⟨h', -⟩ | ⟨T, row, -, -, -, -, h'⟩
  · exact h'
  · rw [h'] at h
    cases h

/-- **C179** what is taken becomes the last row, with the value given for each column (for a Row object its index), under
the index that is returned; Row objects and other tables stay as they are. -/
theorem C179_added {w : World} {t : Nat} {kw : Dict String Arg} {i : Int} (h : (addRow w t kw).2 = .ok i) :
    ∃ T T', w.tbls[t]? = some T ∧ (addRow w t kw).1.tbls[t]? = some T' ∧ i = T.data.length ∧
      T'.data.length = T.data.length + 1 ∧ (∀ j < T.data.length, T'.data[j]? = T.data[j]?) ∧
      (T.names.Nodup → ∀ c ∈ T.names,
        (∀ x, Dict.get? kw c = some (.val x) → T'.cell c i = .ok x) ∧
        ∀ r o, Dict.get? kw c = some (.row r) → w.rows[r]? = some o → T'.cell c i = .ok (.int o.idx)) ∧
      (addRow w t kw).1.rows = w.rows ∧ ∀ t', t' ≠ t → (addRow w t kw).1.tbls[t']? = w.tbls[t']? := by
  rcases addRow_cases w t kw with ⟨-, e, h'⟩ | ⟨T, row, hT, -, -, hr, h'⟩
  · rw [h'] at h
    cases h
  rw [h'] at h ⊢
  cases h
  refine ⟨T, { T with data := T.data ++ [row] }, hT, List.getElem?_set_self (getElem?_lt hT), rfl, by simp, ?_, ?_, rfl, ?_⟩
  · intro j hj
    exact List.getElem?_append_left hj
  · intro hn c hc
    obtain ⟨k, hk, rfl⟩ := List.mem_iff_getElem.1 hc
    have hi : Tbl.colIndex { T with data := T.data ++ [row] } T.names[k] = some k :=
      colIndex_some (T := { T with data := T.data ++ [row] }) hn hk
    have hlast : pyGet (T.data ++ [row]) (T.data.length : Int) = .ok row := by
      rw [pyGet_nat (by simp)]
      simp
    have hk' : k < row.length := by rw [rowOf_length hr]; exact hk
    have hcell : Tbl.cell { T with data := T.data ++ [row] } T.names[k] (T.data.length : Int) = .ok row[k] := by
      unfold Tbl.cell
      simp only [hlast, hi]
      exact pyGet_nat hk'
    have hv := rowOf_get hr hk
    rw [hcell]
    constructor
    · intro x hx
      rw [hx] at hv
      simp only [Option.bind_some, cellOf, Option.some.injEq] at hv
      rw [hv]
    · intro r o hx ho
      rw [hx] at hv
      simp only [Option.bind_some, cellOf, ho, Option.map_some, Option.some.injEq] at hv
      rw [hv]
  · intro t' ht
    exact List.getElem?_set_ne (Ne.symm ht)

/-- **C179** a row that is stored stays as it is, under its index, whatever is called. -/
theorem C179_kept {w : World} {t : Nat} {T : Tbl} (hT : w.tbls[t]? = some T) (ops : List Op) :
    ∃ T', (run w ops).tbls[t]? = some T' ∧ T'.names = T.names ∧
      ∀ i, i < T.data.length → T'.at i = T.at i := by
  obtain ⟨T', h1, h2, -, h4, -⟩ := (run_ext w ops).tbl hT
  refine ⟨T', h1, by unfold Tbl.names; rw [h2], fun i hi => ?_⟩
  unfold Tbl.at
  have hi' : i < T'.data.length := Nat.lt_of_lt_of_le hi h4.length_le
  rw [pyGet_nat hi, pyGet_nat hi']
  obtain ⟨s, hs⟩ := h4
  have : T'.data[i]? = T.data[i]? := by rw [← hs, List.getElem?_append_left hi]
  rw [List.getElem?_eq_getElem hi, List.getElem?_eq_getElem hi'] at this
  rw [Option.some.inj this]

/-- The number or the string that a value stands for; Python compares values by it. -/
def value : Cell → Rat ⊕ String
  | .int n => .inl n
  | .flt q => .inl q
  | .bool b => .inl (if b then 1 else 0)
  | .str s => .inr s

theorem cellEq_iff {x y : Cell} : cellEq x (.val y) = .ok true ↔ value x = value y := by
  have bi : ∀ (b : Bool) (n : Int), ((if b then (1 : Int) else 0) = n ↔ (if b then (1 : Rat) else 0) = (n : Rat)) := by
    intro b n
    have h0 : ((0 : Int) : Rat) = 0 := rfl
    have h1 : ((1 : Int) : Rat) = 1 := rfl
    cases b
    · simp only [Bool.false_eq_true, if_false, ← h0]
      exact Rat.intCast_inj.symm
    · simp only [if_true, ← h1]
      exact Rat.intCast_inj.symm
  cases x with
  | int a =>
    cases y with
    | bool b =>
      simp only [cellEq, value, Except.ok.injEq, beq_iff_eq, Sum.inl.injEq]
      rw [eq_comm, bi b a, eq_comm]
    | _ => simp [cellEq, value]
  | flt a =>
    cases y with
    | _ => simp [cellEq, value]
  | str a =>
    cases y with
    | _ => simp [cellEq, value]
  | bool a =>
    cases y with
    | bool b => cases a <;> cases b <;> simp [cellEq, value]
    | int b =>
      simp only [cellEq, value, Except.ok.injEq, beq_iff_eq, Sum.inl.injEq]
      exact bi a b
    | _ => simp [cellEq, value]

/-- **C179** For tables made by plain calls the views agree: `t[c]` lists `t[c, i]` for all rows, which is what `t[i]` has in
the place of `c`; and `which` gives exactly the rows with an equal value, in order. -/
theorem C179_views_partial {ops : List Op} (hp : ∀ op ∈ ops, op.plain) {t : Nat} {T : Tbl}
    (hT : (run {} ops).tbls[t]? = some T) {k : Nat} (hk : k < T.names.length) :
    (∃ l, T.col T.names[k] = .ok l ∧ l.length = T.data.length ∧
      ∀ i (hi : i < l.length), T.cell T.names[k] i = .ok l[i]) ∧
    (∀ i, i < T.data.length → ∃ row x, T.at i = .ok row ∧ row.length = T.names.length ∧ row[k]? = some x ∧
      T.cell T.names[k] i = .ok x) ∧
    ∀ v, ∃ is, T.which T.names[k] (.val v) = .ok is ∧ is.Pairwise (· < ·) ∧
      ∀ j : Nat, j ∈ is ↔ ∃ x, T.cell T.names[k] j = .ok x ∧ value x = value v := by
  have hf := (Good.empty.run hp).fits hT
  have hkc : k < T.cols.length := by rw [← names_length]; exact hk
  have hlen : ∀ row ∈ T.data, k < row.length := fun row hr => by rw [hf.len row hr]; exact hkc
  have hi := colIndex_some hf.names hk
  have hcell : ∀ i (h : i < T.data.length), T.cell T.names[k] i = .ok (T.data[i][k]'(hlen _ (List.getElem_mem h))) := by
    intro i h
    unfold Tbl.cell
    rw [pyGet_nat h]
    simp only [hi]
    exact pyGet_nat _
  refine ⟨?_, ?_, ?_⟩
  · obtain ⟨l, h1, h2⟩ := colOf_ok hlen
    have hl : l.length = T.data.length := by simpa using congrArg List.length h2
    refine ⟨l, ?_, hl, ?_⟩
    · unfold Tbl.col
      simp only [hi]
      exact h1
    · intro i hil
      rw [hcell i (by omega)]
      have h3 : (l.map some)[i]'(by simpa using hil) = (T.data.map fun row => row[k]?)[i]'(by rw [List.length_map]; omega) :=
        List.getElem_of_eq h2 _
      simp only [List.getElem_map] at h3
      rw [List.getElem?_eq_getElem (hlen _ (List.getElem_mem (by omega)))] at h3
      rw [Option.some.inj h3]
  · intro i h
    refine ⟨T.data[i], T.data[i][k]'(hlen _ (List.getElem_mem h)), pyGet_nat h, ?_, ?_, hcell i h⟩
    · rw [hf.len _ (List.getElem_mem h), names_length]
    · exact List.getElem?_eq_getElem _
  · intro v
    obtain ⟨is, h1, h2, -, h4⟩ := whichFrom_ok (v := v) hlen 0
    refine ⟨is, ?_, h2, ?_⟩
    · unfold Tbl.which
      simp only [hi]
      exact h1
    · intro j
      have := h4 j
      rw [Nat.zero_add] at this
      rw [this]
      constructor
      · rintro ⟨row, x, hr, hx, he⟩
        have hj := getElem?_lt hr
        refine ⟨x, ?_, cellEq_iff.1 he⟩
        rw [hcell j hj]
        rw [List.getElem?_eq_getElem hj] at hr
        cases hr
        rw [List.getElem?_eq_getElem (hlen _ (List.getElem_mem hj))] at hx
        rw [Option.some.inj hx]
      · rintro ⟨x, hx, he⟩
        by_cases hj : j < T.data.length
        · rw [hcell j hj] at hx
          cases hx
          exact ⟨T.data[j], _, List.getElem?_eq_getElem hj,
            List.getElem?_eq_getElem (hlen _ (List.getElem_mem hj)), cellEq_iff.2 he⟩
        · unfold Tbl.cell at hx
          rw [pyGet_nat_err hj] at hx
          cases hx

/-- a history with two rows: the views of the second column -/
example : let T := (run {} [.mk exCols true [], .add 0 (exKw "foo" 100), .add 0 (exKw "bar" 200)]).tbls[0]?
    (T.map fun T => (T.col "col2", T.cell "col1" 1, T.which "col2" (.val (.int 200)))) =
      some (.ok [.int 100, .int 200], .ok (.str "bar"), .ok [1]) := by decide +kernel

example : ∀ op ∈ [Op.mk exCols true [], .add 0 (exKw "foo" 100), .add 0 (exKw "bar" 200)], op.plain := by
  intro op h
  simp only [List.mem_cons, List.mem_nil_iff, or_false] at h
  rcases h with rfl | rfl | rfl
  · exact exFits
  · trivial
  · trivial

/-- **C179** fails for a column that does not exist: `t['nope']` is a KeyError, `t['nope', 0]` a TypeError. -/
theorem C179_unknown_column_fails :
    let T : Tbl := { cols := exCols, data := [[.str "foo", .int 100]] }
    T.col "nope" = .error .keyError ∧ T.cell "nope" 0 = .error .typeError := by decide +kernel

/-- **C179** fails for queries with a Row object: `which(who=row)` is an AttributeError, although `add_row(who=row)` is
taken; only with the index it works. -/
theorem C179_which_row_fails :
    let w := run {} [.mk exCols true [], .mk exRef true [], .new exCols (exKw "foo" 100) (some 0) none,
      .add 1 [("what", .val (.str "x")), ("who", .row 0)]]
    (w.tbls[1]?.map fun T => (T.which "who" (.row 0), T.which "who" (.val (.int 0)))) =
      some (.error .attributeError, .ok [0]) := by decide +kernel

/-- **C179** fails for data given to the constructor: rows of the wrong length and kind are taken, and reading the column is
an IndexError. -/
theorem C179_init_fails :
    let w := run {} [.mk exCols true [[.int 1], [.str "a", .str "b", .str "c"]]]
    (w.tbls[0]?.map fun T => (T.data.length, T.col "col2", T.cell "col2" 1)) =
      some (2, .error .indexError, .ok (.str "b")) := by decide +kernel

/-- **C179** fails for data that are not a list: no row can be added. -/
theorem C179_not_list_fails :
    (addRow (run {} [.mk exCols false [[.str "foo", .int 100]]]) 0 (exKw "bar" 200)).2 = .error .valueError := by
  decide +kernel

/-! ## C180: Row objects -/

/-- **C180** A Row constructed with a table adds one row to it, has the index of this row and the values given; the row has
these values, with indices for Row objects. -/
theorem C180_new {w : World} {cols : List ColDef} {kw : Dict String Arg} {t r : Nat}
    (h : (newRow w cols kw (some t) none).2 = .ok r) :
    ∃ T T' o, w.tbls[t]? = some T ∧ (newRow w cols kw (some t) none).1.tbls[t]? = some T' ∧
      (newRow w cols kw (some t) none).1.rows[r]? = some o ∧ r = w.rows.length ∧
      o.idx = T.data.length ∧ o.table = some t ∧ T'.data.length = T.data.length + 1 ∧
      (∀ c ∈ cols.map ColDef.name, Dict.get? o.vals c = Dict.get? kw c) ∧
      (T.names.Nodup → ∀ c ∈ T.names,
        (∀ x, Dict.get? kw c = some (.val x) → T'.cell c o.idx = .ok x) ∧
        ∀ q p, Dict.get? kw c = some (.row q) → w.rows[q]? = some p → T'.cell c o.idx = .ok (.int p.idx)) := by
  rcases newRow_cases w cols kw (some t) none with ⟨-, e, h'⟩ | ⟨i, hi, -⟩ | ⟨t', w', i, -, ht, hb, ha, h'⟩
  · rw [h'] at h
    cases h
  · cases hi
  · cases ht
    rw [h'] at h ⊢
    cases h
    have h2 : (addRow w t (attrsOf cols kw)).2 = .ok i := by rw [ha]
    obtain ⟨T, T', a1, a2, a3, a4, -, a6, a7, -⟩ := C179_added h2
    rw [ha] at a2 a7
    simp only at a2 a7
    refine ⟨T, T', ⟨attrsOf cols kw, i, some t⟩, a1, a2, by simp, by rw [a7], a3, rfl, a4, ?_, ?_⟩
    · intro c hc
      show Dict.get? (attrsOf cols kw) c = _
      rw [attrsOf_get, if_pos hc]
    · intro hn c hc
      obtain ⟨b1, b2⟩ := a6 hn c hc
      rw [attrsOf_get] at b1 b2
      have hcc : c ∈ cols.map ColDef.name := by
        by_contra hcc
        rcases addRow_cases w t (attrsOf cols kw) with ⟨-, e, h'⟩ | ⟨S, row, hS, -, hb', -, -⟩
        · rw [ha] at h'
          cases h'
        · rw [a1] at hS
          cases hS
          unfold Tbl.names at hc
          rw [List.mem_map] at hc
          obtain ⟨d, hd, rfl⟩ := hc
          obtain ⟨v, hv, -⟩ := (binds_iff.1 hb').1 d hd
          rw [attrsOf_get, if_neg hcc] at hv
          cases hv
      rw [if_pos hcc] at b1 b2
      exact ⟨b1, b2⟩

/-- **C180** The index of a Row object never changes. -/
theorem C180_index {w : World} {r : Nat} {o : RowObj} (h : w.rows[r]? = some o) (ops : List Op) :
    ∃ o', (run w ops).rows[r]? = some o' ∧ o'.idx = o.idx := (run_ext w ops).row h

/-- **C180** `t.row[i]` gives the same object each time, whatever is called in between. -/
theorem C180_same {w : World} {t r : Nat} {i : Int} (h : (getRow w t i).2 = .ok r) (ops : List Op) :
    (getRow (run (getRow w t i).1 ops) t i).2 = .ok r := by
  have key : ∀ {w' : World} {T : Tbl}, w'.tbls[t]? = some T → Dict.get? T.cache i = some r →
      (getRow (run w' ops) t i).2 = .ok r := by
    intro w' T hT hr
    obtain ⟨T', h1, -, -, -, h5⟩ := (run_ext w' ops).tbl hT
    unfold getRow
    simp only [h1, h5 i r hr]
  rcases getRow_cases w t i with ⟨-, e, h'⟩ | ⟨T, r', hT, hr, h'⟩ | ⟨T, row, hT, hc, -, -, -, h'⟩
  · rw [h'] at h
    cases h
  · rw [h'] at h ⊢
    cases h
    exact key hT hr
  · rw [h'] at h ⊢
    cases h
    exact key (T := { T with cache := Dict.set T.cache i w.rows.length }) (List.getElem?_set_self (getElem?_lt hT))
      (by rw [Dict.get?_set, if_pos rfl])

/-- **C180** After plain calls `t.row[i]` gives, for every row, an object with index `i`, this table and the values of the
row. -/
theorem C180_getter_partial {ops : List Op} (hp : ∀ op ∈ ops, op.plain) {t : Nat} {T : Tbl}
    (hT : (run {} ops).tbls[t]? = some T) {i : Nat} (hi : i < T.data.length) :
    ∃ r o, (getRow (run {} ops) t i).2 = .ok r ∧ (getRow (run {} ops) t i).1.rows[r]? = some o ∧ o.idx = i ∧
      o.table = some t ∧ ∀ c x, T.cell c i = .ok x → Dict.get? o.vals c = some (.val x) := by
  have hg := Good.empty.run hp
  have hf := hg.fits hT
  have vals : ∀ row, pyGet T.data (i : Int) = .ok row → ∀ c x, T.cell c i = .ok x →
      Dict.get? (attrsOf T.cols (T.names.zip (row.map Arg.val))) c = some (.val x) := by
    intro row hrow c x hx
    have hm := pyGet_mem hrow
    unfold Tbl.cell at hx
    simp only [hrow] at hx
    cases hk : T.colIndex c with
    | none => rw [hk] at hx; cases hx
    | some k =>
      rw [hk] at hx
      simp only at hx
      have hkl := colIndex_lt hk
      have hc : T.names[k] = c := by
        by_cases hcn : c ∈ T.names
        · obtain ⟨j, hj, rfl⟩ := List.mem_iff_getElem.1 hcn
          rw [colIndex_some hf.names hj] at hk
          cases hk
          rfl
        · rw [colIndex_none hcn] at hk
          cases hk
      obtain ⟨hk', e⟩ := pyGet_ok_nat hx
      have hl : (row.map Arg.val).length = T.names.length := by rw [List.length_map, hf.len row hm, names_length]
      rw [attrsOf_get, if_pos (by rw [← hc]; exact List.getElem_mem hkl), ← hc, get?_zip hf.names hl hkl]
      simp [e]
  cases hc : Dict.get? T.cache (i : Int) with
  | some r =>
    obtain ⟨o, h1, h2, h3, h4⟩ := hg.cache hT hc
    obtain ⟨row, hr, hv⟩ := h4 (Int.natCast_nonneg i)
    refine ⟨r, o, ?_, ?_, h2, h3, ?_⟩
    · unfold getRow
      simp only [hT, hc]
    · unfold getRow
      simp only [hT, hc]
      exact h1
    · rw [hv]
      exact vals row hr
  | none =>
    have hrow := pyGet_nat hi
    have hm : T.data[i] ∈ T.data := List.getElem_mem hi
    have hcond : T.data[i].length = T.cols.length ∧ binds T.cols (T.names.zip (T.data[i].map Arg.val)) = true :=
      ⟨hf.len _ hm, binds_zip hf.names (hf.len _ hm) (hf.kind _ hm)⟩
    refine ⟨(run {} ops).rows.length, ⟨attrsOf T.cols (T.names.zip (T.data[i].map Arg.val)), i, some t⟩, ?_, ?_, rfl, rfl,
      vals _ hrow⟩
    · unfold getRow
      simp only [hT, hc, hrow]
      rw [if_pos hcond]
    · unfold getRow
      simp only [hT, hc, hrow]
      rw [if_pos hcond]
      simp

/-- **C180** the object that `t.row[i]` gives is equal to the one that was constructed with this row. -/
theorem C180_equal_partial {ops more : List Op} (hp : ∀ op ∈ ops, op.plain) (hm : ∀ op ∈ more, op.plain)
    {cols : List ColDef} {kw : Dict String Arg} {t r : Nat} (h : (newRow (run {} ops) cols kw (some t) none).2 = .ok r) :
    let w := run (newRow (run {} ops) cols kw (some t) none).1 more
    ∃ o o' i r', (newRow (run {} ops) cols kw (some t) none).1.rows[r]? = some o ∧ o.idx = i ∧
      (getRow w t i).2 = .ok r' ∧ (getRow w t i).1.rows[r']? = some o' ∧ o'.eq o = true := by
  intro w
  obtain ⟨T, T', o, h1, h2, h3, -, h5, h6, h7, -, -⟩ := C180_new h
  have hw : w = run {} (ops ++ [.new cols kw (some t) none] ++ more) := by
    show run (newRow (run {} ops) cols kw (some t) none).1 more = _
    unfold run
    rw [List.foldl_append, List.foldl_append]
    rfl
  obtain ⟨S, g1, -, -, g4, -⟩ := (run_ext (newRow (run {} ops) cols kw (some t) none).1 more).tbl h2
  have hi : T.data.length < S.data.length := Nat.lt_of_lt_of_le (by omega) g4.length_le
  have g1 : w.tbls[t]? = some S := g1
  have hpl : ∀ op ∈ ops ++ [.new cols kw (some t) none] ++ more, op.plain := by
    intro op ho
    rcases List.mem_append.1 ho with ho | ho
    · rcases List.mem_append.1 ho with ho | ho
      · exact hp op ho
      · rw [List.mem_singleton] at ho
        subst ho
        trivial
    · exact hm op ho
  rw [hw] at g1
  obtain ⟨r', o', e1, e2, e3, e4, -⟩ := C180_getter_partial hpl g1 hi
  rw [← hw] at e1 e2
  refine ⟨o, o', T.data.length, r', h3, h5, e1, e2, ?_⟩
  unfold RowObj.eq
  rw [e3, e4, h5, h6]
  simp

/-- **C180** objects given for rows of one table or of two are equal exactly if the table and the row are the same. -/
theorem C180_distinct_partial {ops : List Op} (hp : ∀ op ∈ ops, op.plain) {t t' : Nat} {T T' : Tbl}
    (hT : (run {} ops).tbls[t]? = some T) (hT' : (run {} ops).tbls[t']? = some T') {i i' : Nat} (hi : i < T.data.length)
    (hi' : i' < T'.data.length) :
    ∃ r o r' o', (getRow (run {} ops) t i).2 = .ok r ∧ (getRow (run {} ops) t i).1.rows[r]? = some o ∧
      (getRow (run {} ops) t' i').2 = .ok r' ∧ (getRow (run {} ops) t' i').1.rows[r']? = some o' ∧
      (o.eq o' = true ↔ t = t' ∧ i = i') := by
  obtain ⟨r, o, h1, h2, h3, h4, -⟩ := C180_getter_partial hp hT hi
  obtain ⟨r', o', g1, g2, g3, g4, -⟩ := C180_getter_partial hp hT' hi'
  refine ⟨r, o, r', o', h1, h2, g1, g2, ?_⟩
  unfold RowObj.eq
  rw [h3, h4, g3, g4, Bool.and_eq_true, beq_iff_eq, beq_iff_eq, Option.some.injEq, Int.natCast_inj]
  exact And.comm

/-- two rows, one as an object -/
example :
    let w := run {} [.mk exCols true [], .add 0 (exKw "foo" 100), .new exCols (exKw "bar" 200) (some 0) none, .get 0 1]
    (w.rows.map fun o => (o.idx, o.table, Dict.get? o.vals "col1")) =
      [(1, some 0, some (.val (.str "bar"))), (1, some 0, some (.val (.str "bar")))] := by decide +kernel

/-- **C180** fails for negative indices: `t.row[-1]` has index -1, is not equal to the object of the last row, and stays the
same when rows are added. -/
theorem C180_negative_fails :
    let w := run {} [.mk exCols true [], .add 0 (exKw "foo" 100), .get 0 (-1), .get 0 0, .add 0 (exKw "bar" 200)]
    (getRow w 0 (-1)).2 = .ok 0 ∧ (w.rows[0]?.map fun o => (o.idx, Dict.get? o.vals "col1")) =
        some (-1, some (.val (.str "foo"))) ∧
      (w.tbls[0]?.map fun T => T.cell "col1" (-1)) = some (.ok (.str "bar")) ∧
      ((w.rows[0]?).bind fun a => (w.rows[1]?).map fun b => a.eq b) = some false := by decide +kernel

/-- **C180** fails for a column that takes Row objects only: the row is stored, but can not be read as an object, since the
index is not a Row. -/
theorem C180_row_column_fails :
    let w := run {} [.mk exCols true [], .mk [⟨"who", false, false, false, false, true⟩] true [],
      .new exCols (exKw "foo" 100) (some 0) none, .add 1 [("who", .row 0)]]
    (w.tbls[1]?.map fun T => T.data) = some [[.int 0]] ∧ (getRow w 1 0).2 = .error .typeError := by decide +kernel

/-- **C180** fails for a Row that is constructed without a table, although the argument is optional. -/
theorem C180_no_table_fails : (newRow {} exCols (exKw "foo" 100) none none).2 = .error .attributeError := by
  decide +kernel

/-- **C180** fails if the index is given, the table or a value is set: the object then says it is a row which the table does
not have, or which is different there. -/
theorem C180_detached_fails :
    let w := run {} [.mk exCols true [], .mk exCols true [], .add 1 (exKw "foo" 100),
      .new exCols (exKw "bar" 200) (some 0) (some 7), .new exCols (exKw "baz" 300) (some 0) none, .setTable 1 (some 1),
      .get 0 0, .setAttr 2 "col1" (.val (.str "changed"))]
    (w.rows.map fun o => (o.idx, o.table)) = [(7, some 0), (0, some 1), (0, some 0)] ∧
      (w.tbls[0]?.map fun T => T.at 7) = some (.error .indexError) ∧
      (w.tbls[1]?.map fun T => T.at 0) = some (.ok [.str "foo", .int 100]) ∧
      (w.rows[1]?.map fun o => Dict.get? o.vals "col1") = some (some (.val (.str "baz"))) ∧
      (w.tbls[0]?.map fun T => T.cell "col1" 0) = some (.ok (.str "baz")) ∧
      (w.rows[2]?.map fun o => Dict.get? o.vals "col1") = some (some (.val (.str "changed"))) := by decide +kernel

/-! ## C181: data frames -/

theorem frameRow_length (df : Frame) (u : Bool) (i : Nat) (cs : List String) : (frameRow df u i cs).length = cs.length := by
  induction cs with
  | nil => rfl
  | cons c cs ih => simp [frameRow, ih]

theorem frameRow_get (df : Frame) (u : Bool) (i : Nat) (cs : List String) {k : Nat} (hk : k < cs.length) :
    (frameRow df u i cs)[k]'(by rw [frameRow_length]; exact hk) =
      if u ∧ df.indexName = some cs[k] then df.index[i]?.getD (.int 0)
      else iterCell (mixed df) (((Dict.get? df.cols cs[k]).bind fun l => l[i]?).getD (.int 0)) := by
  induction cs generalizing k with
  | nil => cases hk
  | cons c cs ih =>
    cases k with
    | zero => rfl
    | succ k =>
      have := ih (k := k) (by simpa using hk)
      simpa [frameRow] using this

theorem filter_le_one {names : List String} (hn : names.Nodup) {p : String → Bool} {m : String}
    (h : ∀ c ∈ names, p c = true → c = m) : names.filter p = [] ∨ names.filter p = [m] := by
  have hn' : (names.filter p).Nodup := hn.sublist List.filter_sublist
  have hm : ∀ c ∈ names.filter p, c = m := fun c hc => h c (List.mem_filter.1 hc).1 (List.mem_filter.1 hc).2
  generalize names.filter p = l at hn' hm
  match l, hn', hm with
  | [], _, _ => exact .inl rfl
  | [a], _, hm => exact .inr (by rw [hm a (List.mem_singleton_self a)])
  | a :: b :: l, hn', hm =>
    exfalso
    have ha := hm a (by simp)
    have hb := hm b (by simp)
    rw [List.nodup_cons] at hn'
    exact hn'.1 (by rw [ha, hb]; exact List.mem_cons_self ..)

/-- the table of the rows of a frame -/
abbrev frameTbl (cols : List ColDef) (df : Frame) (u : Bool) : Tbl :=
  { cols := cols, data := (List.range df.index.length).map fun i => frameRow df u i (cols.map ColDef.name) }

/-- what `fromFrame` gives when it gives a table -/
theorem fromFrame_cases {cols : List ColDef} (hn : (cols.map ColDef.name).Nodup) {hasName extra : Bool} {df : Frame} {T : Tbl}
    (h : fromFrame cols hasName extra df = .ok T) :
    (∀ c ∈ df.cols.map Prod.fst, c ∈ cols.map ColDef.name) ∧ hasName = true ∧ ∃ u : Bool,
      T = (frameTbl cols df u) ∧
      (u = false → ∀ c ∈ cols.map ColDef.name, c ∈ df.cols.map Prod.fst) ∧
      (u = true → ∃ m, df.indexName = some m ∧ m ∉ df.cols.map Prod.fst ∧
        ∀ c ∈ cols.map ColDef.name, c ≠ m → c ∈ df.cols.map Prod.fst) := by
  unfold fromFrame at h
  simp only at h
  split at h
  · cases h
  · next hx =>
    have h1 : ∀ c ∈ df.cols.map Prod.fst, c ∈ cols.map ColDef.name := by
      intro c hc
      rw [List.any_eq_true] at hx
      by_contra hcc
      exact hx ⟨c, hc, by simpa using hcc⟩
    split at h
    · cases h
    · next hu =>
      split at h
      · next hN =>
        cases h
        refine ⟨h1, hN, _, rfl, ?_, ?_⟩
        · intro hu0 c hc
          rw [hu0] at hu
          simp only [Bool.not_false, Bool.true_and, Bool.not_eq_true', Bool.not_eq_false] at hu
          rw [List.isEmpty_iff] at hu
          by_contra hcc
          have : c ∈ (cols.map ColDef.name).filter fun c => !(df.cols.map Prod.fst).contains c :=
            List.mem_filter.2 ⟨hc, by simpa using hcc⟩
          rw [hu] at this
          cases this
        · intro hu1
          generalize hM : (cols.map ColDef.name).filter (fun c => !(df.cols.map Prod.fst).contains c) = M at hu1
          cases hi : df.indexName with
          | none => rw [hi] at hu1; cases M with | nil => cases hu1 | cons _ M => cases M <;> cases hu1
          | some n =>
            rw [hi] at hu1
            obtain ⟨m, rfl⟩ : ∃ m, M = [m] := by
              match M, hu1 with
              | [m], _ => exact ⟨m, rfl⟩
            have hmn : m = n := by simpa [indexIs] using hu1
            subst hmn
            refine ⟨m, rfl, ?_, ?_⟩
            · have : m ∈ (cols.map ColDef.name).filter fun c => !(df.cols.map Prod.fst).contains c := by
                rw [hM]; exact List.mem_singleton_self m
              simpa using (List.mem_filter.1 this).2
            · intro c hc hcm
              by_contra hcc
              have : c ∈ (cols.map ColDef.name).filter fun c => !(df.cols.map Prod.fst).contains c :=
                List.mem_filter.2 ⟨hc, by simpa using hcc⟩
              rw [hM, List.mem_singleton] at this
              exact hcm this
      · cases h

/-- **C181** `from_dataframe` takes exactly the frames whose columns are those of the class in any order, or all but one
which is the index. -/
theorem C181_accepts_partial {cols : List ColDef} (hn : (cols.map ColDef.name).Nodup) {extra : Bool} {df : Frame} :
    (∃ T, fromFrame cols true extra df = .ok T) ↔
      (∀ c ∈ df.cols.map Prod.fst, c ∈ cols.map ColDef.name) ∧
        ∀ c ∈ cols.map ColDef.name, c ∈ df.cols.map Prod.fst ∨ df.indexName = some c := by
  constructor
  · rintro ⟨T, h⟩
    obtain ⟨h1, -, u, -, h2, h3⟩ := fromFrame_cases hn h
    refine ⟨h1, fun c hc => ?_⟩
    cases u with
    | false => exact .inl (h2 rfl c hc)
    | true =>
      obtain ⟨m, hm, -, h4⟩ := h3 rfl
      by_cases hcm : c = m
      · subst hcm
        exact .inr hm
      · exact .inl (h4 c hc hcm)
  · rintro ⟨h1, h2⟩
    unfold fromFrame
    simp only
    have hx : ¬ ((df.cols.map Prod.fst).any fun c => !(cols.map ColDef.name).contains c) = true := by
      rw [List.any_eq_true]
      rintro ⟨c, hc, hcc⟩
      have := h1 c hc
      simp at hcc
      simp at this
      obtain ⟨d, hd, e⟩ := this
      exact hcc d hd e
    rw [if_neg hx]
    cases hi : df.indexName with
    | none =>
      have : (cols.map ColDef.name).filter (fun c => !(df.cols.map Prod.fst).contains c) = [] := by
        rw [List.filter_eq_nil_iff]
        intro c hc
        rcases h2 c hc with h | h
        · simpa using h
        · rw [hi] at h
          cases h
      rw [this]
      exact ⟨_, rfl⟩
    | some m =>
      rcases filter_le_one (p := fun c => !(df.cols.map Prod.fst).contains c) (m := m) hn (by
        intro c hc hp
        rcases h2 c hc with h | h
        · exfalso
          rw [Bool.not_eq_true', List.contains_eq_mem, decide_eq_false_iff_not] at hp
          exact hp h
        · rw [hi] at h
          cases h
          rfl) with e | e
      · rw [e]
        exact ⟨_, rfl⟩
      · rw [e]
        simp [indexIs]

theorem roundNat_small {n : Nat} (h : n ≤ 2 ^ 53) : roundNat n = n := by
  unfold roundNat
  by_cases hn : n < 2 ^ 53
  · rw [if_pos hn]
  · have : n = 2 ^ 53 := by omega
    subst this
    decide +kernel

theorem toFloat_small {n : Int} (h : n.natAbs ≤ 2 ^ 53) : toFloat n = n := by
  cases n with
  | ofNat n => simp only [toFloat]; rw [roundNat_small (by simpa using h)]; rfl
  | negSucc n => simp only [toFloat]; rw [roundNat_small (by simpa using h)]; rfl

/-- an integer that a double holds exactly -/
def Cell.small : Cell → Prop
  | .int n => n.natAbs ≤ 2 ^ 53
  | _ => True

theorem value_iterCell {m : Bool} {x : Cell} (h : x.small) : value (iterCell m x) = value x := by
  cases x with
  | int n =>
    cases m with
    | false => rfl
    | true =>
      show value (.flt ((toFloat n : Int) : Rat)) = _
      rw [toFloat_small h]
      rfl
  | _ => rfl

/-- **C181** Row `i` of the table has the values of row `i` of the frame, each under its column; the label of the row for the
column that is the index.  Integers next to floats become floats, so this holds for values of at most 2^53 only. -/
theorem C181_values_partial {cols : List ColDef} (hn : (cols.map ColDef.name).Nodup) {extra : Bool} {df : Frame} {T : Tbl}
    (h : fromFrame cols true extra df = .ok T) (hdf : ∀ p ∈ df.cols, p.2.length = df.index.length) :
    T.data.length = df.index.length ∧ T.names = cols.map ColDef.name ∧
      ∀ c ∈ T.names, ∀ (i : Nat) x,
        ((Dict.get? df.cols c).bind fun l => l[i]?) = some x ∨
          (df.indexName = some c ∧ c ∉ df.cols.map Prod.fst ∧ df.index[i]? = some x) →
        x.small → ∃ y, T.cell c i = .ok y ∧ value y = value x ∧ (mixed df = false → y = x) := by
  obtain ⟨h1, -, u, rfl, h2, h3⟩ := fromFrame_cases hn h
  refine ⟨by simp, rfl, ?_⟩
  intro c hc i x hx hs
  obtain ⟨k, hk, rfl⟩ := List.mem_iff_getElem.1 hc
  have hci := colIndex_some (T := (frameTbl cols df u)) hn hk
  have hk' : k < (cols.map ColDef.name).length := hk
  have hi : i < df.index.length := by
    rcases hx with hx | ⟨-, -, hx⟩
    · rw [Option.bind_eq_some_iff] at hx
      obtain ⟨l, hl, hx⟩ := hx
      have e := hdf _ (Dict.mem_of_get? hl)
      have := getElem?_lt hx
      simp only at e
      omega
    · exact getElem?_lt hx
  have hcell : Tbl.cell (frameTbl cols df u) (cols.map ColDef.name)[k] i =
      .ok ((frameRow df u i (cols.map ColDef.name))[k]'(by rw [frameRow_length]; exact hk')) := by
    unfold Tbl.cell
    rw [pyGet_nat (by simpa using hi)]
    have e : Tbl.colIndex (frameTbl cols df u) (cols.map ColDef.name)[k] = some k := hci
    simp only [e]
    have e2 : (frameTbl cols df u).data[i]'(by simpa using hi) = frameRow df u i (cols.map ColDef.name) := by simp
    rw [e2]
    exact pyGet_nat _
  refine ⟨_, hcell, ?_⟩
  rw [frameRow_get df u i _ hk']
  rcases hx with hx | ⟨hx1, hx2, hx⟩
  · have hin : (cols.map ColDef.name)[k] ∈ df.cols.map Prod.fst := by
      rw [Option.bind_eq_some_iff] at hx
      obtain ⟨l, hl, -⟩ := hx
      exact Dict.mem_keys_of_mem (Dict.mem_of_get? hl)
    rw [if_neg (by
      rintro ⟨hu, hu2⟩
      obtain ⟨m, hm, hm2, -⟩ := h3 hu
      rw [hm] at hu2
      cases hu2
      exact hm2 hin)]
    have hx' : ((Dict.get? df.cols (cols.map ColDef.name)[k]).bind fun l => l[i]?) = some x := hx
    rw [hx']
    refine ⟨value_iterCell hs, fun hm => ?_⟩
    rw [hm]
    cases x <;> rfl
  · have hu : u = true := by
      cases u with
      | true => rfl
      | false => exact absurd (h2 rfl _ (List.getElem_mem hk')) hx2
    have hx1' : df.indexName = some (cols.map ColDef.name)[k] := hx1
    rw [if_pos ⟨hu, hx1'⟩, hx]
    exact ⟨rfl, fun _ => rfl⟩

/-- **C181** A table made by plain calls gives a frame with its columns in order, and the table of this frame has the same
values. -/
theorem C181_round_partial {ops : List Op} (hp : ∀ op ∈ ops, op.plain) {t : Nat} {T : Tbl}
    (hT : (run {} ops).tbls[t]? = some T) (hc : T.cols ≠ []) (hm : ∀ row ∈ T.data, ∀ x ∈ row, x.small) (extra : Bool) :
    ∃ df T', toFrame T = .ok df ∧ df.cols.map Prod.fst = T.names ∧ df.index.length = T.data.length ∧
      fromFrame T.cols true extra df = .ok T' ∧ T'.data.length = T.data.length ∧
      ∀ c ∈ T.names, ∀ (i : Nat) x, T.cell c i = .ok x → ∃ y, T'.cell c i = .ok y ∧ value y = value x ∧
        (mixed df = false → y = x) := by
  have hf := (Good.empty.run hp).fits hT
  have hcols : ∀ c ∈ T.names, ∃ l, T.col c = .ok l ∧ l.length = T.data.length ∧
      ∀ i (hi : i < l.length), T.cell c i = .ok l[i] := by
    intro c hc
    obtain ⟨k, hk, rfl⟩ := List.mem_iff_getElem.1 hc
    exact (C179_views_partial hp hT hk).1
  have hframes : ∀ cs : List String, (∀ c ∈ cs, c ∈ T.names) → ∃ d, framesOf T cs = .ok d ∧ d.map Prod.fst = cs ∧
      ∀ p ∈ d, T.col p.1 = .ok p.2 := by
    intro cs
    induction cs with
    | nil => exact fun _ => ⟨[], rfl, rfl, by simp⟩
    | cons c cs ih =>
      intro h
      obtain ⟨l, hl, -⟩ := hcols c (h c (List.mem_cons_self ..))
      obtain ⟨d, h1, h2, h3⟩ := ih fun c hc => h c (List.mem_cons_of_mem _ hc)
      refine ⟨(c, l) :: d, ?_, by simp [h2], ?_⟩
      · unfold framesOf
        simp only [hl, h1]
      · intro p hp
        rcases List.mem_cons.1 hp with rfl | hp
        · exact hl
        · exact h3 p hp
  obtain ⟨d, d1, d2, d3⟩ := hframes T.names fun c hc => hc
  let df : Frame := { index := (List.range T.data.length).map fun (i : Nat) => .int i, cols := d }
  have hdf : toFrame T = .ok df := by
    unfold toFrame
    simp only [d1]
    have : d.isEmpty = false := by
      cases d with
      | nil =>
        exact absurd d2.symm (by unfold Tbl.names; simpa using hc)
      | cons _ _ => rfl
    rw [this]
    rfl
  have hdn : df.cols.map Prod.fst = T.names := d2
  obtain ⟨T', hT'⟩ := (C181_accepts_partial (cols := T.cols) (extra := extra) (df := df) hf.names).2
    ⟨fun c hc => (by rw [hdn] at hc; exact hc), fun c hc => .inl (by rw [hdn]; exact hc)⟩
  have hlen : ∀ p ∈ df.cols, p.2.length = df.index.length := by
    intro p hp
    have hp1 : p.1 ∈ T.names := by rw [← hdn]; exact List.mem_map_of_mem hp
    obtain ⟨l, hl, hl2, -⟩ := hcols p.1 hp1
    rw [d3 p hp] at hl
    cases hl
    simp [df, hl2]
  obtain ⟨v1, v2, v3⟩ := C181_values_partial hf.names hT' hlen
  refine ⟨df, T', hdf, hdn, by simp [df], hT', by rw [v1]; simp [df], ?_⟩
  intro c hc i x hx
  refine v3 c (by rw [v2]; exact hc) i x (.inl ?_) ?_
  · obtain ⟨l, hl, hl2, hl3⟩ := hcols c hc
    have hg : Dict.get? df.cols c = some l := by
      have : c ∈ df.cols.map Prod.fst := by rw [hdn]; exact hc
      rw [List.mem_map] at this
      obtain ⟨p, hp, rfl⟩ := this
      have e := d3 p hp
      rw [hl] at e
      cases e
      exact Dict.get?_of_mem (by rw [show Dict.keys df.cols = T.names from hdn]; exact hf.names) hp
    rw [hg]
    simp only [Option.bind_some]
    by_cases hi : i < l.length
    · have := hl3 i hi
      rw [hx] at this
      cases this
      exact List.getElem?_eq_getElem hi
    · unfold Tbl.cell at hx
      rw [pyGet_nat_err (by omega)] at hx
      cases hx
  · unfold Tbl.cell at hx
    cases hr : pyGet T.data (i : Int) with
    | error e => rw [hr] at hx; cases hx
    | ok row =>
      rw [hr] at hx
      simp only at hx
      cases hk : T.colIndex c with
      | none => rw [hk] at hx; cases hx
      | some k =>
        rw [hk] at hx
        exact hm row (pyGet_mem hr) x (pyGet_mem hx)

/-- a frame with one column and the other as index -/
def exFrame : Frame :=
  { indexName := some "col1", index := [.str "foo", .str "bar"], cols := [("col2", [.int 100, .int 200])] }

example : (fromFrame exCols true false exFrame).map Tbl.data =
    .ok [[.str "foo", .int 100], [.str "bar", .int 200]] := by decide +kernel

example : (toFrame { cols := exCols, data := [[.str "foo", .int 100]] }).bind (fromFrame exCols true false ·) =
    .ok { cols := exCols, data := [[.str "foo", .int 100]] } := by decide +kernel

/-- **C181** fails for `extra_ok`: a frame with another column is refused all the same. -/
theorem C181_extra_fails :
    fromFrame exCols true true { index := [.int 0], cols := [("col1", [.str "a"]), ("col2", [.int 1]), ("more", [.int 2])] } =
      .error .valueError := by decide +kernel

/-- **C181** fails for large integers next to floats: 2^53 + 1 becomes 2^53. -/
theorem C181_large_fails :
    (fromFrame [⟨"n", true, false, false, false, false⟩, ⟨"x", false, true, false, false, false⟩] true false
      { index := [.int 0], cols := [("n", [.int 9007199254740993]), ("x", [.flt 1])] }).map Tbl.data =
      .ok [[.flt 9007199254740992, .flt 1]] := by decide +kernel

/-! ## C182: derived classes -/

theorem clsOf_none {defs : List (Option (List ColDef))} (h : ∀ d ∈ defs, d = none) : clsOf defs = {} := by
  unfold clsOf
  induction defs with
  | nil => rfl
  | cons d defs ih =>
    rw [List.foldl_cons, h d (List.mem_cons_self ..)]
    exact ih fun d hd => h d (List.mem_cons_of_mem _ hd)

/-- a class with columns has had its methods generated -/
theorem clsOf_some {defs : List (Option (List ColDef))} (h : ∃ d ∈ defs, d ≠ none) :
    ∃ cols cols' ms, (clsOf defs).columns = some cols ∧ (clsOf defs).chain = .gen cols' :: ms := by
  induction defs using List.reverseRecOn with
  | nil => obtain ⟨d, hd, -⟩ := h; cases hd
  | append_singleton defs d ih =>
    have e : clsOf (defs ++ [d]) = derive (clsOf defs) d := by
      unfold clsOf
      rw [List.foldl_append]
      rfl
    rw [e]
    unfold derive
    cases d with
    | some cols => exact ⟨cols, cols, _, rfl, rfl⟩
    | none =>
      obtain ⟨d, hd, hne⟩ := h
      rcases List.mem_append.1 hd with hd | hd
      · obtain ⟨cols, cols', ms, h1, h2⟩ := ih ⟨d, hd, hne⟩
        rw [h1]
        exact ⟨cols, cols, _, rfl, rfl⟩
      · rw [List.mem_singleton] at hd
        exact absurd hd hne

/-- **C182** A class can be constructed exactly if it is the first one, down from `Table`, to have columns. -/
theorem C182_first_partial {defs : List (Option (List ColDef))} {data : List (List Cell)} :
    (∃ T, construct (clsOf defs) data = .ok T) ↔ ∃ pre cols, defs = pre ++ [some cols] ∧ ∀ d ∈ pre, d = none := by
  induction defs using List.reverseRecOn with
  | nil =>
    constructor
    · rintro ⟨T, h⟩
      cases h
    · rintro ⟨pre, cols, h, -⟩
      simp at h
  | append_singleton defs d _ =>
    have e : clsOf (defs ++ [d]) = derive (clsOf defs) d := by
      unfold clsOf
      rw [List.foldl_append]
      rfl
    by_cases hall : ∀ d ∈ defs, d = none
    · rw [e, clsOf_none hall]
      cases d with
      | none =>
        constructor
        · rintro ⟨T, h⟩
          cases h
        · rintro ⟨pre, cols, h, -⟩
          have := (List.append_inj' h rfl).2
          simp at this
      | some cols => exact ⟨fun _ => ⟨defs, cols, rfl, hall⟩, fun _ => ⟨{ cols := cols, data := data }, rfl⟩⟩
    · have hex : ∃ d ∈ defs, d ≠ none := by
        by_contra hc
        exact hall fun d hd => by
          by_contra hdn
          exact hc ⟨d, hd, hdn⟩
      obtain ⟨cols, cols', ms, h1, h2⟩ := clsOf_some hex
      constructor
      · rintro ⟨T, h⟩
        exfalso
        rw [e] at h
        unfold derive at h
        rw [h1] at h
        cases d <;> simp [construct, h2] at h
      · rintro ⟨pre, cols, h, hpre⟩
        have := (List.append_inj' h rfl).1
        subst this
        exact absurd hpre hall

/-- **C182** and then it has its columns and the data. -/
theorem C182_first_columns_partial {pre : List (Option (List ColDef))} {cols : List ColDef} {data : List (List Cell)}
    (h : ∀ d ∈ pre, d = none) :
    construct (clsOf (pre ++ [some cols])) data = .ok { cols := cols, data := data } := by
  have e : clsOf (pre ++ [some cols]) = derive (clsOf pre) (some cols) := by
    unfold clsOf
    rw [List.foldl_append]
    rfl
  rw [e, clsOf_none h]
  rfl

example : construct (clsOf [none, some exCols]) [] = .ok { cols := exCols } := by decide +kernel

/-- **C182** fails for any class derived from one that can be used, with columns of its own or without. -/
theorem C182_derived_fails : ∀ own, construct (clsOf [some exCols, own]) [] = .error .typeError := by
  intro own
  cases own <;> rfl

end Verif.Rows

import Verif.Lemmas.Ragged
import Verif.Model.Table

/-! Helper lemmas for `DynamicTable`. -/

namespace Verif.Table
open Verif Verif.Ragged

/-! ### ragged columns without size assumptions -/

section
variable {α : Type}

theorem addVal_len (n : Nat) (c : Col α n) (v : Val α n) (c' : Col α n) (h : addVal n c v = (c', .ok ())) :
    Ragged.len n c' = Ragged.len n c + 1 := by
  cases n with
  | zero => simp only [addVal, Prod.mk.injEq, and_true] at h; subst h; simp [Ragged.len]
  | succ n =>
    obtain ⟨ix, t⟩ := c
    simp only [addVal] at h
    split at h
    · simp at h
    · split at h
      · simp at h
      · simp only [Prod.mk.injEq, and_true] at h
        subst h
        simp [Ragged.len, appendIx_len, widen_len]

theorem total_addMany {n : Nat} (ih : ∀ (c : Col α n) (v : Val α n) (c' : Col α n), addVal n c v = (c', .ok ()) →
    total n c' = total n c + size n v) (vs : List (Val α n)) : ∀ (c c' : Col α n),
    addMany (addVal n) c vs = (c', .ok ()) → total n c' = total n c + (vs.map (size n)).sum := by
  induction vs with
  | nil => intro c c' h; simp only [addMany, Prod.mk.injEq, and_true] at h; subst h; simp
  | cons v vs ih2 =>
    intro c c' h
    simp only [addMany] at h
    split at h
    · simp at h
    · rename_i u hu
      have h1 := ih c v (addVal n c v).1 (by rw [← show (addVal n c v).2 = .ok () from hu])
      have h2 := ih2 _ _ h
      simp only [List.map_cons, List.sum_cons]; omega

theorem total_addVal (n : Nat) : ∀ (c : Col α n) (v : Val α n) (c' : Col α n), addVal n c v = (c', .ok ()) →
    total n c' = total n c + size n v := by
  induction n with
  | zero => intro c v c' h; simp only [addVal, Prod.mk.injEq, and_true] at h; subst h; simp [total, size]
  | succ n ih =>
    rintro ⟨ix, t⟩ v c' h
    simp only [addVal] at h
    split at h
    · simp at h
    · rename_i u hu
      split at h
      · simp at h
      · simp only [Prod.mk.injEq, and_true] at h
        subst h
        have := total_addMany ih v t (addMany (addVal n) t v).1 (by rw [← show (addMany (addVal n) t v).2 = .ok () from hu])
        simp only [total, size, appendIx_len, widen_len]
        omega

end

/-! ### dynamic values -/

theorem addDyn_ok (n : Nat) : ∀ (c : Col Value n) (v : Value) (c' : Col Value n), addDyn n c v = (c', .ok ()) →
    ∃ w, addVal n c w = (c', .ok ()) ∧ ofVal n w = v := by
  induction n with
  | zero => intro c v c' h; exact ⟨v, h, rfl⟩
  | succ n ih =>
    have many : ∀ (vs : List Value) (c c' : Col Value n), addMany (addDyn n) c vs = (c', .ok ()) →
        ∃ ws, addMany (addVal n) c ws = (c', .ok ()) ∧ ws.map (ofVal n) = vs := by
      intro vs
      induction vs with
      | nil => intro c c' h; exact ⟨[], h, rfl⟩
      | cons v vs ih2 =>
        intro c c' h
        simp only [addMany] at h
        split at h
        · simp at h
        · rename_i u hu
          obtain ⟨w, h1, h2⟩ := ih c v (addDyn n c v).1 (by rw [← show (addDyn n c v).2 = .ok () from hu])
          obtain ⟨ws, i1, i2⟩ := ih2 _ _ h
          refine ⟨w :: ws, ?_, by simp [h2, i2]⟩
          simp only [addMany, h1, i1]
    rintro ⟨ix, t⟩ v c' h
    cases v with
    | null => simp [addDyn] at h
    | atom k => simp [addDyn] at h
    | list vs =>
      simp only [addDyn] at h
      split at h
      · simp at h
      · rename_i u hu
        obtain ⟨ws, i1, i2⟩ := many vs t (addMany (addDyn n) t vs).1
          (by rw [← show (addMany (addDyn n) t vs).2 = .ok () from hu])
        refine ⟨ws, ?_, by simp [ofVal, i2]⟩
        simp only [addVal, i1]
        exact h

/-- the value is a list nested at least `n` deep everywhere -/
def Shaped : Nat → Value → Prop
  | 0, _ => True
  | n + 1, .list vs => ∀ v ∈ vs, Shaped n v
  | _ + 1, _ => False

/-- number of values at all levels of a shaped value -/
def dsize : Nat → Value → Nat
  | 0, _ => 1
  | n + 1, .list vs => 1 + (vs.map (dsize n)).sum
  | _ + 1, _ => 1

theorem toVal (n : Nat) : ∀ v, Shaped n v → ∃ w : Val Value n, ofVal n w = v ∧ size n w = dsize n v := by
  induction n with
  | zero => intro v _; exact ⟨v, rfl, rfl⟩
  | succ n ih =>
    intro v hv
    cases v with
    | null => exact absurd hv id
    | atom k => exact absurd hv id
    | list vs =>
      have : ∃ ws : List (Val Value n), ws.map (ofVal n) = vs ∧ ws.map (size n) = vs.map (dsize n) := by
        have hv' : ∀ v ∈ vs, Shaped n v := hv
        clear hv
        induction vs with
        | nil => exact ⟨[], rfl, rfl⟩
        | cons v vs ih2 =>
          obtain ⟨w, h1, h2⟩ := ih v (hv' v (by simp))
          obtain ⟨ws, i1, i2⟩ := ih2 (fun x hx => hv' x (by simp [hx]))
          exact ⟨w :: ws, by simp [h1, i1], by simp [h2, i2]⟩
      obtain ⟨ws, h1, h2⟩ := this
      exact ⟨ws, by simp [ofVal, h1], by simp [size, dsize, h2]⟩

theorem addDyn_ofVal (n : Nat) : ∀ (c : Col Value n) (w : Val Value n), addDyn n c (ofVal n w) = addVal n c w := by
  induction n with
  | zero => intro c w; rfl
  | succ n ih =>
    rintro ⟨ix, t⟩ ws
    have many : ∀ (ws : List (Val Value n)) (t : Col Value n),
        addMany (addDyn n) t (ws.map (ofVal n)) = addMany (addVal n) t ws := by
      intro ws
      induction ws with
      | nil => intro t; rfl
      | cons w ws ih2 => intro t; simp only [List.map_cons, addMany, ih, ih2]
    simp only [ofVal, addDyn, many]
    rfl

/-! ### columns -/

/-- the values of the column, row by row -/
def Column.vals (c : Column) : List Value := (rows c.depth c.data).map (ofVal c.depth)

def Column.WF (c : Column) : Prop := Ragged.WF c.depth c.data

/-- number of values at all levels of the column -/
def Column.total (c : Column) : Nat := Ragged.total c.depth c.data

theorem Column.length_vals (c : Column) : c.vals.length = c.len := by
  simp [Column.vals, Column.len, length_rows]

theorem Column.get_vals (c : Column) (i : Nat) (v : Value) (h : c.vals[i]? = some v) : c.get (i : Int) = .ok v := by
  unfold Column.vals at h
  rw [List.getElem?_map, Option.map_eq_some_iff] at h
  obtain ⟨w, h1, h2⟩ := h
  unfold Column.get
  rw [get_spec _ _ i w h1, ← h2]; rfl

/-- `c'` is `c` with one more value `v` -/
structure Appended (c c' : Column) (v : Value) : Prop where
  name : c'.name = c.name
  depth : c'.depth = c.depth
  len : c'.len = c.len + 1
  total : c.total ≤ c'.total
  good : c.WF → c'.total < 2 ^ 64 → c'.WF ∧ c'.vals = c.vals ++ [v]

theorem addDyn_appended (c : Column) (v : Value) (d : Col Value c.depth) (h : addDyn c.depth c.data v = (d, .ok ())) :
    Appended c { c with data := d } v := by
  obtain ⟨w, h1, h2⟩ := addDyn_ok _ _ _ _ h
  have ht := total_addVal _ _ _ _ h1
  refine ⟨rfl, rfl, addVal_len _ _ _ _ h1, ?_, ?_⟩
  · simp only [Column.total]; omega
  · intro hw hs
    simp only [Column.total] at hs
    obtain ⟨c', i1, i2, i3, -⟩ := addVal_spec _ _ w hw (by omega)
    rw [h1] at i1
    simp only [Prod.mk.injEq, and_true] at i1
    subst i1
    refine ⟨i2, ?_⟩
    simp only [Column.vals, i3, List.map_append, List.map_cons, List.map_nil, h2]

theorem addCells_ok (data : Dict String Value) : ∀ (cs cs' : List Column), addCells data cs = (cs', .ok ()) →
    List.Forall₂ (fun c c' => ∃ v, Dict.get? data c.name = some v ∧ Appended c c' v) cs cs' := by
  intro cs
  induction cs with
  | nil => intro cs' h; simp only [addCells, Prod.mk.injEq, and_true] at h; subst h; exact .nil
  | cons c cs ih =>
    intro cs' h
    simp only [addCells] at h
    split at h
    · simp at h
    · rename_i v hv
      split at h
      · simp at h
      · rename_i u hu
        simp only [Prod.mk.injEq] at h
        obtain ⟨rfl, h2⟩ := h
        refine .cons ⟨v, hv, addDyn_appended c v _ (by rw [← show (addDyn c.depth c.data v).2 = .ok () from hu])⟩ ?_
        exact ih _ (by rw [← h2])

/-! ### states -/

/-- names distinct and every column has one entry per id -/
structure Inv (s : State) : Prop where
  nodup : s.colnames.Nodup
  len : ∀ c ∈ s.cols, c.len = s.ids.length

theorem makeCol_name {name : String} {data : List Value} {ix : IndexArg} {c : Column}
    (h : makeCol name data ix = .ok c) : c.name = name := by
  unfold makeCol at h
  split at h
  · simp at h; subst h; rfl
  · simp at h
  · split at h
    · simp at h; subst h; rfl
    · cases hb : buildCol (_ + 1) data with
      | error e => rw [hb] at h; simp [Except.map] at h
      | ok d => rw [hb] at h; simp [Except.map] at h; subst h; rfl
  · split at h
    · simp at h
    · split at h
      · simp at h; subst h; rfl
      · simp at h

theorem addColumn_ok {s s' : State} {name : String} {data : List Value} {ix : IndexArg}
    (h : addColumn s name data ix = (s', .ok ())) :
    ∃ c, makeCol name data ix = .ok c ∧ name ∉ s.colnames ∧ c.len = s.ids.length ∧ s'.ids = s.ids ∧
      s'.cols = s.cols ++ [c] ∧ s'.specs = s.specs := by
  unfold addColumn at h
  split at h
  · simp at h
  · rename_i hn
    cases hm : makeCol name data ix with
    | error e => rw [hm] at h; simp at h
    | ok c =>
      rw [hm] at h
      simp only at h
      split at h
      · simp at h
      · rename_i hl
        simp only [Prod.mk.injEq, and_true] at h
        subst h
        exact ⟨c, rfl, hn, by simpa using hl, rfl, rfl, rfl⟩

theorem addColumn_inv {s s' : State} {name : String} {data : List Value} {ix : IndexArg}
    (h : addColumn s name data ix = (s', .ok ())) (hi : Inv s) : Inv s' := by
  obtain ⟨c, hm, hn, hl, h1, h2, -⟩ := addColumn_ok h
  have hname := makeCol_name hm
  refine ⟨?_, ?_⟩
  · unfold State.colnames
    rw [h2, List.map_append, List.map_cons, List.map_nil]
    refine List.nodup_append.2 ⟨hi.nodup, by simp, ?_⟩
    intro a ha b hb hab
    simp only [List.mem_singleton] at hb
    subst hb; subst hab
    rw [hname] at ha
    exact hn ha
  · intro x hx
    rw [h2, List.mem_append, List.mem_singleton] at hx
    rw [h1]
    rcases hx with hx | rfl
    · exact hi.len x hx
    · exact hl

theorem addExtras_ok (data : Dict String Value) : ∀ (specs : List (String × Nat)) (s s' : State) (e e' : List String),
    addExtras data specs s e = (s', .ok e') → s'.ids = s.ids ∧ (Inv s → Inv s') ∧
      ∃ new, s'.cols = s.cols ++ new ∧
        ∀ c ∈ new, ∃ depth, c = ⟨c.name, depth, emptyCol Value depth⟩ := by
  intro specs
  induction specs with
  | nil =>
    intro s s' e e' h
    simp only [addExtras, Prod.mk.injEq, Except.ok.injEq] at h
    obtain ⟨rfl, -⟩ := h
    exact ⟨rfl, id, [], by simp, by simp⟩
  | cons sp specs ih =>
    obtain ⟨n, depth⟩ := sp
    intro s s' e e' h
    simp only [addExtras] at h
    split at h
    · split at h
      · exact ih _ _ _ _ h
      · exact ih _ _ _ _ h
      · split at h
        · simp at h
        · rename_i u hu
          have hok : addColumn s n [] (if depth = 0 then .none else .levels depth)
              = ((addColumn s n [] (if depth = 0 then .none else .levels depth)).1, .ok ()) := by
            rw [← show (addColumn s n [] (if depth = 0 then IndexArg.none else .levels depth)).2 = .ok () from hu]
          obtain ⟨c, hm, hn, hl, h1, h2, -⟩ := addColumn_ok hok
          obtain ⟨i1, i2, new, i3, i4⟩ := ih _ _ _ _ h
          refine ⟨by rw [i1, h1], fun hi => i2 (addColumn_inv hok hi), c :: new, by rw [i3, h2]; simp, ?_⟩
          intro x hx
          rcases List.mem_cons.1 hx with rfl | hx
          · cases depth with
            | zero => simp [makeCol] at hm; subst hm; exact ⟨0, rfl⟩
            | succ depth => simp [makeCol] at hm; subst hm; exact ⟨depth + 1, rfl⟩
          · exact i4 x hx
    · exact ih _ _ _ _ h

/-- what an accepted `add_row` does -/
theorem addRow_ok {s s' : State} {data : Dict String Value} {id : Option Int} {u : Bool}
    (h : addRow s data id u = (s', .ok ())) :
    ∃ s1 : State, ∃ new, s1.ids = s.ids ∧ (Inv s → Inv s1) ∧ s1.cols = s.cols ++ new ∧
      (∀ c ∈ new, ∃ depth, c = ⟨c.name, depth, emptyCol Value depth⟩) ∧
      s'.ids = s.ids ++ [id.getD s.ids.length] ∧ (u = true → id.getD s.ids.length ∉ s.ids) ∧
      List.Forall₂ (fun c c' => ∃ v, Dict.get? data c.name = some v ∧ Appended c c' v) s1.cols s'.cols := by
  unfold addRow at h
  split at h
  · simp at h
  · cases hr : addExtras data s.specs s (data.keys.filter (· ∉ s.colnames)) with
    | mk s1 r =>
      rw [hr] at h
      simp only at h
      cases r with
      | error e => simp at h
      | ok ex =>
        cases ex with
        | cons a as => simp at h
        | nil =>
          simp only at h
          split at h
          · simp at h
          · rename_i hu
            simp only [Prod.mk.injEq] at h
            obtain ⟨rfl, h2⟩ := h
            obtain ⟨i1, i2, new, i3, i4⟩ := addExtras_ok _ _ _ _ _ _ hr
            refine ⟨s1, new, i1, i2, i3, i4, by simp [i1], ?_, addCells_ok data s1.cols _ (by rw [← h2])⟩
            intro hut hmem
            exact hu ⟨hut, by rw [i1]; exact hmem⟩

theorem forall₂_mem_left {α β} {R : α → β → Prop} {l : List α} {l' : List β} (h : List.Forall₂ R l l') :
    ∀ x ∈ l, ∃ y ∈ l', R x y := by
  induction h with
  | nil => simp
  | cons h1 _ ih =>
    intro x hx
    rcases List.mem_cons.1 hx with rfl | hx
    · exact ⟨_, List.mem_cons_self, h1⟩
    · obtain ⟨y, hy, hr⟩ := ih x hx; exact ⟨y, List.mem_cons_of_mem _ hy, hr⟩

theorem forall₂_mem_right {α β} {R : α → β → Prop} {l : List α} {l' : List β} (h : List.Forall₂ R l l') :
    ∀ y ∈ l', ∃ x ∈ l, R x y := by
  induction h with
  | nil => simp
  | cons h1 _ ih =>
    intro x hx
    rcases List.mem_cons.1 hx with rfl | hx
    · exact ⟨_, List.mem_cons_self, h1⟩
    · obtain ⟨y, hy, hr⟩ := ih x hx; exact ⟨y, List.mem_cons_of_mem _ hy, hr⟩

theorem addRow_inv {s s' : State} {data : Dict String Value} {id : Option Int} {u : Bool}
    (h : addRow s data id u = (s', .ok ())) (hi : Inv s) : Inv s' := by
  obtain ⟨s1, new, h1, h2, h3, h4, h5, h6, h7⟩ := addRow_ok h
  have hi1 := h2 hi
  have hn : s'.colnames = s1.colnames := by
    unfold State.colnames
    clear h3 h6 h4
    generalize s1.cols = cs at h7
    generalize s'.cols = cs' at h7
    induction h7 with
    | nil => rfl
    | cons hc _ ih => obtain ⟨v, -, ha⟩ := hc; simp [ha.name, ih]
  refine ⟨by rw [hn]; exact hi1.nodup, ?_⟩
  intro c' hc'
  obtain ⟨c, hc, v, -, ha⟩ := forall₂_mem_right h7 c' hc'
  rw [ha.len, hi1.len c hc, h5, h1]; simp

theorem step_inv {s s' : State} {op : Op} (h : step s op = (s', .ok ())) (hi : Inv s) : Inv s' := by
  cases op with
  | addRow d i u => exact addRow_inv h hi
  | addColumn n d ix => exact addColumn_inv h hi

theorem runOk_inv : ∀ (ops : List Op) (s s' : State), runOk s ops = some s' → Inv s → Inv s' := by
  intro ops
  induction ops with
  | nil => intro s s' h hi; simp [runOk] at h; subst h; exact hi
  | cons op ops ih =>
    intro s s' h hi
    simp only [runOk] at h
    cases hs : step s op with
    | mk s1 r =>
      rw [hs] at h
      cases r with
      | error e => simp at h
      | ok u => exact ih s1 s' h (step_inv hs hi)

/-! ### contents -/

/-- every column well-formed -/
def GoodCols (s : State) : Prop := ∀ c ∈ s.cols, c.WF

/-- every column holds fewer than 2^64 values -/
def Small (s : State) : Prop := ∀ c ∈ s.cols, c.total < 2 ^ 64

/-- all columns of `s` are in `s'` under the same name, and their values are initial parts -/
structure Grows (s s' : State) : Prop where
  ids : s.ids <+: s'.ids
  cols : ∀ c ∈ s.cols, ∃ c' ∈ s'.cols, c'.name = c.name ∧ c.vals <+: c'.vals

theorem Grows.refl (s : State) : Grows s s := ⟨List.prefix_refl _, fun c hc => ⟨c, hc, rfl, List.prefix_refl _⟩⟩

theorem Grows.trans {a b c : State} (h1 : Grows a b) (h2 : Grows b c) : Grows a c := by
  refine ⟨h1.ids.trans h2.ids, fun x hx => ?_⟩
  obtain ⟨y, hy, n1, p1⟩ := h1.cols x hx
  obtain ⟨z, hz, n2, p2⟩ := h2.cols y hy
  exact ⟨z, hz, by rw [n2, n1], p1.trans p2⟩

theorem empty_col_facts (depth : Nat) (name : String) :
    let c : Column := ⟨name, depth, emptyCol Value depth⟩
    c.WF ∧ c.vals = [] ∧ c.total = 0 := by
  obtain ⟨h1, h2, h3⟩ := emptyCol_wf (α := Value) depth
  exact ⟨h1, by simp only [Column.vals, h2, List.map_nil], h3⟩

theorem addRow_small {s s' : State} {data : Dict String Value} {id : Option Int} {u : Bool}
    (h : addRow s data id u = (s', .ok ())) (hs : Small s') : Small s := by
  obtain ⟨s1, new, h1, h2, h3, h4, h5, h6, h7⟩ := addRow_ok h
  intro c hc
  obtain ⟨c', hc', v, -, ha⟩ := forall₂_mem_left h7 c (by rw [h3]; simp [hc])
  exact lt_of_le_of_lt ha.total (hs c' hc')

theorem addRow_grows {s s' : State} {data : Dict String Value} {id : Option Int} {u : Bool}
    (h : addRow s data id u = (s', .ok ())) (hg : GoodCols s) (hs : Small s') :
    GoodCols s' ∧ Grows s s' ∧
    (∀ c' ∈ s'.cols, ∃ v, Dict.get? data c'.name = some v ∧ ∃ old, c'.vals = old ++ [v]) := by
  obtain ⟨s1, new, h1, h2, h3, h4, h5, h6, h7⟩ := addRow_ok h
  have hg1 : ∀ c ∈ s1.cols, c.WF := by
    intro c hc
    rw [h3, List.mem_append] at hc
    rcases hc with hc | hc
    · exact hg c hc
    · obtain ⟨d, hd⟩ := h4 c hc; rw [hd]; exact (empty_col_facts d _).1
  refine ⟨?_, ⟨by rw [h5]; exact List.prefix_append _ _, ?_⟩, ?_⟩
  · intro c' hc'
    obtain ⟨c, hc, v, hv, ha⟩ := forall₂_mem_right h7 c' hc'
    exact (ha.good (hg1 c hc) (hs c' hc')).1
  · intro c hc
    obtain ⟨c', hc', v, hv, ha⟩ := forall₂_mem_left h7 c (by rw [h3]; simp [hc])
    refine ⟨c', hc', ha.name, ?_⟩
    rw [(ha.good (hg c hc) (hs c' hc')).2]
    exact List.prefix_append _ _
  · intro c' hc'
    obtain ⟨c, hc, v, hv, ha⟩ := forall₂_mem_right h7 c' hc'
    exact ⟨v, by rw [ha.name]; exact hv, c.vals, (ha.good (hg1 c hc) (hs c' hc')).2⟩

/-! ### building columns from nested lists -/

theorem flatten1_spec : ∀ (data : List Value) (lens : List Nat) (flat : List Value), flatten1 data = some (lens, flat) →
    ∃ ls : List (List Value), data = ls.map .list ∧ lens = ls.map List.length ∧ flat = ls.flatten := by
  intro data
  induction data with
  | nil => intro lens flat h; simp [flatten1] at h; exact ⟨[], rfl, by simp [h.1], by simp [h.2]⟩
  | cons v data ih =>
    intro lens flat h
    cases v with
    | null => simp [flatten1] at h
    | atom k => simp [flatten1] at h
    | list l =>
      simp only [flatten1, Option.map_eq_some_iff] at h
      obtain ⟨⟨ln, fl⟩, hr, he⟩ := h
      obtain ⟨ls, h1, h2, h3⟩ := ih ln fl hr
      simp only [Prod.mk.injEq] at he
      exact ⟨l :: ls, by simp [h1], by rw [← he.1]; simp [h2], by rw [← he.2]; simp [h3]⟩

theorem cumsum_sorted (lens : List Nat) : ∀ acc, (cumsum acc lens).Pairwise (· ≤ ·) ∧ (∀ e ∈ cumsum acc lens, acc ≤ e) ∧
    (cumsum acc lens).getLast?.getD acc = acc + lens.sum ∧ (cumsum acc lens).length = lens.length := by
  induction lens with
  | nil => intro acc; simp [cumsum]
  | cons x xs ih =>
    intro acc
    obtain ⟨h1, h2, h3, h4⟩ := ih (acc + x)
    refine ⟨List.pairwise_cons.2 ⟨h2, h1⟩, ?_, ?_, by simp [cumsum, h4]⟩
    · intro e he
      rcases List.mem_cons.1 he with rfl | he
      · omega
      · have := h2 e he; omega
    · simp only [cumsum, List.sum_cons, List.getLast?_cons]
      rw [Option.getD_some, h3]; omega

theorem cut_cumsum {β} (ls : List (List β)) : ∀ (pre : List β),
    cut pre.length (cumsum pre.length (ls.map List.length)) (pre ++ ls.flatten) = ls := by
  induction ls with
  | nil => intro pre; rfl
  | cons l ls ih =>
    intro pre
    simp only [List.map_cons, cumsum, cut, List.flatten_cons]
    have := ih (pre ++ l)
    rw [List.length_append, List.append_assoc] at this
    rw [this]
    congr 1
    rw [List.drop_left, Nat.add_sub_cancel_left, List.take_left]

theorem buildCol_ok (n : Nat) : ∀ (data : List Value) (c : Col Value n), buildCol n data = .ok c → total n c < 2 ^ 64 →
    Ragged.WF n c ∧ (rows n c).map (ofVal n) = data := by
  induction n with
  | zero =>
    intro data c h _
    unfold buildCol at h
    split at h
    · simp at h
    · simp only [Except.ok.injEq] at h
      subst h
      exact ⟨trivial, by simp only [rows]; exact List.map_id _⟩
  | succ n ih =>
    intro data c h ht
    simp only [buildCol] at h
    cases hf : flatten1 data with
    | none => rw [hf] at h; simp at h
    | some p =>
      obtain ⟨lens, flat⟩ := p
      rw [hf] at h
      simp only at h
      cases hb : buildCol n flat with
      | error e => rw [hb] at h; simp at h
      | ok t =>
        rw [hb] at h
        simp only at h
        obtain ⟨ls, h1, h2, h3⟩ := flatten1_spec data lens flat hf
        cases hm : mkIndex (cumsum 0 lens) (Ragged.len n t) with
        | mk ix r =>
          rw [hm] at h
          cases r with
          | error e => simp at h
          | ok u =>
            simp only [Except.ok.injEq] at h
            subst h
            simp only [total] at ht
            obtain ⟨hw, hr⟩ := ih flat t hb (by omega)
            obtain ⟨c1, -, c3, -⟩ := cumsum_sorted lens 0
            have hlen : Ragged.len n t = lens.sum := by
              rw [← length_rows, ← List.length_map (f := ofVal n), hr, h3, h2, List.length_flatten]
            obtain ⟨ix', m1, m2, m3⟩ := mkIndex_spec (cumsum 0 lens) (Ragged.len n t) c1 (by rw [c3, hlen]; omega)
              (by have := len_le_total n t; omega)
            rw [hm] at m1
            simp only [Prod.mk.injEq, and_true] at m1
            subst m1
            refine ⟨⟨m3, hw⟩, ?_⟩
            simp only [rows, m2]
            have key := cut_cumsum ls []
            simp only [List.length_nil, List.nil_append] at key
            rw [← h2, ← h3, ← hr] at key
            have cut_map : ∀ (es : List Nat) (p : Nat) (rs : List (Val Value n)),
                cut p es (rs.map (ofVal n)) = (cut p es rs).map (List.map (ofVal n)) := by
              intro es
              induction es with
              | nil => intro p rs; rfl
              | cons e es ih2 => intro p rs; simp only [cut, ih2, List.map_cons, List.map_take, List.map_drop]
            rw [cut_map] at key
            rw [h1, ← key, List.map_map]
            rfl

/-- the `ends` argument describes the data: non-decreasing and reaching exactly its end -/
def IndexArg.Valid (data : List Value) : IndexArg → Prop
  | .ends l => l.Pairwise (· ≤ ·) ∧ l.getLast?.getD 0 = data.length
  | _ => True

theorem makeCol_good {name : String} {data : List Value} {ix : IndexArg} {c : Column}
    (h : makeCol name data ix = .ok c) (hv : ix.Valid data) (ht : c.total < 2 ^ 64) :
    c.WF ∧ ((∀ l, ix ≠ .ends l) → c.vals = data) := by
  unfold makeCol at h
  split at h
  · simp at h; subst h
    exact ⟨trivial, fun _ => by simp only [Column.vals, rows]; exact List.map_id _⟩
  · simp at h
  · split at h
    · rename_i n hd
      simp at h; subst h
      obtain ⟨h1, h2, -⟩ := empty_col_facts (n + 1) name
      have : data = [] := List.length_eq_zero_iff.1 hd
      exact ⟨h1, fun _ => by rw [h2, this]⟩
    · rename_i n hd
      cases hb : buildCol (n + 1) data with
      | error e => rw [hb] at h; simp [Except.map] at h
      | ok d =>
        rw [hb] at h; simp [Except.map] at h; subst h
        obtain ⟨h1, h2⟩ := buildCol_ok (n + 1) data d hb ht
        exact ⟨h1, fun _ => h2⟩
  · rename_i l
    split at h
    · simp at h
    · split at h
      · rename_i ix u hm
        simp at h; subst h
        obtain ⟨ix', m1, m2, m3⟩ := mkIndex_spec l data.length hv.1 hv.2 (by
          simp only [Column.total, total] at ht; omega)
        rw [hm] at m1
        simp only [Prod.mk.injEq, and_true] at m1
        subst m1
        exact ⟨⟨m3, trivial⟩, fun hne => absurd rfl (hne l)⟩
      · simp at h

/-- number of rows that a column created from `data` and an `index` argument has -/
def IndexArg.rowCount (data : List Value) : IndexArg → Nat
  | .ends l => l.length
  | _ => data.length

theorem makeCol_len {name : String} {data : List Value} {ix : IndexArg} {c : Column}
    (h : makeCol name data ix = .ok c) : c.len = ix.rowCount data := by
  have mk_len : ∀ (l : List Nat) (L : Nat), (mkIndex l L).1.data.length = l.length := by
    intro l L
    have hadj : ∀ (ix : Index) b, (adjust ix b).1.data.length = ix.data.length := by
      intro ix b; unfold adjust; split <;> simp
    have hcp : (if l.length > 0 then checkPrecision { bits := 8, data := l } L
        else (({ bits := 8, data := l } : Index), .ok 0)).1.data.length = l.length := by
      split
      · rw [widen_len]
      · rfl
    unfold mkIndex
    simp only
    split
    · exact hcp
    · rw [hadj]; exact hcp
  unfold makeCol at h
  split at h
  · simp at h; subst h; rfl
  · simp at h
  · split at h
    · rename_i n hd; simp at h; subst h
      have := (emptyCol_wf (α := Value) (n + 1)).2.1
      simp only [Column.len]; rw [← length_rows, this]; simp only [IndexArg.rowCount, hd]; rfl
    · rename_i n hd
      cases hb : buildCol (n + 1) data with
      | error e => rw [hb] at h; simp [Except.map] at h
      | ok d =>
        rw [hb] at h; simp [Except.map] at h; subst h
        simp only [Column.len]
        simp only [buildCol] at hb
        cases hf : flatten1 data with
        | none => rw [hf] at hb; simp at hb
        | some p =>
          obtain ⟨lens, flat⟩ := p
          rw [hf] at hb
          simp only at hb
          obtain ⟨ls, h1, h2, h3⟩ := flatten1_spec data lens flat hf
          cases hb2 : buildCol n flat with
          | error e => rw [hb2] at hb; simp at hb
          | ok t =>
            rw [hb2] at hb
            simp only at hb
            cases hm : mkIndex (cumsum 0 lens) (Ragged.len n t) with
            | mk ix r =>
              rw [hm] at hb
              cases r with
              | error e => simp at hb
              | ok u =>
                simp only [Except.ok.injEq] at hb
                subst hb
                simp only [Ragged.len]
                have := mk_len (cumsum 0 lens) (Ragged.len n t)
                rw [hm] at this
                simp only at this
                rw [this, (cumsum_sorted lens 0).2.2.2, h2, h1]; simp [IndexArg.rowCount]
  · rename_i l
    split at h
    · simp at h
    · split at h
      · rename_i ix u hm
        simp at h; subst h
        have := mk_len l data.length
        rw [hm] at this
        exact this
      · simp at h

theorem addColumn_small {s s' : State} {name : String} {data : List Value} {ix : IndexArg}
    (h : addColumn s name data ix = (s', .ok ())) (hs : Small s') : Small s := by
  obtain ⟨c, hm, hn, hl, h1, h2, -⟩ := addColumn_ok h
  intro x hx; exact hs x (by rw [h2]; simp [hx])

theorem addColumn_grows {s s' : State} {name : String} {data : List Value} {ix : IndexArg}
    (h : addColumn s name data ix = (s', .ok ())) (hv : ix.Valid data) (hg : GoodCols s) (hs : Small s') :
    GoodCols s' ∧ Grows s s' := by
  obtain ⟨c, hm, hn, hl, h1, h2, -⟩ := addColumn_ok h
  refine ⟨?_, ⟨by rw [h1]; exact List.prefix_refl _, fun x hx => ⟨x, by rw [h2]; simp [hx], rfl, List.prefix_refl _⟩⟩⟩
  intro x hx
  rw [h2, List.mem_append, List.mem_singleton] at hx
  rcases hx with hx | rfl
  · exact hg x hx
  · exact (makeCol_good hm hv (hs x (by rw [h2]; simp))).1

/-- operations whose `ends` arguments (if any) describe the data -/
def Op.Valid : Op → Prop
  | .addRow _ _ _ => True
  | .addColumn _ d ix => ix.Valid d

theorem runOk_grows : ∀ (ops : List Op) (s s' : State), runOk s ops = some s' → (∀ op ∈ ops, op.Valid) → GoodCols s →
    Small s' → Small s ∧ GoodCols s' ∧ Grows s s' := by
  intro ops
  induction ops with
  | nil => intro s s' h _ hg hs; simp [runOk] at h; subst h; exact ⟨hs, hg, Grows.refl s⟩
  | cons op ops ih =>
    intro s s' h hv hg hs
    simp only [runOk] at h
    cases hstep : step s op with
    | mk s1 r =>
      rw [hstep] at h
      cases r with
      | error e => simp at h
      | ok u =>
        simp only at h
        -- smallness flows backwards, goodness forwards
        have hsmall1 : Small s1 := by
          have key : ∀ (ops : List Op) (a b : State), runOk a ops = some b → Small b → Small a := by
            intro ops
            induction ops with
            | nil => intro a b h hb; simp [runOk] at h; subst h; exact hb
            | cons op ops ih =>
              intro a b h hb
              simp only [runOk] at h
              cases hst : step a op with
              | mk a1 r =>
                rw [hst] at h
                cases r with
                | error e => simp at h
                | ok u =>
                  have := ih a1 b h hb
                  cases op with
                  | addRow d i uq => exact addRow_small hst this
                  | addColumn n d ix => exact addColumn_small hst this
          exact key ops s1 s' h hs
        have h1 : Small s ∧ GoodCols s1 ∧ Grows s s1 := by
          cases op with
          | addRow d i uq =>
            obtain ⟨a, b, -⟩ := addRow_grows hstep hg hsmall1
            exact ⟨addRow_small hstep hsmall1, a, b⟩
          | addColumn n d ix =>
            obtain ⟨a, b⟩ := addColumn_grows hstep (hv (Op.addColumn n d ix) (by simp)) hg hsmall1
            exact ⟨addColumn_small hstep hsmall1, a, b⟩
        obtain ⟨-, i2, i3⟩ := ih s1 s' h (fun o ho => hv o (by simp [ho])) h1.2.1 hs
        exact ⟨h1.1, i2, h1.2.2.trans i3⟩

theorem fresh_inv {initial specs : List (String × Nat)} (h : (initial.map Prod.fst).Nodup) : Inv (fresh initial specs) := by
  refine ⟨?_, ?_⟩
  · have : (fresh initial specs).colnames = initial.map Prod.fst := by
      simp [fresh, State.colnames, Function.comp_def]
    rw [this]; exact h
  · intro c hc
    simp only [fresh, List.mem_map] at hc
    obtain ⟨p, -, rfl⟩ := hc
    rw [← Column.length_vals, (empty_col_facts p.2 p.1).2.1]; rfl

theorem fresh_good (initial specs : List (String × Nat)) : GoodCols (fresh initial specs) := by
  intro c hc
  simp only [fresh, List.mem_map] at hc
  obtain ⟨p, -, rfl⟩ := hc
  exact (empty_col_facts p.2 p.1).1

theorem runOk_append : ∀ (a b : List Op) (s s' : State), runOk s (a ++ b) = some s' ↔
    ∃ s1, runOk s a = some s1 ∧ runOk s1 b = some s' := by
  intro a
  induction a with
  | nil => intro b s s'; simp [runOk]
  | cons op a ih =>
    intro b s s'
    simp only [List.cons_append, runOk]
    cases hs : step s op with
    | mk s1 r =>
      cases r with
      | error e => simp
      | ok u => simp only; exact ih b s1 s'

theorem runOk_small : ∀ (ops : List Op) (a b : State), runOk a ops = some b → Small b → Small a := by
  intro ops
  induction ops with
  | nil => intro a b h hb; simp [runOk] at h; subst h; exact hb
  | cons op ops ih =>
    intro a b h hb
    simp only [runOk] at h
    cases hst : step a op with
    | mk a1 r =>
      rw [hst] at h
      cases r with
      | error e => simp at h
      | ok u =>
        have := ih a1 b h hb
        cases op with
        | addRow d i uq => exact addRow_small hst this
        | addColumn n d ix => exact addColumn_small hst this

theorem rowCells_ok (i : Int) : ∀ (cs : List Column), (∀ c ∈ cs, ∃ v, c.get i = .ok v) →
    ∃ vs, rowCells i cs = .ok vs ∧ vs.map Prod.fst = cs.map Column.name ∧
      ∀ c ∈ cs, ∀ v, c.get i = .ok v → (c.name, v) ∈ vs := by
  intro cs
  induction cs with
  | nil => intro _; exact ⟨[], rfl, rfl, by simp⟩
  | cons c cs ih =>
    intro h
    obtain ⟨v, hv⟩ := h c (by simp)
    obtain ⟨vs, h1, h2, h3⟩ := ih (fun c hc => h c (by simp [hc]))
    refine ⟨(c.name, v) :: vs, by simp [rowCells, hv, h1], by simp [h2], ?_⟩
    intro c' hc' v' hv'
    rcases List.mem_cons.1 hc' with rfl | hc'
    · rw [hv] at hv'; cases hv'; simp
    · exact List.mem_cons_of_mem _ (h3 c' hc' v' hv')

theorem cell_eq {s : State} (hi : Inv s) {c : Column} (hc : c ∈ s.cols) (i : Int) : s.cell i c.name = c.get i := by
  unfold State.cell
  have : s.cols.find? (fun x => x.name == c.name) = some c := by
    have hnd := hi.nodup
    unfold State.colnames at hnd
    generalize s.cols = cs at hc hnd
    induction cs with
    | nil => simp at hc
    | cons x cs ih =>
      simp only [List.map_cons, List.nodup_cons] at hnd
      rcases List.mem_cons.1 hc with rfl | hc
      · simp
      · have hne : x.name ≠ c.name := fun h => hnd.1 (List.mem_map.2 ⟨c, hc, h.symm⟩)
        rw [List.find?_cons_of_neg (by simpa using hne)]
        exact ih hc hnd.2
  rw [this]

end Verif.Table

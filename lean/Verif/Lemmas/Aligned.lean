import Verif.Model.Aligned
import Verif.Lemmas.Table
import Mathlib.Data.List.Perm.Subperm

namespace Verif.Aligned
open Verif

/-! ### one call on each table -/

theorem addCats_ok : ∀ (cd : List (String × Arg)) (cats cats' : Dict String Table.State), (cd.map Prod.fst).Nodup →
    addCats cats cd = (cats', .ok ()) → cats'.keys = cats.keys ∧
      (∀ c, c ∉ cd.map Prod.fst → Dict.get? cats' c = Dict.get? cats c) ∧
      ∀ c a, (c, a) ∈ cd → ∃ d i u t t', a = .row d i u ∧ Dict.get? cats c = some t ∧ Table.addRow t d i u = (t', .ok ()) ∧
        Dict.get? cats' c = some t' := by
  intro cd
  induction cd with
  | nil => intro cats cats' _ h; simp only [addCats, Prod.mk.injEq, and_true] at h; subst h; simp
  | cons p cd ih =>
    intro cats cats' hn h
    obtain ⟨c0, a0⟩ := p
    simp only [List.map_cons, List.nodup_cons] at hn
    cases a0 with
    | cell v => simp [addCats] at h
    | row d i u =>
      simp only [addCats] at h
      cases hg : Dict.get? cats c0 with
      | none => rw [hg] at h; simp at h
      | some t =>
        rw [hg] at h
        simp only at h
        cases hr : Table.addRow t d i u with
        | mk t' r =>
          rw [hr] at h
          cases r with
          | error e => simp at h
          | ok x =>
            simp only at h
            obtain ⟨h1, h2, h3⟩ := ih _ _ hn.2 h
            have hmem : c0 ∈ cats.keys := by
              rw [← Dict.has_iff]; simp [Dict.has, hg]
            refine ⟨by rw [h1, Dict.keys_set, if_pos hmem], ?_, ?_⟩
            · intro c hc
              simp only [List.map_cons, List.mem_cons, not_or] at hc
              rw [h2 c hc.2, Dict.get?_set_ne hc.1]
            · intro c a hca
              rcases List.mem_cons.1 hca with hca | hca
              · simp only [Prod.mk.injEq] at hca
                obtain ⟨rfl, rfl⟩ := hca
                exact ⟨d, i, u, t, t', rfl, hg, hr, by rw [h2 c hn.1, Dict.get?_set_self]⟩
              · obtain ⟨d', i', u', t1, t1', e1, e2, e3, e4⟩ := h3 c a hca
                have hne : c ≠ c0 := by
                  intro he; rw [← he] at hn; exact hn.1 (List.mem_map.2 ⟨(c, a), by assumption, rfl⟩)
                rw [Dict.get?_set_ne hne] at e2
                exact ⟨d', i', u', t1, t1', e1, e2, e3, e4⟩

theorem catData_fst (cats : Dict String Table.State) (data : Dict String Arg) :
    (catData cats data).map Prod.fst = cats.keys.filter fun c => Dict.has data c := by
  unfold catData
  generalize cats.keys = ks
  induction ks with
  | nil => rfl
  | cons k ks ih =>
    rw [List.filterMap_cons, List.filter_cons]
    cases hg : Dict.get? data k with
    | none => simp [Dict.has, hg, ih]
    | some a => simp [Dict.has, hg, ih]

theorem mem_catData {cats : Dict String Table.State} {data : Dict String Arg} {c : String} {a : Arg} :
    (c, a) ∈ catData cats data ↔ c ∈ cats.keys ∧ Dict.get? data c = some a := by
  unfold catData
  rw [List.mem_filterMap]
  constructor
  · rintro ⟨c', h1, h2⟩
    rw [Option.map_eq_some_iff] at h2
    obtain ⟨a', h3, h4⟩ := h2
    simp only [Prod.mk.injEq] at h4
    obtain ⟨rfl, rfl⟩ := h4
    exact ⟨h1, h3⟩
  · rintro ⟨h1, h2⟩
    exact ⟨c, h1, by simp [h2]⟩

theorem filter_set {κ α : Type} [DecidableEq κ] (d : Dict κ α) (k : κ) (v : α) (p : κ × α → Bool)
    (hp : ∀ w, p (k, w) = false) : (Dict.set d k v).filter p = d.filter p := by
  induction d with
  | nil => simp [Dict.set, hp]
  | cons x xs ih =>
    obtain ⟨k', v'⟩ := x
    simp only [Dict.set]
    split
    · rename_i he
      subst he
      rw [List.filter_cons, List.filter_cons, hp, hp]
      simp
    · rw [List.filter_cons, List.filter_cons, ih]

theorem mainData_set (rest : Dict String Arg) (a b : Arg) :
    mainData (Dict.set (Dict.set rest "id" a) "enforce_unique_id" b) = mainData rest := by
  unfold mainData
  rw [filter_set _ _ _ _ (by simp), filter_set _ _ _ _ (by simp)]

/-- the main table's part of a row: the entries that are neither categories nor `id` nor `enforce_unique_id` -/
def mainRow (cats : List String) (data : Dict String Arg) : Dict String Value :=
  (data.filter fun p => p.1 ∉ cats ∧ p.1 ≠ "id" ∧ p.1 ≠ "enforce_unique_id").map fun p => (p.1, p.2.value)

theorem mainData_rest (cats : Dict String Table.State) (data : Dict String Arg) :
    mainData (restData cats data) = mainRow cats.keys data := by
  unfold mainData restData mainRow
  rw [List.filter_filter]
  congr 1
  apply List.filter_congr
  intro p _
  cases hh : Dict.has cats p.1 with
  | true =>
    rw [Dict.has_iff] at hh
    simp [hh]
  | false =>
    rw [Dict.has_false_iff] at hh
    simp [hh]

theorem addRow_ok {s s' : State} {data left : Dict String Arg} {id : Option Int} {u : Bool} (hn : s.cats.keys.Nodup)
    (h : addRow s data id u = (s', left, .ok ())) :
    Table.addRow s.main (mainRow s.cats.keys data) id u = (s'.main, .ok ()) ∧ s'.name = s.name ∧ s'.cats.keys = s.cats.keys ∧
      ∀ c t, Dict.get? s.cats c = some t → ∃ d i w t', Dict.get? data c = some (.row d i w) ∧
        Table.addRow t d i w = (t', .ok ()) ∧ Dict.get? s'.cats c = some t' := by
  unfold addRow at h
  simp only at h
  split at h
  · simp at h
  · rename_i hmiss
    rw [mainData_set, mainData_rest] at h
    cases hr : Table.addRow s.main (mainRow s.cats.keys data) id u with
    | mk m r =>
      rw [hr] at h
      cases r with
      | error e => simp at h
      | ok x =>
        simp only at h
        cases hq : addCats s.cats (catData s.cats data) with
        | mk cats' r2 =>
          rw [hq] at h
          simp only [Prod.mk.injEq] at h
          obtain ⟨rfl, -, rfl⟩ := h
          have hnd : ((catData s.cats data).map Prod.fst).Nodup := by
            rw [catData_fst]; exact hn.filter _
          obtain ⟨h1, -, h3⟩ := addCats_ok _ _ _ hnd hq
          refine ⟨rfl, rfl, h1, ?_⟩
          intro c t hg
          have hmem : c ∈ s.cats.keys := by rw [← Dict.has_iff]; simp [Dict.has, hg]
          have hin : c ∈ (catData s.cats data).map Prod.fst := by
            by_contra hni
            exact hmiss (List.any_eq_true.2 ⟨c, hmem, by simpa using hni⟩)
          obtain ⟨⟨c', a⟩, hca, rfl⟩ := List.mem_map.1 hin
          obtain ⟨d, i, w, t1, t', rfl, e2, e3, e4⟩ := h3 _ _ hca
          rw [hg] at e2
          simp only [Option.some.injEq] at e2
          subst e2
          exact ⟨d, i, w, t', (mem_catData.1 hca).2, e3, e4⟩

theorem getCategory_ok {s : State} {c : Option String} {r : Option Table.State} (h : getCategory s c = .ok r) :
    (r = none ∧ (c = none ∨ ∃ n, c = some n ∧ n ∉ s.cats.keys ∧ n = s.name)) ∨
      ∃ n t, c = some n ∧ Dict.get? s.cats n = some t ∧ r = some t := by
  unfold getCategory at h
  split at h
  · simp only [Except.ok.injEq] at h; exact .inl ⟨h.symm, .inl rfl⟩
  · rename_i n
    split at h
    · rename_i t hg
      simp only [Except.ok.injEq] at h; exact .inr ⟨n, t, rfl, hg, h.symm⟩
    · rename_i hg
      split at h
      · simp only [Except.ok.injEq] at h
        exact .inl ⟨h.symm, .inr ⟨n, rfl, Dict.get?_eq_none_iff.1 hg, by assumption⟩⟩
      · simp at h

theorem addColumn_ok {s s' : State} {cat : Option String} {name : String} {data : List Value} {ix : Table.IndexArg}
    (h : addColumn s cat name data ix = (s', .ok ())) :
    s'.name = s.name ∧ s'.cats.keys = s.cats.keys ∧
    ((Table.addColumn s.main name data ix = (s'.main, .ok ()) ∧ s'.cats = s.cats ∧
        (cat = none ∨ ∃ n, cat = some n ∧ n ∉ s.cats.keys ∧ n = s.name)) ∨
     (s'.main = s.main ∧ ∃ c t t', cat = some c ∧ Dict.get? s.cats c = some t ∧ Table.addColumn t name data ix = (t', .ok ()) ∧
        Dict.get? s'.cats c = some t' ∧ ∀ c', c' ≠ c → Dict.get? s'.cats c' = Dict.get? s.cats c')) := by
  unfold addColumn at h
  cases hg : getCategory s cat with
  | error e => rw [hg] at h; simp at h
  | ok r =>
    rw [hg] at h
    rcases getCategory_ok hg with ⟨rfl, hc⟩ | ⟨n, t, rfl, h1, rfl⟩
    · simp only [Prod.mk.injEq] at h
      obtain ⟨rfl, h2⟩ := h
      exact ⟨rfl, rfl, .inl ⟨by rw [← h2], rfl, hc⟩⟩
    · simp only [Option.getD_some, Prod.mk.injEq] at h
      obtain ⟨rfl, h2⟩ := h
      have hmem : n ∈ s.cats.keys := by rw [← Dict.has_iff]; simp [Dict.has, h1]
      refine ⟨rfl, by rw [Dict.keys_set, if_pos hmem], .inr ⟨rfl, n, t, _, rfl, h1, by rw [← h2], Dict.get?_set_self, ?_⟩⟩
      intro c' hc'
      exact Dict.get?_set_ne hc'

theorem addCategory_ok {s s' : State} {t : TableArg} (h : addCategory s t = (s', .ok ())) :
    t.table.len = s.main.len ∧ t.name ∉ s.cats.keys ∧ t.isAligned = false ∧ s'.name = s.name ∧ s'.main = s.main ∧
      s'.cats = s.cats ++ [(t.name, t.table)] := by
  unfold addCategory at h
  split at h
  · simp at h
  · rename_i h1
    split at h
    · simp at h
    · rename_i h2
      rw [Bool.not_eq_true, Dict.has_false_iff] at h2
      split at h
      · simp at h
      · rename_i h3
        simp only [Prod.mk.injEq, and_true] at h
        subst h
        exact ⟨by simpa using h1, h2, by simpa using h3, rfl, rfl, Dict.set_of_not_mem h2⟩

/-! ### alignment -/

/-- category names are distinct and every category table has as many rows as the main table -/
structure Inv (s : State) : Prop where
  nodup : s.cats.keys.Nodup
  len : ∀ c t, Dict.get? s.cats c = some t → t.len = s.main.len

theorem table_addRow_len {s s' : Table.State} {d : Dict String Value} {i : Option Int} {u : Bool}
    (h : Table.addRow s d i u = (s', .ok ())) : s'.len = s.len + 1 := by
  obtain ⟨-, -, -, -, -, -, h5, -⟩ := Table.addRow_ok h
  simp [Table.State.len, h5]

theorem table_addColumn_len {s s' : Table.State} {n : String} {d : List Value} {ix : Table.IndexArg}
    (h : Table.addColumn s n d ix = (s', .ok ())) : s'.len = s.len := by
  obtain ⟨-, -, -, -, h5, -⟩ := Table.addColumn_ok h
  simp [Table.State.len, h5]

theorem get?_of_keys {d d' : Dict String Table.State} (hk : d'.keys = d.keys) {c : String} {t' : Table.State}
    (h : Dict.get? d' c = some t') : ∃ t, Dict.get? d c = some t := by
  have : c ∈ d.keys := by rw [← hk, ← Dict.has_iff]; simp [Dict.has, h]
  rw [← Dict.has_iff] at this
  exact Option.isSome_iff_exists.1 this

/-- every successful call changes each table that was there by at most one successful table call -/
theorem step_tables {s s' : State} {op : Op} (i : Inv s) (h : step s op = (s', .ok ())) :
    (s'.main = s.main ∨ ∃ o, Table.step s.main o = (s'.main, .ok ()) ∧ (∀ d i u, op = .addRow d i u → ∃ d' i' u', o = .addRow d' i' u') ∧
        ∀ c n d ix, op = .addColumn c n d ix → o = .addColumn n d ix) ∧
    (∀ c t, Dict.get? s.cats c = some t → ∃ t', Dict.get? s'.cats c = some t' ∧ (t' = t ∨ ∃ o, Table.step t o = (t', .ok ()) ∧
      (∀ d i u, op = .addRow d i u → ∃ d' i' u', o = .addRow d' i' u') ∧ ∀ c n d ix, op = .addColumn c n d ix → o = .addColumn n d ix)) ∧
    Inv s' := by
  cases op with
  | addRow d id u =>
    simp only [step, Prod.mk.injEq] at h
    obtain ⟨h1, h2⟩ := h
    obtain ⟨a1, a2, a3, a4⟩ := addRow_ok (data := d) (id := id) (u := u) (s' := s') (left := (addRow s d id u).2.1) i.nodup (by rw [← h1, ← h2])
    refine ⟨.inr ⟨.addRow _ id u, a1, fun _ _ _ _ => ⟨_, _, _, rfl⟩, fun _ _ _ _ he => by simp at he⟩, ?_, ?_, ?_⟩
    · intro c t hg
      obtain ⟨d', i', w, t', -, b2, b3⟩ := a4 c t hg
      exact ⟨t', b3, .inr ⟨.addRow d' i' w, b2, fun _ _ _ _ => ⟨_, _, _, rfl⟩, fun _ _ _ _ he => by simp at he⟩⟩
    · rw [a3]; exact i.nodup
    · intro c t' hg'
      obtain ⟨t, hg⟩ := get?_of_keys a3 hg'
      obtain ⟨d', i', w, t'', -, b2, b3⟩ := a4 c t hg
      rw [hg'] at b3
      simp only [Option.some.injEq] at b3
      subst b3
      rw [table_addRow_len b2, table_addRow_len a1, i.len c t hg]
  | addColumn cat n d ix =>
    simp only [step] at h
    obtain ⟨-, a2, ⟨a3, a4, -⟩ | ⟨a3, c, t, t', -, a5, a6, a7, a8⟩⟩ := addColumn_ok h
    · refine ⟨.inr ⟨.addColumn n d ix, a3, fun _ _ _ he => by simp at he, fun _ _ _ _ he => by simp only [Op.addColumn.injEq] at he; obtain ⟨-, rfl, rfl, rfl⟩ := he; rfl⟩, ?_, ?_, ?_⟩
      · intro c t hg
        exact ⟨t, by rw [a4]; exact hg, .inl rfl⟩
      · rw [a2]; exact i.nodup
      · intro c t hg
        rw [a4] at hg
        rw [table_addColumn_len a3, i.len c t hg]
    · refine ⟨.inl a3, ?_, ?_, ?_⟩
      · intro c1 t1 hg
        by_cases hc : c1 = c
        · subst hc
          rw [a5] at hg
          simp only [Option.some.injEq] at hg
          subst hg
          exact ⟨t', a7, .inr ⟨.addColumn n d ix, a6, fun _ _ _ he => by simp at he, fun _ _ _ _ he => by
            simp only [Op.addColumn.injEq] at he; obtain ⟨-, rfl, rfl, rfl⟩ := he; rfl⟩⟩
        · exact ⟨t1, by rw [a8 c1 hc]; exact hg, .inl rfl⟩
      · rw [a2]; exact i.nodup
      · intro c1 t1 hg
        rw [a3]
        by_cases hc : c1 = c
        · subst hc
          rw [a7] at hg
          simp only [Option.some.injEq] at hg
          subst hg
          rw [table_addColumn_len a6, i.len c1 t a5]
        · rw [a8 c1 hc] at hg; exact i.len _ _ hg
  | addCategory t =>
    simp only [step] at h
    obtain ⟨a1, a2, -, -, a4, a5⟩ := addCategory_ok h
    refine ⟨.inl a4, ?_, ?_, ?_⟩
    · intro c t1 hg
      exact ⟨t1, by rw [a5, Dict.get?_append, hg]; rfl, .inl rfl⟩
    · rw [a5]
      simp only [Dict.keys, List.map_append, List.map_cons, List.map_nil]
      rw [List.nodup_append]
      refine ⟨i.nodup, by simp, ?_⟩
      intro a ha b hb
      simp only [List.mem_singleton] at hb
      subst hb
      rintro rfl; exact a2 ha
    · intro c t1 hg
      rw [a5, Dict.get?_append] at hg
      rw [a4]
      cases hg0 : Dict.get? s.cats c with
      | some t2 =>
        rw [hg0] at hg
        simp only [Option.some_or, Option.some.injEq] at hg
        subst hg; exact i.len _ _ hg0
      | none =>
        rw [hg0] at hg
        simp only [Option.none_or, Dict.get?] at hg
        split at hg
        · simp only [Option.some.injEq] at hg; subst hg; exact a1
        · simp at hg

theorem runOk_inv : ∀ (ops : List Op) (s s' : State), Inv s → runOk s ops = some s' → Inv s' := by
  intro ops
  induction ops with
  | nil => intro s s' i h; simp only [runOk, Option.some.injEq] at h; subst h; exact i
  | cons op ops ih =>
    intro s s' i h
    simp only [runOk] at h
    cases hs : step s op with
    | mk s1 r =>
      rw [hs] at h
      cases r with
      | error e => simp at h
      | ok x => exact ih s1 s' (step_tables i hs).2.2 h

/-! ### construction -/

theorem lookup_ok (cs : List String) : ∀ (ts : List TableArg) (i : Nat) (d pos : Dict String Nat), lookup cs ts i d = .ok pos →
    (∀ t ∈ ts, t.name ∈ cs) ∧ (ts.map TableArg.name).Nodup ∧ (∀ t ∈ ts, t.name ∉ d.keys) ∧
    ∀ n j, Dict.get? pos n = some j → Dict.get? d n = some j ∨ ∃ k t, ts[k]? = some t ∧ t.name = n ∧ j = i + k := by
  intro ts
  induction ts with
  | nil => intro i d pos h; simp only [lookup, Except.ok.injEq] at h; subst h; simp
  | cons t ts ih =>
    intro i d pos h
    simp only [lookup] at h
    split at h
    · simp at h
    · rename_i h1
      split at h
      · simp at h
      · rename_i h2
        rw [Bool.not_eq_true, Dict.has_false_iff] at h2
        obtain ⟨a1, a2, a3, a4⟩ := ih _ _ _ h
        refine ⟨?_, ?_, ?_, ?_⟩
        · intro x hx
          rcases List.mem_cons.1 hx with rfl | hx
          · simpa using h1
          · exact a1 x hx
        · rw [List.map_cons, List.nodup_cons]
          refine ⟨?_, a2⟩
          intro hm
          obtain ⟨x, hx, he⟩ := List.mem_map.1 hm
          exact a3 x hx (Dict.mem_keys_set.2 (.inl he))
        · intro x hx
          rcases List.mem_cons.1 hx with rfl | hx
          · exact h2
          · intro hk; exact a3 x hx (Dict.mem_keys_set.2 (.inr hk))
        · intro n j hg
          rcases a4 n j hg with hg | ⟨k, t', b1, b2, b3⟩
          · rw [Dict.get?_set] at hg
            split at hg
            · rename_i he
              simp only [Option.some.injEq] at hg
              exact .inr ⟨0, t, rfl, he.symm, by omega⟩
            · exact .inl hg
          · exact .inr ⟨k + 1, t', by simpa using b1, b2, by omega⟩

theorem collect_ok (main : Table.State) (ts : List TableArg) (pos : Dict String Nat)
    (hpos : ∀ n j, Dict.get? pos n = some j → ∃ t, ts[j]? = some t ∧ t.name = n) : ∀ (cs : List String) (d d' : Dict String Table.State),
    cs.Nodup → (∀ c ∈ cs, c ∉ d.keys) → collect main ts pos cs d = .ok d' →
    ∃ new, d' = d ++ new ∧ new.keys = cs ∧ ∀ p ∈ new, p.2.len = main.len ∧ ∃ t ∈ ts, t.name = p.1 ∧ t.table = p.2 := by
  intro cs
  induction cs with
  | nil => intro d d' _ _ h; simp only [collect, Except.ok.injEq] at h; subst h; exact ⟨[], by simp [Dict.keys]⟩
  | cons c cs ih =>
    intro d d' hn hd h
    simp only [collect] at h
    cases hg : (Dict.get? pos c).bind (ts[·]?) with
    | none => rw [hg] at h; simp at h
    | some t =>
      rw [hg] at h
      simp only at h
      rw [Option.bind_eq_some_iff] at hg
      obtain ⟨j, hj, htj⟩ := hg
      obtain ⟨t', ht', hname⟩ := hpos c j hj
      rw [htj] at ht'
      simp only [Option.some.injEq] at ht'
      subst ht'
      split at h
      · simp at h
      · rename_i hl
        rw [List.nodup_cons] at hn
        have hcd : t.name ∉ d.keys := by rw [hname]; exact hd c (by simp)
        rw [Dict.set_of_not_mem hcd] at h
        obtain ⟨new, e1, e2, e3⟩ := ih _ _ hn.2 (by
          intro c' hc' hk
          simp only [Dict.keys, List.map_append, List.map_cons, List.map_nil, List.mem_append, List.mem_singleton] at hk
          rcases hk with hk | hk
          · exact hd c' (by simp [hc']) hk
          · rw [hname] at hk; subst hk; exact hn.1 hc') h
        refine ⟨(t.name, t.table) :: new, by rw [e1]; simp, ?_, ?_⟩
        · simp only [Dict.keys, List.map_cons]
          rw [show List.map Prod.fst new = cs from e2, hname]
        · intro p hp
          rcases List.mem_cons.1 hp with rfl | hp
          · exact ⟨by simpa using hl, t, List.mem_of_getElem? htj, rfl, rfl⟩
          · exact e3 p hp

/-- the constructor: categories in the order given, each the table of that name, all of the main table's length -/
theorem init_ok {name : String} {main : Table.State} {ts : List TableArg} {cats : Option (List String)} {s : State}
    (h : init name main (some ts) cats = .ok s) :
    s.main = initIds main ts ∧ s.cats.keys = cats.getD (ts.map TableArg.name) ∧ s.cats.keys.Nodup ∧
      (∀ t ∈ ts, t.isTable = true ∧ t.isAligned = false) ∧
      ∀ c t, Dict.get? s.cats c = some t → t.len = s.main.len ∧ ∃ a ∈ ts, a.name = c ∧ a.table = t := by
  unfold init at h
  simp only at h
  split at h
  · simp at h
  · rename_i hkind
    split at h
    · simp at h
    · rename_i hlen
      cases hl : lookup (cats.getD (ts.map TableArg.name)) ts 0 [] with
      | error e => rw [hl] at h; simp at h
      | ok pos =>
        rw [hl] at h
        simp only at h
        cases hc : collect (initIds main ts) ts pos (cats.getD (ts.map TableArg.name)) [] with
        | error e => rw [hc] at h; simp at h
        | ok d =>
          rw [hc] at h
          simp only [Except.ok.injEq] at h
          subst h
          obtain ⟨a1, a2, -, a4⟩ := lookup_ok _ _ _ _ _ hl
          have hnd : (cats.getD (ts.map TableArg.name)).Nodup := by
            have hsub : (ts.map TableArg.name).Subperm (cats.getD (ts.map TableArg.name)) := by
              apply List.subperm_of_subset a2
              intro n hn
              obtain ⟨t, ht, rfl⟩ := List.mem_map.1 hn
              exact a1 t ht
            have hp := hsub.perm_of_length_le (by simp at hlen ⊢; omega)
            exact hp.nodup_iff.1 a2
          obtain ⟨new, e1, e2, e3⟩ := collect_ok (initIds main ts) ts pos (by
            intro n j hg
            rcases a4 n j hg with hg | ⟨k, t, b1, b2, b3⟩
            · simp at hg
            · exact ⟨t, by rw [b3]; simpa using b1, b2⟩) _ _ _ hnd (by simp [Dict.keys]) hc
          rw [List.nil_append] at e1
          subst e1
          refine ⟨rfl, e2, by rw [e2]; exact hnd, ?_, ?_⟩
          · intro t ht
            have : ¬(!t.isTable || t.isAligned) = true := fun hb => hkind (List.any_eq_true.2 ⟨t, ht, hb⟩)
            simpa using this
          · intro c t hg
            exact e3 (c, t) (Dict.mem_of_get? hg)

/-! ### reading back -/

/-- a table all of whose columns are well formed and of the right length -/
def Fine (t : Table.State) : Prop := Table.Inv t ∧ Table.GoodCols t

/-- whatever history follows, the row added reads back -/
theorem row_read_back {s1 s2 s : Table.State} {after : List Table.Op} {data : Dict String Value} {id : Option Int} {u : Bool}
    (hf : Fine s1) (h2 : Table.addRow s1 data id u = (s2, .ok ())) (h3 : Table.runOk s2 after = some s)
    (hv : ∀ op ∈ after, op.Valid) (hs : ∀ c ∈ s.cols, c.total < 2 ^ 64) :
    ∃ vs, s.row s1.len = .ok (id.getD s1.len, vs) ∧ vs.map Prod.fst = s.colnames ∧
      ∀ name ∈ s2.colnames, ∃ v, Dict.get? data name = some v ∧ (name, v) ∈ vs := by
  obtain ⟨hi1, hg1⟩ := hf
  have hi2 := Table.addRow_inv h2 hi1
  have hi := Table.runOk_inv after _ _ h3 hi2
  have hs2 : Table.Small s2 := Table.runOk_small after _ _ h3 hs
  obtain ⟨hg2, hgr2, hlast⟩ := Table.addRow_grows h2 hg1 hs2
  obtain ⟨-, hg, hgr⟩ := Table.runOk_grows after _ _ h3 hv hg2 hs
  obtain ⟨-, -, -, -, -, -, hids, -, -⟩ := Table.addRow_ok h2
  have hlen2 : s2.ids.length = s1.ids.length + 1 := by simp [hids]
  have hlt : s1.ids.length < s.ids.length := by
    have := hgr.ids.length_le
    omega
  obtain ⟨tl, htl⟩ := hgr.ids
  have hidget : pyGet s.ids (s1.ids.length : Int) = .ok (id.getD s1.ids.length) := by
    have : s.ids[s1.ids.length]? = some (id.getD s1.ids.length) := by rw [← htl, hids]; simp
    rw [Ragged.pyGet_nat, this]
  have hall : ∀ c ∈ s.cols, ∃ v, c.get (s1.ids.length : Int) = .ok v := by
    intro c hc
    have hl : c.vals.length = s.ids.length := by rw [Table.Column.length_vals]; exact hi.len c hc
    exact ⟨_, Table.Column.get_vals c s1.ids.length (c.vals[s1.ids.length]'(by omega)) (List.getElem?_eq_getElem _)⟩
  obtain ⟨vs, r1, r2, r3⟩ := Table.rowCells_ok (s1.ids.length : Int) s.cols hall
  refine ⟨vs, ?_, r2, ?_⟩
  · simp only [Table.State.row, Table.State.len, hidget, r1]
  · intro name hname
    obtain ⟨c2, hc2, rfl⟩ := List.mem_map.1 hname
    obtain ⟨v, hd, old, hold⟩ := hlast c2 hc2
    obtain ⟨c, hc, hcn, hpre⟩ := hgr.cols c2 hc2
    have hl2 : c2.vals.length = s2.ids.length := by rw [Table.Column.length_vals]; exact hi2.len c2 hc2
    have hget : c.vals[s1.ids.length]? = some v := by
      obtain ⟨t, ht⟩ := hpre
      have : old.length = s1.ids.length := by
        rw [hold] at hl2; simp at hl2; omega
      rw [← ht, hold, ← this]; simp
    have hg := Table.Column.get_vals c _ v hget
    refine ⟨v, hd, ?_⟩
    rw [← hcn]; exact r3 c hc v hg

/-- the `index` arrays in a history describe their data -/
def Op.Valid : Op → Prop
  | .addColumn _ n d ix => (Table.Op.addColumn n d ix).Valid
  | _ => True

theorem table_runOk_snoc {t t1 t2 : Table.State} {ops : List Table.Op} {o : Table.Op} (h : Table.runOk t ops = some t1)
    (ho : Table.step t1 o = (t2, .ok ())) : Table.runOk t (ops ++ [o]) = some t2 :=
  (Table.runOk_append _ _ _ _).2 ⟨t1, h, by simp [Table.runOk, ho]⟩

/-- a history on the aligned table is a history on each of its tables -/
theorem runOk_tables : ∀ (ops : List Op) (s s' : State), Inv s → runOk s ops = some s' → (∀ o ∈ ops, o.Valid) →
    (∃ os, Table.runOk s.main os = some s'.main ∧ ∀ o ∈ os, o.Valid) ∧
    ∀ c t, Dict.get? s.cats c = some t → ∃ t' os, Dict.get? s'.cats c = some t' ∧ Table.runOk t os = some t' ∧ ∀ o ∈ os, o.Valid := by
  intro ops
  induction ops with
  | nil =>
    intro s s' _ h _
    simp only [runOk, Option.some.injEq] at h
    subst h
    exact ⟨⟨[], rfl, by simp⟩, fun c t hg => ⟨t, [], hg, rfl, by simp⟩⟩
  | cons op ops ih =>
    intro s s' i h hv
    simp only [runOk] at h
    cases hs : step s op with
    | mk s1 r =>
      rw [hs] at h
      cases r with
      | error e => simp at h
      | ok x =>
        obtain ⟨a1, a2, a3⟩ := step_tables i hs
        obtain ⟨⟨os, b1, b2⟩, b3⟩ := ih s1 s' a3 h (fun o ho => hv o (by simp [ho]))
        have hvo : ∀ o : Table.Op, (∀ d i u, op = .addRow d i u → ∃ d' i' u', o = .addRow d' i' u') →
            (∀ c n d ix, op = .addColumn c n d ix → o = .addColumn n d ix) → (∀ t, op ≠ .addCategory t) → o.Valid := by
          intro o h1 h2 h3
          cases hop : op with
          | addRow d i u => obtain ⟨_, _, _, rfl⟩ := h1 _ _ _ hop; trivial
          | addColumn c n d ix =>
            rw [h2 _ _ _ _ hop]
            have := hv op (by simp)
            rw [hop] at this; exact this
          | addCategory t => exact absurd hop (h3 t)
        have hcat : (∃ t, op = .addCategory t) → s1.main = s.main ∧ ∀ c t, Dict.get? s.cats c = some t → Dict.get? s1.cats c = some t := by
          rintro ⟨t, rfl⟩
          simp only [step] at hs
          obtain ⟨-, -, -, -, a4, a5⟩ := addCategory_ok hs
          exact ⟨a4, fun c t1 hg => by rw [a5, Dict.get?_append, hg]; rfl⟩
        constructor
        · by_cases hc : ∃ t, op = .addCategory t
          · rw [(hcat hc).1] at b1; exact ⟨os, b1, b2⟩
          · rcases a1 with a1 | ⟨o, a1, a4, a5⟩
            · rw [a1] at b1; exact ⟨os, b1, b2⟩
            · refine ⟨o :: os, by simp only [Table.runOk, a1]; exact b1, ?_⟩
              intro o' ho'
              rcases List.mem_cons.1 ho' with rfl | ho'
              · exact hvo _ a4 a5 (fun t ht => hc ⟨t, ht⟩)
              · exact b2 o' ho'
        · intro c t hg
          by_cases hc : ∃ t, op = .addCategory t
          · exact b3 c t ((hcat hc).2 c t hg)
          · obtain ⟨t1, c1, c2⟩ := a2 c t hg
            obtain ⟨t', os', c3, c4, c5⟩ := b3 c t1 c1
            rcases c2 with rfl | ⟨o, c2, c6, c7⟩
            · exact ⟨t', os', c3, c4, c5⟩
            · refine ⟨t', o :: os', c3, by simp only [Table.runOk, c2]; exact c4, ?_⟩
              intro o' ho'
              rcases List.mem_cons.1 ho' with rfl | ho'
              · exact hvo _ c6 c7 (fun t ht => hc ⟨t, ht⟩)
              · exact c5 o' ho'

end Verif.Aligned

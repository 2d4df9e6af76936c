import Verif.Model.SortKeys
import Verif.Base.Tac

/-!
# Properties of the order of keys in spec files
-/

namespace Verif.SortKeys
open Verif

/-- the fixed order of the keys in a spec file -/
def fixedOrder : List String :=
  ["neurodata_type_def", "neurodata_type_inc", "data_type_def", "data_type_inc", "name", "default_name", "dtype", "target_type",
   "dims", "shape", "default_value", "value", "doc", "required", "quantity", "attributes", "datasets", "groups", "links"]

theorem order_eq : order = fixedOrder := rfl

/-- one step into the data -/
inductive Step
  | key (k : String)
  | idx (i : Nat)

/-- what is found at a path -/
def J.at : J → List Step → Option J
  | j, [] => some j
  | .dict d, .key k :: p => (Dict.get? d k).bind fun j => j.at p
  | .list l, .idx i :: p => l[i]?.bind fun j => j.at p
  | .tup l, .idx i :: p => l[i]?.bind fun j => j.at p
  | _, _ :: _ => none
termination_by _ p => p.length

/-- a Python dict has no key twice, at any depth -/
def WF (j : J) : Prop := ∀ p d, j.at p = some (.dict d) → (Dict.keys d).Nodup

theorem jsonPairs_eq (d : List (String × J)) : jsonPairs d = d.map fun p => (p.1, json p.2) := by
  induction d with
  | nil => simp [jsonPairs]
  | cons p d ih => obtain ⟨k, v⟩ := p; simp [jsonPairs, ih]

theorem jsonList_eq (l : List J) : jsonList l = l.map json := by
  induction l with
  | nil => simp [jsonList]
  | cons v l ih => simp [jsonList, ih]

theorem sortPairs_eq (d : List (String × J)) : sortPairs d = d.map fun p => (p.1, sortKeys p.2) := by
  induction d with
  | nil => simp [sortPairs]
  | cons p d ih => obtain ⟨k, v⟩ := p; simp [sortPairs, ih]

theorem sortList_eq (l : List J) : sortList l = l.map sortKeys := by
  induction l with
  | nil => simp [sortList]
  | cons v l ih => simp [sortList, ih]

theorem get?_mapv {α β : Type} (d : Dict String α) (f : α → β) (k : String) :
    Dict.get? (d.map fun p => (p.1, f p.2)) k = (Dict.get? d k).map f := by
  induction d with
  | nil => rfl
  | cons p d ih =>
    obtain ⟨k', v⟩ := p
    by_cases h : k' = k <;> simp [Dict.get?, h, ih]

theorem keys_mapv {α β : Type} (d : Dict String α) (f : α → β) : Dict.keys (d.map fun p => (p.1, f p.2)) = Dict.keys d := by
  simp [Dict.keys, Function.comp_def]

section
variable {α : Type}

theorem del_of_not_mem {d : Dict String α} {k : String} (h : k ∉ Dict.keys d) : Dict.del d k = d := by
  unfold Dict.del
  rw [List.filter_eq_self]
  intro p hp
  simp only [decide_eq_true_eq]
  rintro rfl
  exact h (List.mem_map_of_mem hp)

theorem front_perm {d : Dict String α} (hn : (Dict.keys d).Nodup) (k : String) : (front d k).Perm d := by
  unfold front
  cases h : Dict.get? d k with
  | none => exact List.Perm.refl _
  | some v =>
    simp only
    induction d with
    | nil => simp at h
    | cons p d ih =>
      obtain ⟨k', v'⟩ := p
      simp only [Dict.keys, List.map_cons, List.nodup_cons] at hn
      by_cases hk : k' = k
      · subst hk
        simp only [Dict.get?, if_true, Option.some.injEq] at h
        subst h
        have : Dict.del ((k', v') :: d) k' = d := by
          have := del_of_not_mem (d := d) (k := k') hn.1
          unfold Dict.del at this ⊢
          rw [List.filter_cons, if_neg (by simp), this]
        rw [this]
      · simp only [Dict.get?, hk, if_false] at h
        have e : Dict.del ((k', v') :: d) k = (k', v') :: Dict.del d k := by simp [Dict.del, hk]
        rw [e]
        exact (List.Perm.swap _ _ _).trans ((ih hn.2 h).cons _)

theorem foldl_front_perm (ks : List String) {d : Dict String α} (hn : (Dict.keys d).Nodup) :
    (ks.foldl front d).Perm d ∧ (Dict.keys (ks.foldl front d)).Nodup := by
  induction ks generalizing d with
  | nil => exact ⟨List.Perm.refl _, hn⟩
  | cons k ks ih =>
    have hp := front_perm hn k
    have hn' : (Dict.keys (front d k)).Nodup := (hp.map Prod.fst).nodup_iff.2 hn
    obtain ⟨h1, h2⟩ := ih hn'
    exact ⟨h1.trans hp, h2⟩

theorem reorder_perm {d : Dict String α} (hn : (Dict.keys d).Nodup) : (reorder d).Perm d := by
  obtain ⟨h1, h2⟩ := foldl_front_perm order.reverse hn
  unfold reorder
  split
  · exact h1
  · exact (front_perm h2 "name").trans h1

theorem get?_perm {d e : Dict String α} (hn : (Dict.keys d).Nodup) (h : e.Perm d) (k : String) : Dict.get? e k = Dict.get? d k := by
  have hn' : (Dict.keys e).Nodup := (h.map Prod.fst).nodup_iff.2 hn
  apply Option.ext
  intro v
  rw [Dict.get?_eq_some_iff hn, Dict.get?_eq_some_iff hn', h.mem_iff]

/-- the keys after moving keys to the front, the last one first -/
theorem foldl_front_keys (ks : List String) (hks : ks.Nodup) {d : Dict String α} (hn : (Dict.keys d).Nodup) :
    Dict.keys (ks.reverse.foldl front d) =
      ks.filter (fun k => decide (k ∈ Dict.keys d)) ++ (Dict.keys d).filter (fun k => decide (k ∉ ks)) := by
  induction ks with
  | nil => simp
  | cons k ks ih =>
    rw [List.nodup_cons] at hks
    obtain ⟨hp, hn'⟩ := foldl_front_perm (α := α) ks.reverse hn
    simp only [List.reverse_cons, List.foldl_append, List.foldl_cons, List.foldl_nil]
    have ih := ih hks.2
    have hmem : k ∈ Dict.keys (ks.reverse.foldl front d) ↔ k ∈ Dict.keys d := (hp.map Prod.fst).mem_iff
    cases h : Dict.get? (ks.reverse.foldl front d) k with
    | none =>
      rw [show front (ks.reverse.foldl front d) k = ks.reverse.foldl front d by rw [front, h]]
      have hk : k ∉ Dict.keys d := fun hc => (Dict.get?_eq_none_iff.1 h) (hmem.2 hc)
      rw [ih, List.filter_cons, if_neg (by simpa using hk)]
      congr 1
      apply List.filter_congr
      intro x hx
      simp only [List.mem_cons, not_or, decide_eq_decide]
      constructor
      · intro h; exact ⟨fun e => hk (e ▸ hx), h⟩
      · exact fun h => h.2
    | some v =>
      rw [show front (ks.reverse.foldl front d) k = (k, v) :: Dict.del (ks.reverse.foldl front d) k by rw [front, h]]
      have hk : k ∈ Dict.keys d := hmem.1 (Dict.mem_keys_of_mem (Dict.mem_of_get? h))
      have e : Dict.keys ((k, v) :: Dict.del (ks.reverse.foldl front d) k) = k :: (Dict.keys (ks.reverse.foldl front d)).filter (fun x => decide (x ≠ k)) := by
        rw [← Dict.keys_del]; rfl
      rw [e, ih, List.filter_cons, if_pos (by simpa using hk), List.filter_append, List.filter_filter, List.filter_filter]
      simp only [List.cons_append]
      congr 2
      · apply List.filter_congr
        intro x hx
        have : x ≠ k := fun e => hks.1 (e ▸ hx)
        simp [this]
      · apply List.filter_congr
        intro x hx
        simp [List.mem_cons, not_or]

end

theorem at_key (d : List (String × J)) (k : String) (p : List Step) : (J.dict d).at (.key k :: p) = (Dict.get? d k).bind fun j => j.at p := by
  simp [J.at]

theorem WF.child {d : List (String × J)} (h : WF (.dict d)) {k : String} {j : J} (hk : Dict.get? d k = some j) : WF j := by
  intro p e hp
  exact h (.key k :: p) e (by rw [at_key, hk]; exact hp)

theorem WF.item {l : List J} (h : WF (.list l)) {i : Nat} {j : J} (hk : l[i]? = some j) : WF j := by
  intro p e hp
  exact h (.idx i :: p) e (by simp [J.at, hk, hp])

theorem WF.titem {l : List J} (h : WF (.tup l)) {i : Nat} {j : J} (hk : l[i]? = some j) : WF j := by
  intro p e hp
  exact h (.idx i :: p) e (by simp [J.at, hk, hp])

theorem WF.top {d : List (String × J)} (h : WF (.dict d)) : (Dict.keys d).Nodup := h [] d (by simp [J.at])

theorem sortKeys_at (j : J) (h : WF j) (p : List Step) : (sortKeys j).at p = (j.at p).map sortKeys := by
  induction p generalizing j with
  | nil => simp [J.at]
  | cons s p ih =>
    cases j with
    | dict d =>
      cases s with
      | key k =>
        have hn : (Dict.keys (sortPairs d)).Nodup := by rw [sortPairs_eq, keys_mapv]; exact h.top
        have := get?_perm hn (reorder_perm hn) k
        simp only [sortKeys, at_key, this]
        rw [sortPairs_eq, get?_mapv]
        cases hg : Dict.get? d k with
        | none => rfl
        | some j => simp only [Option.map_some, Option.bind_some]; exact ih j (h.child hg)
      | idx i => simp [sortKeys, J.at]
    | list l =>
      cases s with
      | key k => simp [sortKeys, J.at]
      | idx i =>
        simp only [sortKeys, J.at, sortList_eq, List.getElem?_map]
        cases hg : l[i]? with
        | none => rfl
        | some j => simp only [Option.map_some, Option.bind_some]; exact ih j (h.item hg)
    | tup l =>
      cases s with
      | key k => simp [sortKeys, J.at]
      | idx i =>
        simp only [sortKeys, J.at, sortList_eq, List.getElem?_map]
        cases hg : l[i]? with
        | none => rfl
        | some j => simp only [Option.map_some, Option.bind_some]; exact ih j (h.titem hg)
    | leaf x => cases s <;> simp [sortKeys, J.at]

theorem json_at (j : J) (p : List Step) : (json j).at p = (j.at p).map json := by
  induction p generalizing j with
  | nil => simp [J.at]
  | cons s p ih =>
    cases j with
    | dict d =>
      cases s with
      | key k =>
        simp only [json, at_key, jsonPairs_eq, get?_mapv]
        cases hg : Dict.get? d k with
        | none => rfl
        | some j => simp only [Option.map_some, Option.bind_some]; exact ih j
      | idx i => simp [json, J.at]
    | list l =>
      cases s with
      | key k => simp [json, J.at]
      | idx i =>
        simp only [json, J.at, jsonList_eq, List.getElem?_map]
        cases hg : l[i]? with
        | none => rfl
        | some j => simp only [Option.map_some, Option.bind_some]; exact ih j
    | tup l =>
      cases s with
      | key k => simp [json, J.at]
      | idx i =>
        simp only [json, J.at, jsonList_eq, List.getElem?_map]
        cases hg : l[i]? with
        | none => rfl
        | some j => simp only [Option.map_some, Option.bind_some]; exact ih j
    | leaf x => cases s <;> simp [json, J.at]

theorem WF.json {j : J} (h : WF j) : WF (json j) := by
  intro p d hp
  rw [json_at] at hp
  cases hq : j.at p with
  | none => rw [hq] at hp; simp at hp
  | some k =>
    rw [hq] at hp
    cases k with
    | dict e =>
      simp only [Option.map_some, SortKeys.json, Option.some.injEq, J.dict.injEq] at hp
      rw [← hp, jsonPairs_eq, keys_mapv]
      exact h p e hq
    | list l => simp [SortKeys.json] at hp
    | tup l => simp [SortKeys.json] at hp
    | leaf x => simp [SortKeys.json] at hp

theorem written_at (j : J) (h : WF j) (p : List Step) : (written j).at p = (j.at p).map written := by
  unfold written
  rw [sortKeys_at _ h.json, json_at, Option.map_map]
  rfl

/-- **C50 (content).** For all nested data and every path: something is at the path in what is written iff there is in the data, a
scalar is the same scalar, a list or tuple is a list of the same length, and a dict is a dict with the same keys, each once. -/
theorem C50_content (j : J) (h : WF j) (p : List Step) :
    (j.at p = none ↔ (written j).at p = none) ∧
    (∀ x, j.at p = some (.leaf x) ↔ (written j).at p = some (.leaf x)) ∧
    (∀ l, (j.at p = some (.list l) ∨ j.at p = some (.tup l)) → ∃ l', (written j).at p = some (.list l') ∧ l'.length = l.length) ∧
    (∀ d, j.at p = some (.dict d) → ∃ e, (written j).at p = some (.dict e) ∧ (Dict.keys e).Perm (Dict.keys d) ∧ (Dict.keys e).Nodup) := by
  rw [written_at j h p]
  refine ⟨by simp, ?_, ?_, ?_⟩
  · intro x
    cases hq : j.at p with
    | none => simp
    | some k => cases k <;> simp [written, json, sortKeys]
  · rintro l (hq | hq)
    · rw [hq]; exact ⟨sortList (jsonList l), by simp only [Option.map_some, written, json, sortKeys], by simp [sortList_eq, jsonList_eq]⟩
    · rw [hq]; exact ⟨sortList (jsonList l), by simp only [Option.map_some, written, json, sortKeys], by simp [sortList_eq, jsonList_eq]⟩
  · intro d hq
    rw [hq]
    refine ⟨reorder (sortPairs (jsonPairs d)), by simp only [Option.map_some, written, json, sortKeys], ?_⟩
    have hk : Dict.keys (sortPairs (jsonPairs d)) = Dict.keys d := by rw [sortPairs_eq, keys_mapv, jsonPairs_eq, keys_mapv]
    have hn : (Dict.keys (sortPairs (jsonPairs d))).Nodup := by rw [hk]; exact h p d hq
    have hp := (reorder_perm hn).map Prod.fst
    have hp : (Dict.keys (reorder (sortPairs (jsonPairs d)))).Perm (Dict.keys d) := by rw [← hk]; exact hp
    exact ⟨hp, hp.nodup_iff.2 (h p d hq)⟩

/-- **C50 (order, partial).** At every path, the keys of a dict that has `neurodata_type_def` or no `name` are written as: the keys of
the fixed order, in that order, then the others as they were.  (Otherwise `name` is first: `C50_name_first`.) -/
theorem C50_order_partial (j : J) (h : WF j) (p : List Step) (d : List (String × J)) (hd : j.at p = some (.dict d))
    (hname : "neurodata_type_def" ∈ Dict.keys d ∨ "name" ∉ Dict.keys d) :
    ∃ e, (written j).at p = some (.dict e) ∧
      Dict.keys e = fixedOrder.filter (fun k => decide (k ∈ Dict.keys d)) ++ (Dict.keys d).filter (fun k => decide (k ∉ fixedOrder)) := by
  rw [written_at j h p, hd, ← order_eq]
  refine ⟨reorder (sortPairs (jsonPairs d)), by simp only [Option.map_some, written, json, sortKeys], ?_⟩
  have hk : Dict.keys (sortPairs (jsonPairs d)) = Dict.keys d := by rw [sortPairs_eq, keys_mapv, jsonPairs_eq, keys_mapv]
  have hn : (Dict.keys (sortPairs (jsonPairs d))).Nodup := by rw [hk]; exact h p d hd
  have hf := foldl_front_keys order (by decide) hn
  obtain ⟨hp, -⟩ := foldl_front_perm order.reverse hn
  rw [hk] at hf
  have hmem : ∀ k, k ∈ Dict.keys (order.reverse.foldl front (sortPairs (jsonPairs d))) ↔ k ∈ Dict.keys d := fun k => by
    rw [← hk]; exact (hp.map Prod.fst).mem_iff
  unfold reorder
  split
  · exact hf
  · rename_i hc
    have hno : "neurodata_type_def" ∉ Dict.keys d := by
      rw [Dict.has_iff, hmem] at hc; exact hc
    have hnn : "name" ∉ Dict.keys d := hname.resolve_left hno
    unfold front
    have : Dict.get? (order.reverse.foldl front (sortPairs (jsonPairs d))) "name" = none := by
      rw [Dict.get?_eq_none_iff, hmem]; exact hnn
    unfold front at this hf
    rw [this]
    exact hf

/-- **C50 (name first).** In a dict with `name` and without `neurodata_type_def`, `name` is written first, and the other keys follow
in the same order. -/
theorem C50_name_first (j : J) (h : WF j) (p : List Step) (d : List (String × J)) (hd : j.at p = some (.dict d))
    (hname : "neurodata_type_def" ∉ Dict.keys d ∧ "name" ∈ Dict.keys d) :
    ∃ e, (written j).at p = some (.dict e) ∧
      Dict.keys e = "name" :: (fixedOrder.filter (fun k => decide (k ∈ Dict.keys d)) ++ (Dict.keys d).filter (fun k => decide (k ∉ fixedOrder))).filter
        (fun k => decide (k ≠ "name")) := by
  rw [written_at j h p, hd, ← order_eq]
  refine ⟨reorder (sortPairs (jsonPairs d)), by simp only [Option.map_some, written, json, sortKeys], ?_⟩
  have hk : Dict.keys (sortPairs (jsonPairs d)) = Dict.keys d := by rw [sortPairs_eq, keys_mapv, jsonPairs_eq, keys_mapv]
  have hn : (Dict.keys (sortPairs (jsonPairs d))).Nodup := by rw [hk]; exact h p d hd
  have hf := foldl_front_keys order (by decide) hn
  obtain ⟨hp, -⟩ := foldl_front_perm order.reverse hn
  rw [hk] at hf
  have hmem : ∀ k, k ∈ Dict.keys (order.reverse.foldl front (sortPairs (jsonPairs d))) ↔ k ∈ Dict.keys d := fun k => by
    rw [← hk]; exact (hp.map Prod.fst).mem_iff
  unfold reorder
  rw [if_neg (by rw [Dict.has_iff, hmem]; exact hname.1)]
  generalize hD : order.reverse.foldl front (sortPairs (jsonPairs d)) = D at *
  unfold front
  cases hg : Dict.get? D "name" with
  | none => rw [Dict.get?_eq_none_iff, hmem] at hg; exact absurd hname.2 hg
  | some v =>
    simp only
    rw [← hf, ← Dict.keys_del]
    rfl

/-- a spec: a group type with an attribute and a nested dataset -/
def demo : J := .dict [("groups", .list []), ("zzz", .leaf 7), ("doc", .leaf 1), ("data_type_def", .leaf 2), ("attributes",
  .list [.dict [("doc", .leaf 3), ("name", .leaf 4)], .dict [("shape", .tup [.leaf 5, .leaf 6]), ("dims", .leaf 8)]])]

/-- the keys of a dict -/
def J.keysOf : J → List String
  | .dict d => Dict.keys d
  | _ => []

/-- non-vacuity -/
example : (written demo).keysOf = ["data_type_def", "doc", "attributes", "groups", "zzz"] ∧
    (((written demo).at [.key "attributes", .idx 0]).map J.keysOf) = some ["name", "doc"] ∧
    (((written demo).at [.key "attributes", .idx 1]).map J.keysOf) = some ["dims", "shape"] := by
  refine ⟨by decide +kernel, ?_, ?_⟩ <;> simp [J.at, written, json, sortKeys, demo, jsonPairs, jsonList, sortPairs, sortList] <;> decide +kernel

/-- **C50 fails** literally: with `data_type_def` and `name` present, `name` is written before `data_type_def`, against the fixed order. -/
theorem C50_order_fails : (written (.dict [("data_type_def", .leaf 1), ("name", .leaf 2)])).keysOf = ["name", "data_type_def"] ∧
    fixedOrder.idxOf "data_type_def" < fixedOrder.idxOf "name" := by decide +kernel

end Verif.SortKeys

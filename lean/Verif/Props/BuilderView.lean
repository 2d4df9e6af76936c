import Verif.Lemmas.Builders
import Verif.Model.BuilderView

/-!
# C228: the dictionary interface of a group builder
-/

namespace Verif.Builders
open Verif

/-- the keys of each sub-dictionary are different -/
def Uniq (b : Node) : Prop := b.groups.keys.Nodup ∧ b.datasets.keys.Nodup ∧ b.links.keys.Nodup ∧ b.attrs.keys.Nodup

theorem uniq_srcPar {h h' : Heap} (s : SrcPar h h') (n : Nat) (u : Uniq (h.node n)) : Uniq (h'.node n) := by
  unfold Uniq
  rw [s.groups, s.datasets, s.links, s.attrs]
  exact u

theorem uniq_step {h : Heap} (u : ∀ n, Uniq (h.node n)) (op : Op) : ∀ n, Uniq ((step h op).1.node n) := by
  unfold step
  split
  · exact u
  · cases op with
    | new name kind parent source content =>
      simp only
      split
      · exact u
      · intro m
        show Uniq (if m = h.size then _ else h.node m)
        split
        · exact ⟨List.nodup_nil, List.nodup_nil, List.nodup_nil, List.nodup_nil⟩
        · exact u m
    | setAttribute n name v =>
      simp only
      split
      · unfold setAttribute
        split
        · intro m
          simp only [upd_node]
          split
          · exact ⟨(u n).1, (u n).2.1, (u n).2.2.1, Dict.set_nodup (u n).2.2.2⟩
          · exact u m
        · exact u
      · exact u
    | setBuilder n c =>
      simp only
      split
      · rcases setBuilder_cases h n c with ⟨e, -⟩ | ⟨e, -⟩ | ⟨-, hs, -⟩
        · rw [e]; exact u
        · rw [e]; exact u
        · intro m
          refine uniq_srcPar hs m ?_
          rw [stored_node]
          split
          · obtain ⟨u1, u2, u3, u4⟩ := u n
            cases (h.node c).kind with
            | group => exact ⟨Dict.set_nodup u1, u2, u3, u4⟩
            | dataset => exact ⟨u1, Dict.set_nodup u2, u3, u4⟩
            | link => exact ⟨u1, u2, Dict.set_nodup u3, u4⟩
            | attr => exact ⟨u1, u2, u3, u4⟩
          · exact u m
      · exact u
    | setSource n s => exact fun m => uniq_srcPar (setSource_src _ _ _ _).srcPar m (u m)
    | setParent n p => exact fun m => uniq_srcPar (setParent_srcPar _ _ _) m (u m)

theorem uniq_run (ops : List Op) (h : Heap) (u : ∀ n, Uniq (h.node n)) : ∀ n, Uniq ((run h ops).node n) := by
  induction ops generalizing h with
  | nil => exact u
  | cons op ops ih => exact ih _ (uniq_step u op)

theorem mem_viewKeys {b : Node} {k : Key} : k ∈ viewKeys b ↔ ∃ c, k ∈ names b c := by
  unfold viewKeys
  simp only [List.mem_append]
  constructor
  · rintro (((h | h) | h) | h)
    · exact ⟨.group, h⟩
    · exact ⟨.dataset, h⟩
    · exact ⟨.attr, h⟩
    · exact ⟨.link, h⟩
  · rintro ⟨c, h⟩
    cases c
    · exact .inl (.inl (.inl h))
    · exact .inl (.inl (.inr h))
    · exact .inr h
    · exact .inl (.inr h)

/-- after any history, a name is in a group if and only if it is one of its keys -/
theorem C228_contains (ops : List Op) (n : Nat) (k : Key) : contains ((run Heap.empty ops).node n) k = true ↔ k ∈ viewKeys ((run Heap.empty ops).node n) := by
  have i := run_inv ops Heap.empty hinv_empty
  rw [mem_viewKeys]
  unfold contains
  rw [Dict.has_iff]
  constructor
  · intro h
    cases hg : Dict.get? ((run Heap.empty ops).node n).objType k with
    | none => exact absurd h (Dict.get?_eq_none_iff.1 hg)
    | some c => exact ⟨c, ((i.g n).type k c).1 hg⟩
  · rintro ⟨c, h⟩
    exact Dict.mem_keys_of_mem (Dict.mem_of_get? (((i.g n).type k c).2 h))

/-- after any history, the keys of a group are different, and are those of the items, whose values are the values -/
theorem C228_keys (ops : List Op) (n : Nat) : let b := (run Heap.empty ops).node n
    (viewKeys b).Nodup ∧ (items b).map (·.1) = viewKeys b ∧ (items b).map (·.2) = viewValues b := by
  intro b
  have i := run_inv ops Heap.empty hinv_empty
  have u : Uniq b := uniq_run ops Heap.empty (fun _ => ⟨List.nodup_nil, List.nodup_nil, List.nodup_nil, List.nodup_nil⟩) n
  have dis : ∀ c c' k, k ∈ names b c → k ∈ names b c' → c = c' := by
    intro c c' k h h'
    have h := ((i.g n).type k c).2 h
    rw [((i.g n).type k c').2 h'] at h
    cases h; rfl
  refine ⟨?_, ?_, ?_⟩
  · unfold viewKeys
    rw [List.nodup_append, List.nodup_append, List.nodup_append]
    refine ⟨⟨⟨u.1, u.2.1, ?_⟩, u.2.2.2, ?_⟩, u.2.2.1, ?_⟩
    · rintro k h _ h' rfl
      cases dis .group .dataset k h h'
    · rintro k h _ h' rfl
      rcases List.mem_append.1 h with h | h
      · cases dis .group .attr k h h'
      · cases dis .dataset .attr k h h'
    · rintro k h _ h' rfl
      rcases List.mem_append.1 h with h | h
      · rcases List.mem_append.1 h with h | h
        · cases dis .group .link k h h'
        · cases dis .dataset .link k h h'
      · cases dis .attr .link k h h'
  · simp [items, viewKeys, Dict.keys, Function.comp_def]
  · simp [items, viewValues, Dict.values, Function.comp_def]

/-- after any history, the lookup of a name without slashes finds exactly the items -/
theorem C228_getitem_partial (ops : List Op) (n : Nat) (a : String) (ha : a ≠ "") (x : Item) :
    getItem (run Heap.empty ops) n [a] = .ok x ↔ ([a], x) ∈ items ((run Heap.empty ops).node n) := by
  have i := run_inv ops Heap.empty hinv_empty
  have u := uniq_run ops Heap.empty (fun _ => ⟨List.nodup_nil, List.nodup_nil, List.nodup_nil, List.nodup_nil⟩) n
  rw [getItem, normpath_single a ha]
  generalize hh : run Heap.empty ops = h at *
  generalize hb : h.node n = b at *
  have ht := (i.g n).type [a]
  rw [hb] at ht
  cases x with
  | builder c =>
    rw [getRec_single i, hb]
    have : ([a], Item.builder c) ∈ items b ↔ ([a], c) ∈ b.groups ∨ ([a], c) ∈ b.datasets ∨ ([a], c) ∈ b.links := by
      simp [items, or_assoc]
    rw [this]
    constructor
    · rintro ⟨k, hk, hg⟩
      have hm := Dict.mem_of_get? hg
      cases k
      · exact .inl hm
      · exact .inr (.inl hm)
      · exact .inr (.inr hm)
      · exact (hk rfl).elim
    · rintro (hm | hm | hm)
      · exact ⟨.group, by simp, Dict.get?_of_mem u.1 hm⟩
      · exact ⟨.dataset, by simp, Dict.get?_of_mem u.2.1 hm⟩
      · exact ⟨.link, by simp, Dict.get?_of_mem u.2.2.1 hm⟩
  | attr v =>
    have : ([a], Item.attr v) ∈ items b ↔ ([a], v) ∈ b.attrs := by simp [items]
    rw [this]
    simp only [getRec, hb]
    constructor
    · intro hg
      split at hg
      · cases hg
      · split at hg
        · rename_i w hw
          cases hg
          exact Dict.mem_of_get? hw
        · cases hg
      · split at hg <;> cases hg
    · intro hm
      rw [(ht .attr).2 (Dict.mem_keys_of_mem hm)]
      simp only [Dict.get?_of_mem u.2.2.2 hm]

/-- `get` with a name gives the item of that name, or else the default -/
theorem C228_get_partial (ops : List Op) (n : Nat) (a : String) (ha : a ≠ "") (d : Item) :
    (∀ x, ([a], x) ∈ items ((run Heap.empty ops).node n) → getD (run Heap.empty ops) n [a] d = x) ∧
    ([a] ∉ viewKeys ((run Heap.empty ops).node n) → getD (run Heap.empty ops) n [a] d = d) := by
  constructor
  · intro x hx
    unfold getD
    rw [(C228_getitem_partial ops n a ha x).2 hx]
  · intro hk
    unfold getD
    cases hg : getItem (run Heap.empty ops) n [a] with
    | error e => rfl
    | ok x =>
      have hm := (C228_getitem_partial ops n a ha x).1 hg
      have hk' := (C228_keys ops n).2.1
      exact absurd (hk' ▸ List.mem_map.2 ⟨_, hm, rfl⟩) hk

/-- a history: a group with a group, a dataset and an attribute -/
def viewDemo : List Op := [.new ["root"] .group none none 0, .new ["g"] .group none none 0, .new ["d"] .dataset none none 7, .new ["e"] .dataset none none 8,
  .setBuilder 0 1, .setBuilder 0 2, .setAttribute 0 ["x"] 5, .setBuilder 1 3]

example : items ((run Heap.empty viewDemo).node 0) = [(["g"], .builder 1), (["d"], .builder 2), (["x"], .attr 5)] ∧
    getItem (run Heap.empty viewDemo) 0 ["d"] = .ok (.builder 2) ∧
    getD (run Heap.empty viewDemo) 0 ["d"] (.attr 9) = .builder 2 ∧ getD (run Heap.empty viewDemo) 0 ["q"] (.attr 9) = .attr 9 := by decide +kernel

/-- a path finds a builder, and is not in the group -/
theorem C228_path_fails : getItem (run Heap.empty viewDemo) 0 ["g", "e"] = .ok (.builder 3) ∧ contains ((run Heap.empty viewDemo).node 0) ["g", "e"] = false := by decide +kernel

/-- the length of a group and iteration over it have nothing to do with its items -/
theorem C228_len_fails : len ((run Heap.empty viewDemo).node 0) = 4 ∧ (items ((run Heap.empty viewDemo).node 0)).length = 3 ∧
    iter ((run Heap.empty viewDemo).node 0) ≠ viewKeys ((run Heap.empty viewDemo).node 0) ∧
    (iter ((run Heap.empty viewDemo).node 0)).all (fun k => !contains ((run Heap.empty viewDemo).node 0) k) = true := by decide +kernel


/-- an attribute whose name has a slash is among the keys and cannot be looked up -/
theorem C228_slash_fails : let h := run Heap.empty (viewDemo ++ [.setAttribute 0 ["a", "b"] 6])
    contains (h.node 0) ["a", "b"] = true ∧ getItem h 0 ["a", "b"] = .error .keyError := by decide +kernel

end Verif.Builders

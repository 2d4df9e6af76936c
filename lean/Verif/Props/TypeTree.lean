import Verif.Lemmas.TypeTree

/-!
# C216: the tree of all types
-/

namespace Verif.TypeTree
open Verif Verif.Catalog

namespace Ex

/-- a catalog with two trees of types -/
def demo : List Op := [.register ⟨none, some "A", 0⟩ none, .register ⟨some "A", some "C", 1⟩ none, .register ⟨some "A", some "B", 2⟩ none,
  .register ⟨some "B", some "D", 3⟩ none, .register ⟨none, some "Z", 4⟩ none]

/-- the paths of a tree up to a length of three -/
def paths (t : Tree) : List (List String) :=
  t.kids.flatMap fun x => [x.1] :: x.2.kids.flatMap fun y => [x.1, y.1] :: y.2.kids.map fun z => [x.1, y.1, z.1]

end Ex

/-- after any such history the tree can be computed: a path is in it if and only if it is, read backwards, the hierarchy of a type, and begins with a registered type
without a parent; the types at each level are sorted -/
theorem C216_tree (ops : List Op) (c : Cat) (seen : List String) (h : runFresh {} [] ops = some (c, seen)) :
    ∃ tree, fullHier c = .ok tree ∧
      (∀ r path, (sub tree (r :: path)).isSome = true ↔ (∃ sp, getSpec c r = some sp ∧ sp.inc = none) ∧ ∃ t, (getHierarchy c t).2 = some (r :: path).reverse) ∧
      ∀ path node, sub tree path = some node → (Dict.keys node.kids).Pairwise (· ≤ ·) := by
  have i := runFresh_coherent ops {} [] coherent_empty c seen h
  have hroot : ∀ r, isRoot c r = true ↔ ∃ sp, getSpec c r = some sp ∧ sp.inc = none := by
    intro r
    unfold isRoot
    cases hg : getSpec c r with
    | none => simp
    | some sp => simp
  have hchain : ∀ r, isRoot c r = true → Chain (parentOf c) r [r] := by
    intro r hr
    obtain ⟨sp, h1, h2⟩ := (hroot r).1 hr
    refine .root ?_
    simp [parentOf, h1, h2]
  have hsub : ∀ r : String, ∃ tree : Tree, isRoot c r = true → typeHier c (c.specs.length + 1) r = .ok tree ∧
      (∀ path, (sub tree path).isSome = true ↔ ∃ u, Chain (parentOf c) u (path.reverse ++ [r])) ∧
      ∀ path node, sub tree path = some node → (Dict.keys node.kids).Pairwise (· ≤ ·) := by
    intro r
    by_cases hr : isRoot c r = true
    · obtain ⟨sp, h1, _⟩ := (hroot r).1 hr
      obtain ⟨tree, ht⟩ := typeHier_ok i (c.specs.length + 1) r [r] (hchain r hr) (by rw [h1]; rfl) (by simp)
      exact ⟨tree, fun _ => ht⟩
    · exact ⟨.node [], fun h => absurd h hr⟩
  choose f hf using hsub
  have hnod : ((Namespace.sorted (types c)).filter (isRoot c)).Nodup := (SpecCache.sorted_perm.nodup_iff.2 i.nodup).sublist List.filter_sublist
  have hloop := kidsLoop_ok (typeHier c (c.specs.length + 1)) f ((Namespace.sorted (types c)).filter (isRoot c)) []
    (fun x hx => (hf x (List.mem_filter.1 hx).2).1) hnod (fun x _ h => by cases h)
  rw [List.nil_append] at hloop
  have hmem : ∀ r, r ∈ (Namespace.sorted (types c)).filter (isRoot c) ↔ isRoot c r = true := by
    intro r
    rw [List.mem_filter, Namespace.mem_sorted]
    refine ⟨fun h => h.2, fun h => ⟨?_, h⟩⟩
    obtain ⟨sp, h1, _⟩ := (hroot r).1 h
    exact Dict.has_iff.1 (by unfold Dict.has; rw [show Dict.get? c.specs r = some sp from h1]; rfl)
  refine ⟨.node (((Namespace.sorted (types c)).filter (isRoot c)).map fun x => (x, f x)), ?_, fun r path => ?_, fun path node hnode => ?_⟩
  · unfold fullHier
    rw [rootLoop_eq, hloop]
  · rw [← hroot]
    unfold sub Tree.kids
    simp only [get?_map, hmem]
    by_cases hr : isRoot c r = true
    · simp only [hr, if_true, true_and]
      rw [(hf r hr).2.1 path, List.reverse_cons]
      constructor
      · rintro ⟨u, hu⟩; exact ⟨u, ((getHierarchy_coherent i u).1 _).2 hu⟩
      · rintro ⟨u, hu⟩; exact ⟨u, ((getHierarchy_coherent i u).1 _).1 hu⟩
    · simp [hr]
  · cases path with
    | nil =>
      cases hnode
      show (Dict.keys (((Namespace.sorted (types c)).filter (isRoot c)).map fun x => (x, f x))).Pairwise (· ≤ ·)
      rw [keys_map]
      exact SpecCache.sorted_pairwise.sublist List.filter_sublist
    | cons k ks =>
      unfold sub Tree.kids at hnode
      simp only [get?_map, hmem] at hnode
      by_cases hk : isRoot c k = true
      · rw [if_pos hk] at hnode
        exact (hf k hk).2.2 ks node hnode
      · rw [if_neg hk] at hnode
        cases hnode

example : (runFresh {} [] Ex.demo).map (fun r => match fullHier r.1 with
    | .error _ => []
    | .ok t => Ex.paths t) = some [["A"], ["A", "B"], ["A", "B", "D"], ["A", "C"], ["Z"]] := by decide +kernel

/-- a type whose hierarchy ends with a registered type without a parent is in the tree, at one place only, below its ancestors -/
theorem C216_each_partial (ops : List Op) (c : Cat) (seen : List String) (h : runFresh {} [] ops = some (c, seen)) (t r : String) (l : List String)
    (hl : (getHierarchy c t).2 = some (l ++ [r])) (hr : ∃ sp, getSpec c r = some sp ∧ sp.inc = none) (tree : Tree) (ht : fullHier c = .ok tree) :
    (sub tree (r :: l.reverse)).isSome = true ∧ (r :: l.reverse).getLast? = some t ∧
    ∀ path, (sub tree path).isSome = true → path.getLast? = some t → path = r :: l.reverse := by
  have i := runFresh_coherent ops {} [] coherent_empty c seen h
  obtain ⟨tree', h1, h2, _⟩ := C216_tree ops c seen h
  rw [ht] at h1
  cases h1
  have hlast : ∀ (u : String) (p : List String), (getHierarchy c u).2 = some p.reverse → p.getLast? = some u := by
    intro u p hu
    obtain ⟨l', hl'⟩ := (((getHierarchy_coherent i u).1 _).1 hu).head
    rw [← List.head?_reverse, hl']
    rfl
  have hrev : (r :: l.reverse).reverse = l ++ [r] := by simp
  refine ⟨(h2 _ _).2 ⟨hr, t, by rw [hrev]; exact hl⟩, hlast t _ (by rw [hrev]; exact hl), fun path hp hpl => ?_⟩
  cases path with
  | nil => cases hpl
  | cons r' p' =>
    obtain ⟨_, u, hu⟩ := (h2 _ _).1 hp
    have := hlast u _ hu
    rw [hpl] at this
    cases this
    rw [hl] at hu
    injection hu with hu
    rw [← hrev] at hu
    exact (List.reverse_injective hu).symm

example : (runFresh {} [] Ex.demo).map (fun r => (getHierarchy r.1 "D").2) = some (some (["D", "B"] ++ ["A"])) := by decide +kernel

/-- a type whose parent is not registered is left out, and what extends it -/
theorem C216_missing_fails : ∃ c seen tree, runFresh {} [] [.register ⟨none, some "A", 0⟩ none, .register ⟨some "Other", some "B", 1⟩ none, .register ⟨some "B", some "C", 2⟩ none] =
    some (c, seen) ∧ types c = ["A", "B", "C"] ∧ fullHier c = .ok tree ∧ Ex.paths tree = [["A"]] := by
  refine ⟨_, _, _, rfl, by decide +kernel, rfl, by decide +kernel⟩

/-- a type that includes itself is left out, and what extends it -/
theorem C216_self_fails : ∃ c seen tree, runFresh {} [] [.register ⟨some "A", some "A", 0⟩ none, .register ⟨some "A", some "B", 1⟩ none] =
    some (c, seen) ∧ types c = ["A", "B"] ∧ (getHierarchy c "B").2 = some ["B", "A"] ∧ fullHier c = .ok tree ∧ Ex.paths tree = [] := by
  refine ⟨_, _, _, rfl, by decide +kernel, by decide +kernel, rfl, by decide +kernel⟩

/-- types in a cycle are left out; this function ends though `get_hierarchy` does not -/
theorem C216_cycle_fails : ∃ c seen tree, runFresh {} [] [.register ⟨some "B", some "A", 0⟩ none, .register ⟨some "A", some "B", 1⟩ none] =
    some (c, seen) ∧ types c = ["A", "B"] ∧ (getHierarchy c "B").2 = none ∧ fullHier c = .ok tree ∧ Ex.paths tree = [] := by
  refine ⟨_, _, _, rfl, by decide +kernel, by decide +kernel, rfl, by decide +kernel⟩

end Verif.TypeTree

import Verif.Model.TypeTree
import Verif.Lemmas.Catalog
import Verif.Lemmas.SpecCache

/-!
# Lemmas on the tree of types
-/

namespace Verif.TypeTree
open Verif Verif.Catalog

theorem kidsLoop_ok (rec : String → Except Err Tree) (f : String → Tree) : ∀ (l : List String) (d : Dict String Tree),
    (∀ x ∈ l, rec x = .ok (f x)) → l.Nodup → (∀ x ∈ l, x ∉ Dict.keys d) → kidsLoop rec d l = .ok (d ++ l.map fun x => (x, f x))
  | [], d, _, _, _ => by simp [kidsLoop]
  | x :: xs, d, hr, hn, hd => by
    rw [List.nodup_cons] at hn
    unfold kidsLoop
    rw [hr x (List.mem_cons_self ..)]
    simp only
    rw [Dict.set_of_not_mem (hd x (List.mem_cons_self ..)),
      kidsLoop_ok rec f xs _ (fun y hy => hr y (List.mem_cons_of_mem _ hy)) hn.2 (fun y hy hk => ?_)]
    · simp
    · unfold Dict.keys at hk
      rw [List.map_append, List.mem_append] at hk
      rcases hk with hk | hk
      · exact hd y (List.mem_cons_of_mem _ hy) hk
      · simp only [List.map_cons, List.map_nil, List.mem_singleton] at hk
        subst hk
        exact hn.1 hy

theorem get?_map {α : Type} (f : String → α) {k : String} : ∀ {l : List String}, Dict.get? (l.map fun x => (x, f x)) k = if k ∈ l then some (f k) else none
  | [] => by simp [Dict.get?]
  | x :: xs => by
    rw [List.map_cons]
    unfold Dict.get?
    by_cases h : x = k
    · subst h; simp
    · rw [if_neg h, get?_map f]
      simp only [List.mem_cons, Ne.symm h, false_or]

theorem keys_map {α : Type} (f : String → α) (l : List String) : Dict.keys (l.map fun x => (x, f x)) = l := by
  unfold Dict.keys
  rw [List.map_map]
  exact List.map_id _

theorem chain_suffix {par : String → Option String} {b : String} {l : List String} : ∀ {a : List String} {u : String}, Chain par u (a ++ b :: l) → Chain par b (b :: l)
  | [], u, h => by
    have := h.head
    obtain ⟨l', hl⟩ := this
    simp only [List.nil_append, List.cons.injEq] at hl
    obtain ⟨rfl, _⟩ := hl
    exact h
  | x :: a, u, h => by
    cases ha : a with
    | nil =>
      rw [ha] at h
      cases h with
      | step h0 h1 => exact chain_suffix (a := []) h1
    | cons y a' =>
      rw [ha] at h
      cases h with
      | step h0 h1 => exact chain_suffix (a := y :: a') h1

theorem chain_cons {par : String → Option String} {k t : String} {lt : List String} (h : Chain par k (k :: lt)) (ht : Chain par t lt) : par k = some t := by
  cases h with
  | root h0 => cases ht
  | step h0 h1 =>
    obtain ⟨l1, e1⟩ := h1.head
    obtain ⟨l2, e2⟩ := ht.head
    rw [e1] at e2
    simp only [List.cons.injEq] at e2
    rw [h0, e2.1]

/-- the direct subtypes -/
theorem direct {c : Cat} {seen : List String} (i : Coherent c seen) {t : String} (ht : (getSpec c t).isSome) :
    ∃ l, getSubtypes c false t = .ok l ∧ l.Nodup ∧ ∀ u, u ∈ l ↔ parentOf c u = some t := by
  obtain ⟨sp, hsp⟩ := Option.isSome_iff_exists.1 ht
  obtain ⟨l, h1, h2⟩ := subLoop_ok (subtypesN c true c.specs.length) false t (fun _ => []) c.specs (by simp)
  simp only [getSubtypes, subtypesN, h1, Except.map, hsp]
  refine ⟨_, rfl, nodup_eraseDups _, fun u => ?_⟩
  rw [mem_eraseDups, h2, ← mem_specs_iff i]
  simp

theorem typeHier_ok {c : Cat} {seen : List String} (i : Coherent c seen) : ∀ (n : Nat) (t : String) (lt : List String),
    Chain (parentOf c) t lt → (getSpec c t).isSome → c.specs.length + 2 ≤ n + lt.length →
    ∃ tree, typeHier c n t = .ok tree ∧ (∀ path, (sub tree path).isSome = true ↔ ∃ u, Chain (parentOf c) u (path.reverse ++ lt)) ∧
      ∀ path node, sub tree path = some node → (Dict.keys node.kids).Pairwise (· ≤ ·) := by
  intro n
  induction n with
  | zero =>
    intro t lt hlt hreg hn
    have h1 : lt.dropLast.Nodup := hlt.nodup.sublist (List.dropLast_sublist lt)
    have h2 : ∀ x ∈ lt.dropLast, x ∈ c.specs.keys := by
      intro x hx
      obtain ⟨p, hp, -⟩ := hlt.dropLast x hx
      rw [← Dict.has_iff]
      exact registered_of_parent hp
    have := (List.subperm_of_subset h1 h2).length_le
    simp only [List.length_dropLast, Dict.keys, List.length_map] at this
    omega
  | succ n ih =>
    intro t lt hlt hreg hn
    obtain ⟨l, hl1, hl2, hl3⟩ := direct i hreg
    have hchild : ∀ p : String, ∃ tree : Tree, parentOf c p = some t → typeHier c n p = .ok tree ∧
        (∀ path, (sub tree path).isSome = true ↔ ∃ u, Chain (parentOf c) u (path.reverse ++ (p :: lt))) ∧
        ∀ path node, sub tree path = some node → (Dict.keys node.kids).Pairwise (· ≤ ·) := by
      intro p
      by_cases hp : parentOf c p = some t
      · obtain ⟨tree, h⟩ := ih p (p :: lt) (.step hp hlt) (registered_of_parent hp) (by simp only [List.length_cons]; omega)
        exact ⟨tree, fun _ => h⟩
      · exact ⟨.node [], fun h => absurd h hp⟩
    choose f hf using hchild
    have hnod : (Namespace.sorted l).Nodup := SpecCache.sorted_perm.nodup_iff.2 hl2
    have hloop := kidsLoop_ok (typeHier c n) f (Namespace.sorted l) []
      (fun x hx => (hf x ((hl3 x).1 (Namespace.mem_sorted.1 hx))).1) hnod (fun x _ h => by cases h)
    rw [List.nil_append] at hloop
    refine ⟨.node ((Namespace.sorted l).map fun x => (x, f x)), ?_, fun path => ?_, fun path node hnode => ?_⟩
    · unfold typeHier
      simp only [hl1, hloop]
    · cases path with
      | nil => simp only [sub, Option.isSome_some, List.reverse_nil, List.nil_append, true_iff]; exact ⟨t, hlt⟩
      | cons k ks =>
        rw [List.reverse_cons, List.append_assoc, List.singleton_append]
        unfold sub Tree.kids
        simp only [get?_map]
        by_cases hk : k ∈ Namespace.sorted l
        · rw [if_pos hk]
          exact (hf k ((hl3 k).1 (Namespace.mem_sorted.1 hk))).2.1 ks
        · rw [if_neg hk]
          simp only [Option.isSome_none, Bool.false_eq_true, false_iff]
          rintro ⟨u, hu⟩
          exact hk (Namespace.mem_sorted.2 ((hl3 k).2 (chain_cons (chain_suffix hu) hlt)))
    · cases path with
      | nil =>
        cases hnode
        show (Dict.keys ((Namespace.sorted l).map fun x => (x, f x))).Pairwise (· ≤ ·)
        rw [keys_map]
        exact SpecCache.sorted_pairwise
      | cons k ks =>
        unfold sub Tree.kids at hnode
        simp only [get?_map] at hnode
        by_cases hk : k ∈ Namespace.sorted l
        · rw [if_pos hk] at hnode
          exact (hf k ((hl3 k).1 (Namespace.mem_sorted.1 hk))).2.2 ks node hnode
        · rw [if_neg hk] at hnode
          cases hnode

/-- is a type registered without a parent -/
def isRoot (c : Cat) (t : String) : Bool := match getSpec c t with
  | none => false
  | some sp => sp.inc.isNone

theorem rootLoop_eq (c : Cat) : ∀ (l : List String) (d : Dict String Tree), rootLoop c d l = kidsLoop (typeHier c (c.specs.length + 1)) d (l.filter (isRoot c))
  | [], _ => rfl
  | t :: ts, d => by
    unfold rootLoop
    rw [List.filter_cons]
    cases hg : getSpec c t with
    | none =>
      have : isRoot c t = false := by simp [isRoot, hg]
      simp only [this, Bool.false_eq_true, if_false]
      exact rootLoop_eq c ts d
    | some sp =>
      cases hi : sp.inc with
      | some p =>
        have : isRoot c t = false := by simp [isRoot, hg, hi]
        simp only [this, hi, Bool.false_eq_true, if_false]
        exact rootLoop_eq c ts d
      | none =>
        have : isRoot c t = true := by simp [isRoot, hg, hi]
        simp only [this, hi, if_true]
        unfold kidsLoop
        split
        · rfl
        · exact rootLoop_eq c ts _

end Verif.TypeTree

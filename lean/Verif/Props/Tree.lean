import Verif.Lemmas.Tree

/-!
# Properties of the container tree
-/

namespace Verif.Tree
open Verif Relation

/-- **C24.** After any history of operations, accepted or rejected, on objects compared by identity: a Container lists `x`
among its children iff `x.parent` is that Container; a `Data` object only lists objects whose parent it is; no child is
listed twice. -/
theorem C24_agree_partial (ops : List Op) (h : ∀ op ∈ ops, op.plain) (c x : Nat) :
    let w := run World.empty ops
    (x ∈ (w.node c).children → (w.node x).parent = .cont c) ∧
    ((w.node c).isCont = true → (w.node x).parent = .cont c → x ∈ (w.node c).children) ∧
    (w.node c).children.Nodup := by
  have hi := run_inv ops World.empty inv_empty h
  exact ⟨hi.lists c x, hi.listed c x, hi.nodup c⟩

/-- non-vacuity: attach, refused reassignment, detach, attach elsewhere -/
example : let w := run World.empty [.new true 1 none, .new true 2 none, .new false 3 none, .setParent 2 (.cont 0),
      .setParent 2 (.cont 1), .setField 0 1, .resetParent 2, .setParent 2 (.proxy 7 [1]), .setParent 2 (.cont 1)]
    (w.node 0).children = [1] ∧ (w.node 1).children = [2] ∧ (w.node 2).parent = .cont 1 := by decide

/-- **C24 fails** for `Data` parents: `x.parent = data` is accepted, but `data` does not list `x`, so that `reset_parent`
raises. -/
theorem C24_data_parent_fails : ∃ ops w, runOk World.empty ops = some w ∧ (w.node 1).parent = .cont 0 ∧
    (w.node 0).children = [] ∧ (resetParent w 1).2 = .error .valueError :=
  ⟨[.new false 0 none, .new true 0 none, .setParent 1 (.cont 0)], _, rfl, by decide, by decide, by decide⟩

/-- **C24 fails** for children compared by content (`DynamicTable`): removing one of two equal children detaches it but
takes the other one off the list of children. -/
theorem C24_equal_children_fails : ∃ ops w, runOk World.empty ops = some w ∧ (w.node 0).children = [2] ∧
    (w.node 2).parent = .none ∧ (w.node 1).parent = .cont 0 :=
  ⟨[.new true 0 none, .new true 1 (some 5), .new true 1 (some 5), .setParent 1 (.cont 0), .setParent 2 (.cont 0),
    .resetParent 2], _, rfl, by decide, by decide, by decide⟩

/-- **C25.** After any history in which no call raised and only Containers were used as parents, no object is its own
ancestor. -/
theorem C25_acyclic_partial (ops : List Op) (w : World) (h : runOk World.empty ops = some w)
    (hp : ∀ op ∈ ops, ∀ c, op.newParent = some c → (w.node c).isCont = true) (n : Nat) :
    ¬ TransGen (fun a b => (w.node a).parent = .cont b) n n :=
  (runOk_ainv ops World.empty w h ainv_empty hp).1.acyclic n

/-- non-vacuity -/
example : (runOk World.empty [.new true 0 none, .new true 0 none, .new true 0 none, .setParent 1 (.cont 0),
    .setParent 2 (.cont 1)]).map (fun w => ((w.node 2).parent, (w.node 1).parent)) = some (.cont 1, .cont 0) := by decide

/-- **C25 fails** if a raised error is ignored: making a container the parent of its own parent raises RecursionError, but
only after the cycle exists. -/
theorem C25_cycle_after_error_fails : ∃ ops, let w := run World.empty ops
    (w.node 0).parent = .cont 1 ∧ (w.node 1).parent = .cont 0 ∧ (step w (.setModified 0 true)).2 = .error .runtimeError :=
  ⟨[.new true 0 none, .new true 0 none, .setParent 0 (.cont 1), .setParent 1 (.cont 0)], by decide⟩

/-- **C25 fails** with a `Data` parent: a cycle comes about without any error, and `get_ancestors` does not terminate. -/
theorem C25_data_parent_fails : ∃ ops w, runOk World.empty ops = some w ∧ (w.node 0).parent = .cont 1 ∧
    (w.node 1).parent = .cont 0 ∧ getAncestors w 0 = .error .runtimeError :=
  ⟨[.new true 0 none, .new false 0 none, .setParent 0 (.cont 1), .setParent 1 (.cont 0)], _, rfl, by decide, by decide,
    by decide⟩

/-- **C26 (exactness).** When `set_modified()` returns, exactly the objects marked before, the object itself and its
chain of Container parents are marked; parents and children are as before. -/
theorem C26_marks (w w' : World) (x : Nat) (h : setModified w x true = (w', .ok ())) :
    (∀ y, (w'.node y).modified = true ↔ (w.node y).modified = true ∨
      ReflTransGen (fun a b => (w.node a).parent = .cont b ∧ (w.node b).isCont = true) x y) ∧
    (∀ y, (w'.node y).parent = (w.node y).parent ∧ (w'.node y).children = (w.node y).children) := by
  have h' : markUp w.size w x = (w', .ok ()) := by simpa [setModified] using h
  have e : UpC w = fun a b => (w.node a).parent = .cont b ∧ (w.node b).isCont = true := by
    funext a b; exact propext upC_iff
  have hs := setModified_same w x true
  rw [h] at hs
  refine ⟨fun y => ?_, fun y => ⟨hs.parent y, hs.children y⟩⟩
  rw [← e]
  exact markUp_marks _ _ _ _ h' y

/-- **C26 (success).** After any history in which no call raised and only Containers were used as parents, `set_modified()`
of an existing object returns and marks all its ancestors. -/
theorem C26_all_ancestors (ops : List Op) (w : World) (h : runOk World.empty ops = some w)
    (hp : ∀ op ∈ ops, ∀ c, op.newParent = some c → (w.node c).isCont = true) (x : Nat) (hx : x < w.size) :
    ∃ w', setModified w x true = (w', .ok ()) ∧
      ∀ y, (w'.node y).modified = true ↔ (w.node y).modified = true ∨
        ReflTransGen (fun a b => (w.node a).parent = .cont b) x y := by
  have hi := (runOk_ainv ops World.empty w h ainv_empty hp).1
  have hu := AInv.upC hi.contPar
  obtain ⟨w', hw'⟩ := markUp_ok hx hi.parLt (by rw [hu]; exact hi.acyclic)
  refine ⟨w', by simpa [setModified] using hw', ?_⟩
  intro y
  have := markUp_marks _ _ _ _ hw' y
  rwa [hu] at this

/-- **C26 (clearing).** `set_modified(False)` clears the mark of the object and changes nothing else. -/
theorem C26_clear (w : World) (x : Nat) : ∃ w', setModified w x false = (w', .ok ()) ∧
    (w'.node x).modified = false ∧ ∀ y, y ≠ x → w'.node y = w.node y := by
  refine ⟨_, rfl, by simp, ?_⟩
  intro y hy; simp [hy]

/-- **C26 (attaching).** A successful assignment of a Container as parent of an object that had none marks the parent and
all Containers above it. -/
theorem C26_attach_marks (w w' : World) (x c : Nat) (hx : (w.node x).parent = .none) (hc : (w.node c).isCont = true)
    (h : setParent w x (.cont c) = (w', .ok ())) :
    ∀ y, ReflTransGen (fun a b => (w'.node a).parent = .cont b ∧ (w'.node b).isCont = true) c y →
      (w'.node y).modified = true := by
  have h1 : attach w x c = (w', .ok ()) := by
    unfold setParent at h
    rw [if_neg (by rw [hx]; simp)] at h
    simpa [hx, hc] using h
  have h2 : markUp (attached w x c).size (attached w x c) c = (w', .ok ()) := h1
  have hs : SameTree (attached w x c) w' := by have := attach_same w x c; rwa [h1] at this
  intro y hy
  have e : UpC w' = fun a b => (w'.node a).parent = .cont b ∧ (w'.node b).isCont = true := by
    funext a b; exact propext upC_iff
  rw [← e, hs.upC] at hy
  exact (markUp_marks _ _ _ _ h2 y).2 (.inr hy)

/-- non-vacuity: marking the grandchild marks the two containers above but not the sibling -/
example : (runOk World.empty [.new true 0 none, .new true 0 none, .new true 0 none, .new true 0 none,
    .setParent 1 (.cont 0), .setParent 2 (.cont 1), .setParent 3 (.cont 0), .setModified 0 false, .setModified 1 false,
    .setModified 2 false, .setModified 3 false, .setModified 2 true]).map
      (fun w => [0, 1, 2, 3].map fun i => (w.node i).modified) = some [true, true, true, false] := by decide

/-- **C27.** After any history in which no call raised and only Containers (compared by identity) were used as parents,
`all_children` of an existing object returns a list without repetition of exactly the object and its descendants (the
objects it is an ancestor of), starting with the object itself. -/
theorem C27_all_children (ops : List Op) (w : World) (h : runOk World.empty ops = some w) (hpl : ∀ op ∈ ops, op.plain)
    (hp : ∀ op ∈ ops, ∀ c, op.newParent = some c → (w.node c).isCont = true) (n : Nat) (hn : n < w.size) :
    ∃ l, allChildren w n = .ok l ∧ l.Nodup ∧ l.head? = some n ∧
      ∀ y, y ∈ l ↔ ReflTransGen (fun a b => (w.node a).parent = .cont b) y n := by
  have hi := run_inv ops World.empty inv_empty hpl
  rw [runOk_run ops _ _ h] at hi
  have ha := (runOk_ainv ops World.empty w h ainv_empty hp).1
  have hlt : ∀ c x, x ∈ (w.node c).children → x < w.size := by
    intro c x hx
    by_contra hc
    have := hi.lists c x hx
    rw [(hi.fresh x (by omega)).1] at this; simp at this
  -- the first step is taken by hand so that the root is already in the result
  obtain ⟨k, hk⟩ : ∃ k, w.size = k + 1 := ⟨w.size - 1, by omega⟩
  have hroot : ∀ y ∈ (w.node n).children, y ≠ n := by
    intro y hy e
    subst e
    exact ha.acyclic y (.single (hi.lists y y hy))
  obtain ⟨l, l1, l2, l3, l4, l5, l6, l7⟩ := allLoop_spec hi.lists hi.nodup hlt ha.acyclic n k
    ((w.node n).children.reverse ++ []) ([] ++ [n])
    (by
      simp only [List.nil_append, List.append_nil, List.cons_append, List.nodup_cons, List.mem_reverse, List.nodup_reverse]
      exact ⟨fun hm => hroot n hm rfl, hi.nodup n⟩)
    (by
      intro y hy
      simp only [List.nil_append, List.append_nil, List.cons_append, List.mem_cons, List.mem_reverse] at hy
      rcases hy with rfl | hy
      · exact hn
      · exact hlt n y hy)
    (by simp; omega)
    (by
      intro y hy
      simp only [List.nil_append, List.append_nil, List.cons_append, List.mem_cons, List.mem_reverse] at hy
      rcases hy with rfl | hy
      · exact .refl
      · exact .single hy)
    (by
      intro y hy
      simp only [List.nil_append, List.append_nil, List.cons_append, List.mem_cons, List.mem_reverse] at hy
      rcases hy with rfl | hy
      · exact .inl rfl
      · exact .inr ⟨n, by simp, hi.lists n y hy⟩)
    (by
      intro p hp y hy
      simp only [List.nil_append, List.mem_singleton] at hp
      subst hp
      simp [hy])
  have hln : n ∈ l := l3.subset (by simp)
  refine ⟨l, ?_, l2, ?_, ?_⟩
  · unfold allChildren
    rw [hk]
    exact l1
  · obtain ⟨t, rfl⟩ := l3
    simp
  · intro y
    constructor
    · intro hy
      have := l6 y hy
      clear hy
      induction this with
      | refl => exact .refl
      | tail _ h2 ih => exact ReflTransGen.head (hi.lists _ _ h2) ih
    · intro hy
      induction hy using ReflTransGen.head_induction_on with
      | refl => exact hln
      | head h1 _ ih => exact l7 _ ih _ (hi.listed _ _ (ha.contPar _ _ h1) h1)

/-- non-vacuity -/
example : (runOk World.empty [.new true 0 none, .new true 0 none, .new true 0 none, .new true 0 none,
    .setParent 1 (.cont 0), .setParent 2 (.cont 1), .setParent 3 (.cont 0)]).map (fun w => allChildren w 0) =
      some (.ok [0, 3, 1, 2]) := by decide

/-- **C71 (get_ancestors).** When `get_ancestors` returns, it returns exactly the ancestors of the object, each before its
own ancestors. -/
theorem C71_ancestors (w : World) (x : Nat) (l : List Nat) (h : getAncestors w x = .ok l) :
    (∀ y, y ∈ l ↔ TransGen (fun a b => (w.node a).parent = .cont b) x y) ∧
      l.Pairwise (TransGen fun a b => (w.node a).parent = .cont b) :=
  ancestorsFrom_spec w _ x l h

/-- **C71 (termination).** After any history in which no call raised and only Containers were used as parents, `get_ancestors`
returns for every object, unless an unresolved proxy is found on the way. -/
theorem C71_returns (ops : List Op) (w : World) (h : runOk World.empty ops = some w)
    (hp : ∀ op ∈ ops, ∀ c, op.newParent = some c → (w.node c).isCont = true) (x : Nat)
    (hx : ∀ y, ReflTransGen (fun a b => (w.node a).parent = .cont b) x y → ∀ i ms, (w.node y).parent ≠ .proxy i ms) :
    ∃ l, getAncestors w x = .ok l ∧ l.Nodup := by
  have hi := (runOk_ainv ops World.empty w h ainv_empty hp).1
  have hnd : ∀ l : List Nat, l.Pairwise (TransGen (Up w)) → l.Nodup := fun l hl =>
    List.Pairwise.imp (fun {a b} (h : TransGen (Up w) a b) (e : a = b) => hi.acyclic b (e ▸ h)) hl
  cases hg : getAncestors w x with
  | ok l => exact ⟨l, rfl, hnd l (ancestorsFrom_spec w _ x l hg).2⟩
  | error e =>
    exfalso
    rcases ancestorsFrom_error w _ x e hg with ⟨y, i, ms, h1, h2⟩ | ⟨l, h1, h2, h3⟩
    · exact hx y h1 i ms h2
    · have hlt : ∀ y ∈ l, y < w.size := by
        intro y hy
        rcases TransGen.tail'_iff.1 (h3 y hy) with ⟨b, -, hb⟩
        exact hi.parLt b y hb
      have := length_le_of_lt (hnd l h2) hlt
      omega

/-- **C71 (get_ancestor).** Whenever `get_ancestors` returns, `get_ancestor(t)` is the first of these with data type `t`. -/
theorem C71_nearest (w : World) (x t : Nat) (l : List Nat) (h : getAncestors w x = .ok l) :
    getAncestor w x t = .ok (l.find? fun y => decide ((w.node y).dtype = t)) :=
  ancestorFrom_eq w t _ _ l h

/-- non-vacuity -/
example : (runOk World.empty [.new true 5 none, .new true 6 none, .new true 5 none, .new true 8 none,
    .setParent 1 (.cont 0), .setParent 2 (.cont 1), .setParent 3 (.cont 2)]).map
      (fun w => (getAncestors w 3, getAncestor w 3 5, getAncestor w 3 6, getAncestor w 3 8)) =
      some (.ok [2, 1, 0], .ok (some 2), .ok (some 1), .ok none) := by decide

end Verif.Tree

import Verif.Model.ReadIo
import Verif.Props.Tree

/-!
# Theorems about the I/O object that a container was read with (C234)
-/

namespace Verif.ReadIo
open Verif Verif.Tree

theorem step_keeps (s : State) (op : Op) (x v : Nat) (h : s.io x = some v) : (step s op).1.io x = some v := by
  cases op with
  | tree op => exact h
  | setIo y u =>
    unfold step
    simp only
    split
    · exact h
    · cases u with
      | other => exact h
      | io u =>
        simp only [setIo]
        split
        · exact h
        · rename_i hn
          show (if x = y then some u else s.io x) = some v
          split
          · rename_i e
            subst e
            rw [h] at hn
            by_cases hu : u = v
            · rw [hu]
            · exact absurd ⟨by simp, fun e => hu (Option.some.inj e).symm⟩ hn
          · exact h

/-- the I/O object of a container never changes, whatever is done with it; an assignment succeeds if and only if the value is an I/O object and the container has none or
this one, and then it has this one -/
theorem C234_once (s : State) (ops : List Op) (x : Nat) :
    (∀ v, s.io x = some v → (run s ops).io x = some v) ∧
    (∀ u, (setIo s x u).2 = .ok () ↔ ∃ v, u = .io v ∧ (s.io x = none ∨ s.io x = some v)) ∧
    (∀ u, (setIo s x u).2 = .ok () → ∃ v, u = .io v ∧ (setIo s x u).1.io x = some v ∧ (∀ y, y ≠ x → (setIo s x u).1.io y = s.io y)) ∧
    (∀ u, (setIo s x u).2 ≠ .ok () → (setIo s x u).1 = s) := by
  refine ⟨?_, ?_, ?_, ?_⟩
  · intro v
    induction ops generalizing s with
    | nil => exact id
    | cons op ops ih => exact fun h => ih _ (step_keeps s op x v h)
  · intro u
    cases u with
    | other => exact ⟨(fun h => nomatch h), (fun ⟨v, h, _⟩ => nomatch h)⟩
    | io v =>
      simp only [setIo]
      split
      · rename_i h
        refine ⟨(fun h => nomatch h), ?_⟩
        rintro ⟨w, e, h'⟩
        cases e
        rcases h' with h' | h'
        · exact absurd h' h.1
        · exact absurd h' h.2
      · rename_i h
        refine ⟨fun _ => ⟨v, rfl, ?_⟩, fun _ => rfl⟩
        by_cases hn : s.io x = none
        · exact .inl hn
        · exact .inr (Classical.byContradiction fun h' => h ⟨hn, h'⟩)
  · intro u hu
    cases u with
    | other => cases hu
    | io v =>
      simp only [setIo] at hu ⊢
      split at hu
      · cases hu
      · rename_i h
        rw [if_neg h]
        exact ⟨v, rfl, if_pos rfl, fun y hy => if_neg hy⟩
  · intro u hu
    cases u with
    | other => rfl
    | io v =>
      simp only [setIo] at hu ⊢
      split
      · rfl
      · rename_i h
        rw [if_neg h] at hu
        exact absurd rfl hu

theorem getFrom_eq (k : Nat) (s : State) (x : Nat) (l : List Nat) (h : ancestorsFrom k s.w (s.w.node x).parent = .ok l) :
    getFrom k s x = .ok ((x :: l).findSome? s.io) := by
  induction k generalizing x l with
  | zero =>
    unfold getFrom
    cases hi : s.io x with
    | some v => simp [hi]
    | none =>
      cases hp : (s.w.node x).parent with
      | none => rw [hp] at h; cases h; simp [hi]
      | proxy i m => rw [hp] at h; cases h
      | cont p => rw [hp] at h; cases h
  | succ k ih =>
    unfold getFrom
    cases hi : s.io x with
    | some v => simp [hi]
    | none =>
      cases hp : (s.w.node x).parent with
      | none => rw [hp] at h; cases h; simp [hi]
      | proxy i m => rw [hp] at h; cases h
      | cont p =>
        rw [hp] at h
        unfold ancestorsFrom at h
        split at h
        · cases h
        · rename_i l' hl'
          cases h
          simp only
          rw [ih p l' hl', List.findSome?_cons (a := x), hi]

/-- `get_read_io` gives the I/O object of the nearest among the container and its ancestors that has one, or nothing if none has -/
theorem C234_nearest_partial (s : State) (x : Nat) (l : List Nat) (h : getAncestors s.w x = .ok l) : getReadIo s x = .ok ((x :: l).findSome? s.io) :=
  getFrom_eq _ s x l h

/-- a container without I/O object of its own gets that of its parent -/
theorem C234_inherits (s : State) (x p : Nat) (l : List Nat) (h : getAncestors s.w x = .ok l) (hp : (s.w.node x).parent = .cont p) :
    ∃ r, getReadIo s p = .ok r ∧ getReadIo s x = .ok ((s.io x).or r) := by
  unfold getAncestors at h
  rw [hp] at h
  cases hs : s.w.size with
  | zero => rw [hs] at h; cases h
  | succ k =>
    rw [hs] at h
    unfold ancestorsFrom at h
    split at h
    · cases h
    · rename_i l' hl'
      cases h
      have mono : ∀ k y l, ancestorsFrom k s.w (s.w.node y).parent = .ok l → ancestorsFrom (k + 1) s.w (s.w.node y).parent = .ok l := by
        intro k
        induction k with
        | zero =>
          intro y l h
          cases hy : (s.w.node y).parent with
          | none => rw [hy] at h; exact h
          | proxy i m => rw [hy] at h; cases h
          | cont q => rw [hy] at h; cases h
        | succ k ih =>
          intro y l h
          cases hy : (s.w.node y).parent with
          | none => rw [hy] at h; exact h
          | proxy i m => rw [hy] at h; cases h
          | cont q =>
            rw [hy] at h
            unfold ancestorsFrom at h
            split at h
            · cases h
            · rename_i l' hl'
              cases h
              rw [ancestorsFrom]
              simp only [ih q l' hl']
      have h1 : getAncestors s.w p = .ok l' := by
        unfold getAncestors
        rw [hs]
        exact mono k p l' hl'
      refine ⟨_, C234_nearest_partial s p l' h1, ?_⟩
      have h2 : getAncestors s.w x = .ok (p :: l') := by
        unfold getAncestors
        rw [hp, hs]
        rw [ancestorsFrom]
        simp only [hl']
      rw [C234_nearest_partial s x _ h2, List.findSome?_cons]
      cases s.io x <;> rfl

/-- after any history in which no call raised and only Containers were used as parents, `get_read_io` returns for every object, unless there is an unresolved proxy above it -/
theorem C234_returns (ops : List Tree.Op) (w : World) (h : runOk World.empty ops = some w)
    (hp : ∀ op ∈ ops, ∀ c, op.newParent = some c → (w.node c).isCont = true) (x : Nat)
    (hx : ∀ y, Relation.ReflTransGen (fun a b => (w.node a).parent = .cont b) x y → ∀ i ms, (w.node y).parent ≠ .proxy i ms) (io : Nat → Option Nat) :
    ∃ l, getReadIo ⟨w, io⟩ x = .ok ((x :: l).findSome? io) ∧ ∀ y, y ∈ l ↔ Relation.TransGen (fun a b => (w.node a).parent = .cont b) x y := by
  obtain ⟨l, hl, -⟩ := C71_returns ops w h hp x hx
  exact ⟨l, C234_nearest_partial ⟨w, io⟩ x l hl, (C71_ancestors w x l hl).1⟩

/-- a root with an I/O object, a container below it, one below that with its own I/O object, and one below that -/
def demo : List Op := [.tree (.new true 0 none), .tree (.new true 0 none), .tree (.new true 0 none), .tree (.new true 0 none), .tree (.setParent 1 (.cont 0)), .tree (.setParent 2 (.cont 1)),
  .tree (.setParent 3 (.cont 2)), .setIo 0 (.io 7), .setIo 2 (.io 8), .setIo 0 (.io 9)]

example : let s := run State.empty demo
    s.io 0 = some 7 ∧ getReadIo s 1 = .ok (some 7) ∧ getReadIo s 3 = .ok (some 8) ∧ getAncestors s.w 3 = .ok [2, 1, 0] ∧ (step s (.setIo 0 (.io 9))).2 = .error .valueError := by decide

/-- containers that are the parents of each other: the loop does not end, for any number of steps -/
theorem C234_cycle_fails : let s := run State.empty [.tree (.new true 0 none), .tree (.new false 0 none), .tree (.setParent 0 (.cont 1)), .tree (.setParent 1 (.cont 0))]
    ∀ k, getFrom k s 0 = .error .runtimeError ∧ getFrom k s 1 = .error .runtimeError := by
  intro s k
  have h0 : s.io 0 = none ∧ s.io 1 = none ∧ (s.w.node 0).parent = .cont 1 ∧ (s.w.node 1).parent = .cont 0 := by decide
  induction k with
  | zero =>
    constructor
    · unfold getFrom; simp only [h0.1, h0.2.2.1]
    · unfold getFrom; simp only [h0.2.1, h0.2.2.2]
  | succ k ih =>
    constructor
    · unfold getFrom; simp only [h0.1, h0.2.2.1]; exact ih.2
    · unfold getFrom; simp only [h0.2.1, h0.2.2.2]; exact ih.1

/-- a container whose parent is a proxy has no I/O object, and asking for it is an error -/
theorem C234_proxy_fails : getReadIo (run State.empty [.tree (.new true 0 none), .tree (.setParent 0 (.proxy 0 []))]) 0 = .error .attributeError := by decide

end Verif.ReadIo

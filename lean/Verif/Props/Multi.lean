import Verif.Lemmas.Multi

/-!
# Properties of `MultiContainerInterface`
-/

namespace Verif.Multi
open Verif Verif.Tree Verif.LabelledDict

/-- everything is of the declared type -/
private def anyType : Nat → Nat → Bool := fun _ _ => true

private def s (x : String) : Str := x.toList

/-- containers 0 and 1 that hold others; objects 2, 3, 4, named "a", "b", "a" -/
private def start : List Op :=
  [.new true 0 none (s "m"), .new true 0 none (s "n"), .new true 1 none (s "a"), .new true 1 none (s "b"),
   .new true 1 none (s "a")]

/-- **C72.** After any history of calls, accepted or rejected: `c.get(n)` gives `x` iff `x` is one of the objects in the
dictionary and `n` is its name; if it is not there it raises KeyError. -/
theorem C72_get (conf : Nat → Nat → Bool) (ops : List Op) (c a : Nat) (n : Str) (x : Nat) :
    let st := run conf State.empty ops
    (get st c a (some n) = .ok x ↔ (∃ p ∈ (st.dict c a).items, p.2.id = x) ∧ st.name x = n) ∧
    ((∀ p ∈ (st.dict c a).items, st.name p.2.id ≠ n) → get st c a (some n) = .error .keyError) := by
  intro st
  have hi : MInv st := run_inv conf ops minv_empty
  constructor
  · unfold get
    constructor
    · intro h
      cases hg : Dict.get? (st.dict c a).items n with
      | none => simp [hg] at h
      | some o =>
        simp [hg] at h
        obtain ⟨-, h2, h3⟩ := get?_holds hi hg
        rw [h] at h2 h3
        exact ⟨h3, h2.symm⟩
    · rintro ⟨h, rfl⟩
      simp only [(holds_iff hi c a x).1 h]
      rfl
  · intro h
    unfold get
    cases hg : Dict.get? (st.dict c a).items n with
    | none => simp only [hg]
    | some o =>
      have hm := Dict.mem_of_get? hg
      exact absurd (hi.obj c a _ hm).2.2.symm (h _ hm)

example : let st := run anyType State.empty (start ++ [.add 0 0 (.one 2), .add 0 0 (.many [3]), .add 0 0 (.one 4)])
    (get st 0 0 (some (s "a"))).toOption = some 2 ∧ (get st 0 0 (some (s "b"))).toOption = some 3 ∧
    (get st 0 0 (some (s "c"))).toOption = none := by decide

/-- **C72.** `c.get()` without a name gives `x` iff `x` is the only object in the dictionary. -/
theorem C72_get_only (conf : Nat → Nat → Bool) (ops : List Op) (c a x : Nat) :
    let st := run conf State.empty ops
    get st c a none = .ok x ↔ (∀ y, (∃ p ∈ (st.dict c a).items, p.2.id = y) ↔ y = x) := by
  intro st
  have hi : MInv st := run_inv conf ops minv_empty
  unfold get
  cases hl : (st.dict c a).items with
  | nil =>
    simp only [Dict.values, List.map_nil]
    constructor
    · intro h; simp at h
    · intro h; exact absurd ((h x).2 rfl) (by simp)
  | cons p l =>
    cases l with
    | nil =>
      simp only [Dict.values, List.map_cons, List.map_nil, Except.ok.injEq, List.mem_singleton]
      constructor
      · rintro rfl y
        constructor
        · rintro ⟨q, rfl, rfl⟩; rfl
        · rintro rfl; exact ⟨p, rfl, rfl⟩
      · intro h
        exact (h p.2.id).1 ⟨p, rfl, rfl⟩
    | cons q l =>
      simp only [Dict.values, List.map_cons]
      constructor
      · intro h; simp at h
      · intro h
        exfalso
        have e1 := (h p.2.id).1 ⟨p, by simp, rfl⟩
        have e2 := (h q.2.id).1 ⟨q, by simp, rfl⟩
        have k1 := (hi.obj c a p (by rw [hl]; simp)).2.2
        have k2 := (hi.obj c a q (by rw [hl]; simp)).2.2
        have hn := (hi.ld c a).nodup
        rw [hl] at hn
        simp only [Dict.keys, List.map_cons, List.nodup_cons, List.mem_cons] at hn
        exact hn.1 (.inl (by rw [k1, k2, e1, e2]))

example : let st := run anyType State.empty (start ++ [.add 0 0 (.one 2), .add 0 1 (.many [3, 4])])
    (get st 0 0 none).toOption = some 2 ∧ (get st 0 1 none).toOption = none := by decide

/-- **C72.** An accepted `add` puts exactly the given objects into the dictionary; everything in any dictionary before stays. -/
theorem C72_add (conf : Nat → Nat → Bool) (ops : List Op) (c a : Nat) (arg : Arg) (st' : State)
    (h : step conf (run conf State.empty ops) (.add c a arg) = (st', .ok ())) (c' a' y : Nat) :
    (∃ p ∈ (st'.dict c' a').items, p.2.id = y) ↔
      (∃ p ∈ ((run conf State.empty ops).dict c' a').items, p.2.id = y) ∨ (c' = c ∧ a' = a ∧ y ∈ arg.objs) := by
  have hi : MInv (run conf State.empty ops) := run_inv conf ops minv_empty
  rcases step_cases conf (run conf State.empty ops) (.add c a arg) with e | ⟨⟨hv, -⟩, e⟩
  · rw [e] at h; simp at h
  · rw [h] at e
    simp only at e
    have hx : ∀ x ∈ arg.objs, x < (run conf State.empty ops).w.size := fun x hx => hv x (by simp [Op.args, Op.adds, hx])
    have e' : addLoop (run conf State.empty ops) c a arg.objs = (st', .ok ()) := by
      cases arg with
      | one x =>
        simp only [add] at e
        split at e
        · exact e.symm
        · simp at e
      | many xs => exact e.symm
    obtain ⟨ys, -, h2, h3⟩ := addLoop_holds arg.objs hi c a hx
    rw [e'] at h2 h3
    rw [h2 rfl] at h3
    exact h3 c' a' y

example : (step anyType (run anyType State.empty (start ++ [.add 0 0 (.one 2)])) (.add 0 0 (.many [3]))).2 = .ok () := by decide

/-- **C72.** An accepted `create` makes one new object of the given name, which is found under it and has the container as
parent; all dictionaries keep what they have. -/
theorem C72_create (conf : Nat → Nat → Bool) (ops : List Op) (c a t : Nat) (e : Option Nat) (n : Str) (st' : State)
    (h : step conf (run conf State.empty ops) (.create c a t e n) = (st', .ok ())) :
    let x := (run conf State.empty ops).w.size
    st'.w.size = x + 1 ∧ get st' c a (some n) = .ok x ∧ st'.name x = n ∧ (st'.w.node x).dtype = t ∧
    (st'.w.node x).parent = .cont c ∧
    ∀ c' a' y, (∃ p ∈ (st'.dict c' a').items, p.2.id = y) ↔
      (∃ p ∈ ((run conf State.empty ops).dict c' a').items, p.2.id = y) ∨ (c' = c ∧ a' = a ∧ y = x) := by
  intro x
  have hi : MInv (run conf State.empty ops) := run_inv conf ops minv_empty
  rcases step_cases conf (run conf State.empty ops) (.create c a t e n) with e' | ⟨⟨hv, hc⟩, e'⟩
  · rw [e'] at h; simp at h
  · rw [h] at e'
    simp only [create, add] at e'
    split at e'
    · have hn := new_inv hi true t e n
      have hc' : ((run conf State.empty ops).w.node c).isCont = true := hc c rfl
      have hcx : c < x := hv c (by simp [Op.args, Op.self])
      unfold addLoop addLoop at e'
      have f1 := addOne_frame hn c a x
      have i1 := addOne_inv hn c a x (Nat.lt_succ_self _)
      have hh := addOne_holds hn c a x
      have hname : ((run conf State.empty ops).new true t e n).name x = n := by simp [State.new, x]
      have hdt : ((((run conf State.empty ops).new true t e n).w).node x).dtype = t := by simp [State.new, World.new, x]
      have hpar : ((((run conf State.empty ops).new true t e n).w).node x).parent = .none := by
        simp [State.new, World.new, x]
      have hic : ((((run conf State.empty ops).new true t e n).w).node c).isCont = true := by
        simp only [State.new, World.new]
        rw [if_neg (Nat.ne_of_lt hcx)]; exact hc'
      rcases addOne_cases hn.key c a x with ⟨e2, h2, -⟩ | ⟨hs, -, h2⟩
      · exfalso
        have h3 : addOne ((run conf State.empty ops).new true t e n) c a (run conf State.empty ops).w.size = _ := h2
        rw [h3] at e'; simp at e'
      · have hok : (addOne ((run conf State.empty ops).new true t e n) c a x).2 = .ok () := by rw [h2]
        have hst : st' = (addOne ((run conf State.empty ops).new true t e n) c a x).1 := by
          have h3 : addOne ((run conf State.empty ops).new true t e n) c a (run conf State.empty ops).w.size = _ := h2
          rw [h3] at e'
          simp only [Prod.mk.injEq, and_true] at e'
          rw [e', h2]
        rw [← hst] at f1 i1 hh
        have hw : st'.w = (setField ((run conf State.empty ops).new true t e n).w c x).1 := by
          rw [hst, h2]; rfl
        have hH : ∀ c' a' y, Holds st' c' a' y ↔ Holds (run conf State.empty ops) c' a' y ∨ (c' = c ∧ a' = a ∧ y = x) := by
          intro c' a' y
          rw [hh, hok]
          simp only [true_and]
          exact Iff.rfl
        refine ⟨f1.size, ?_, by rw [f1.name]; exact hname, by rw [f1.dtype]; exact hdt, ?_, hH⟩
        · have hx : Holds st' c a x := (hH c a x).2 (.inr ⟨rfl, rfl, rfl⟩)
          have := (holds_iff i1 c a x).1 hx
          rw [f1.name, hname] at this
          simp only [get, this]
          rfl
        · rw [hw]
          unfold setField
          have hcp : (((run conf State.empty ops).new true t e n).w).contParent x = none := by
            unfold World.contParent; rw [hpar]
          rw [hcp]
          simp only [setParent, hpar, reduceCtorEq, if_false, hic, if_true]
          rw [(attach_same _ x c).parent, attached_parent]
          simp
    · simp at e'

example : (step anyType (run anyType State.empty start) (.create 0 0 1 none (s "z"))).2 = .ok () := by decide

/-- **C72.** A rejected `add` takes nothing out of any dictionary and overwrites nothing: what is there afterwards was there or
is one of the given objects. -/
theorem C72_rejected (conf : Nat → Nat → Bool) (ops : List Op) (c a : Nat) (arg : Arg) (c' a' y : Nat) :
    let st := run conf State.empty ops
    let st' := (step conf st (.add c a arg)).1
    ((∃ p ∈ (st.dict c' a').items, p.2.id = y) → ∃ p ∈ (st'.dict c' a').items, p.2.id = y) ∧
    ((∃ p ∈ (st'.dict c' a').items, p.2.id = y) → (∃ p ∈ (st.dict c' a').items, p.2.id = y) ∨
      (c' = c ∧ a' = a ∧ y ∈ arg.objs)) := by
  intro st st'
  have hi : MInv st := run_inv conf ops minv_empty
  have hst : st' = (step conf st (.add c a arg)).1 := rfl
  rcases step_cases conf st (.add c a arg) with e | ⟨⟨hv, -⟩, e⟩
  · rw [hst, e]; exact ⟨fun h => h, .inl⟩
  · have hx : ∀ x ∈ arg.objs, x < st.w.size := fun x hx => hv x (by simp [Op.args, Op.adds, hx])
    have key : ∀ xs, (∀ x ∈ xs, x ∈ arg.objs) → st' = (addLoop st c a xs).1 →
        ((∃ p ∈ (st.dict c' a').items, p.2.id = y) → ∃ p ∈ (st'.dict c' a').items, p.2.id = y) ∧
        ((∃ p ∈ (st'.dict c' a').items, p.2.id = y) → (∃ p ∈ (st.dict c' a').items, p.2.id = y) ∨
          (c' = c ∧ a' = a ∧ y ∈ arg.objs)) := by
      intro xs hsub he
      obtain ⟨ys, h1, -, h3⟩ := addLoop_holds xs hi c a (fun x h => hx x (hsub x h))
      rw [← he] at h3
      refine ⟨fun h => (h3 c' a' y).2 (.inl h), fun h => ?_⟩
      rcases (h3 c' a' y).1 h with h | ⟨k1, k2, k3⟩
      · exact .inl h
      · exact .inr ⟨k1, k2, hsub y (h1.subset k3)⟩
    rw [e] at hst
    cases arg with
    | one x =>
      simp only [add] at hst
      split at hst
      · exact key [x] (fun _ h => h) hst
      · rw [hst]; exact ⟨fun h => h, .inl⟩
    | many xs => exact key xs (fun _ h => h) hst

/-- non-vacuity: the second "a" is refused, the first stays -/
example : let st := run anyType State.empty (start ++ [.add 0 0 (.one 2)])
    (step anyType st (.add 0 0 (.one 4))).2 = .error .valueError ∧
    ((step anyType st (.add 0 0 (.one 4))).1.dict 0 0).items.map (fun p => p.2.id) = [2] := by decide

/-- **C72.** A removal by name that returns, `del c.attr[k]` or `c.attr.pop(k)`, takes exactly the object of that name out of
that dictionary. -/
theorem C72_remove (conf : Nat → Nat → Bool) (ops : List Op) (c a : Nat) (k : Str) (op : Op) (st' : State)
    (hop : op = .pop c a k ∨ op = .del c a k)
    (h : step conf (run conf State.empty ops) op = (st', .ok ())) (c' a' y : Nat) :
    (∃ p ∈ (st'.dict c' a').items, p.2.id = y) ↔
      (∃ p ∈ ((run conf State.empty ops).dict c' a').items, p.2.id = y) ∧
        ¬ (c' = c ∧ a' = a ∧ (run conf State.empty ops).name y = k) := by
  have hi : MInv (run conf State.empty ops) := run_inv conf ops minv_empty
  have key : ∀ b, Removal b (run conf State.empty ops) c a k (st', .ok ()) →
      ((∃ p ∈ (st'.dict c' a').items, p.2.id = y) ↔
      (∃ p ∈ ((run conf State.empty ops).dict c' a').items, p.2.id = y) ∧
        ¬ (c' = c ∧ a' = a ∧ (run conf State.empty ops).name y = k)) := by
    intro b hr
    cases hr with
    | none e h => simp at h
    | some d' o hd h =>
      have : ∃ ev, d'.log = [ev] := by
        rcases hd.log with h | ⟨-, -, h⟩
        · exact ⟨_, h⟩
        · exact h
      obtain ⟨ev, hl⟩ := this
      obtain ⟨-, -, g⟩ := onRemove_inv (hd.setDict_inv hi) c ev
      rw [hl, onEvents_one] at h
      rw [← h] at g
      simp only at g
      rw [g]
      exact hd.holds hi c' a' y
  rcases step_cases conf (run conf State.empty ops) op with e | ⟨-, e⟩
  · rw [e] at h; simp at h
  · rw [h] at e
    rcases hop with rfl | rfl
    · exact key false (e ▸ pop_removal hi c a k)
    · exact key true (e ▸ del_removal hi c a k)

example : (step anyType (run anyType State.empty (start ++ [.add 0 0 (.many [2, 3])])) (.del 0 0 (s "a"))).2 = .ok () := by decide

/-- **C72.** … and what happens to the object: if the container was its parent it has none afterwards and is no child of
anything; otherwise nothing happens to the tree. -/
theorem C72_detach_partial (conf : Nat → Nat → Bool) (ops : List Op) (hp : ∀ o ∈ ops, o.plain) (c a : Nat) (k : Str) (op : Op)
    (st' : State) (hop : op = .pop c a k ∨ (op = .del c a k ∧ hasEq k = false))
    (h : step conf (run conf State.empty ops) op = (st', .ok ())) (x : Nat)
    (hx : get (run conf State.empty ops) c a (some k) = .ok x) :
    (((run conf State.empty ops).w.node x).parent = .cont c →
      (st'.w.node x).parent = .none ∧ ∀ d, x ∉ (st'.w.node d).children) ∧
    (((run conf State.empty ops).w.node x).parent ≠ .cont c → st'.w = (run conf State.empty ops).w) ∧
    (∀ y, y ≠ x → (st'.w.node y).parent = ((run conf State.empty ops).w.node y).parent) := by
  have hi : MInv (run conf State.empty ops) := run_inv conf ops minv_empty
  have ht : Tree.Inv (run conf State.empty ops).w := run_tinv conf ops minv_empty Tree.inv_empty hp
  have ht' : Tree.Inv st'.w := by
    have := step_tinv conf hi ht (op := op) (by rcases hop with rfl | ⟨rfl, -⟩ <;> trivial)
    rwa [h] at this
  have hd : ∃ b, Removal b (run conf State.empty ops) c a k (st', .ok ()) ∧ (b = true → hasEq k = false) := by
    rcases step_cases conf (run conf State.empty ops) op with e | ⟨-, e⟩
    · rw [e] at h; simp at h
    · rw [h] at e
      rcases hop with rfl | ⟨rfl, hk⟩
      · exact ⟨false, e ▸ pop_removal hi c a k, by simp⟩
      · exact ⟨true, e ▸ del_removal hi c a k, fun _ => hk⟩
  obtain ⟨b, hr, hb⟩ := hd
  obtain ⟨o, hm, hcase⟩ := hr.detached hb
  have hox : o.id = x := by
    have := Dict.get?_of_mem (hi.ld c a).nodup hm
    simp [get, this] at hx
    exact hx
  subst hox
  rcases hcase with ⟨h1, h2⟩ | ⟨h1, h2⟩
  · have hnone : (st'.w.node o.id).parent = .none := by rw [h2.parent, removed_parent]; simp
    refine ⟨fun _ => ⟨hnone, ?_⟩, fun hne => absurd h1 hne, ?_⟩
    · intro d hd
      have := ht'.lists d o.id hd
      rw [hnone] at this; simp at this
    · intro y hy
      rw [h2.parent, removed_parent]; simp [hy]
  · exact ⟨fun h => absurd h h1, fun _ => h2, fun y _ => by rw [h2]⟩

/-- non-vacuity: 2 is a child of 0 and only linked from 1 -/
example : let st := run anyType State.empty (start ++ [.add 0 0 (.one 2), .add 1 0 (.one 2)])
    (step anyType st (.del 0 0 (s "a"))).2 = .ok () ∧ (step anyType st (.pop 1 0 (s "a"))).2 = .ok () ∧
    (st.w.node 2).parent = .cont 0 := by decide

/-- The names with `==`: deleting the object named `name==b` succeeds and takes it out of the dictionary, but the object that
loses its parent is the one named `b`, which stays in the dictionary. -/
theorem C72_detach_fails : ∃ ops, let st := run anyType State.empty ops
    let r := step anyType st (.del 0 0 (s "name==b"))
    r.2 = .ok () ∧ (get st 0 0 (some (s "name==b"))).toOption = some 1 ∧ (r.1.w.node 1).parent = .cont 0 ∧
    (get r.1 0 0 (some (s "b"))).toOption = some 2 ∧ (r.1.w.node 2).parent = .none :=
  ⟨[.new true 0 none (s "m"), .new true 1 none (s "name==b"), .new true 1 none (s "b"), .add 0 0 (.many [1, 2])], by decide⟩

/-- `c.attr.clear()` that succeeds leaves the dictionary empty. -/
theorem C72_clear (conf : Nat → Nat → Bool) (st st' : State) (c a : Nat)
    (h : step conf st (.clear c a) = (st', .ok ())) : (st'.dict c a).items = [] := by
  have key : ∀ (k : Nat) (st st' : State), (st.dict c a).items.length ≤ k → clearLoop k st c a = (st', .ok ()) →
      (st'.dict c a).items = [] := by
    intro k
    induction k with
    | zero =>
      intro st st' hk h
      simp [clearLoop] at h
      rw [← h]; simpa using hk
    | succ k ih =>
      intro st st' hk h
      unfold clearLoop at h
      split at h
      · rename_i h0
        simp at h; rw [← h]; simpa using h0
      · rename_i h0
        cases hp : popitem st c a with
        | mk s1 r =>
          rw [hp] at h
          cases r with
          | error e => simp at h
          | ok u =>
            refine ih s1 st' ?_ h
            unfold popitem at hp
            cases hq : LabelledDict.popitem { st.dict c a with log := [] } with
            | mk d' r' =>
              rw [hq] at hp
              cases r' with
              | error e => simp at hp
              | ok q =>
                simp only at hp
                have hd : d'.items = (st.dict c a).items.dropLast := by
                  unfold LabelledDict.popitem at hq
                  split at hq
                  · simp at hq
                  · simp only [Prod.mk.injEq] at hq
                    rw [← hq.1]
                have he : ∀ (evs : List Event) (s s' : State) (r : Except Err Unit), onEvents s c evs = (s', r) → s'.dict = s.dict := by
                  intro evs
                  induction evs with
                  | nil => intro s s' r h; simp [onEvents] at h; rw [h.1]
                  | cons ev evs ihe =>
                    intro s s' r h
                    unfold onEvents at h
                    have hd1 : (onRemove s c ev).1.dict = s.dict := by
                      rcases onRemove_cases s c ev with e | ⟨o, -, -, e⟩ <;> rw [e]
                    cases hr : onRemove s c ev with
                    | mk s2 r2 =>
                      rw [hr] at h hd1
                      cases r2 with
                      | error e => simp at h; rw [← h.1]; exact hd1
                      | ok u => simp only at h; rw [ihe _ _ _ h]; exact hd1
                have := he _ _ _ _ hp
                rw [this]
                simp only [State.setDict, and_self, if_true]
                rw [hd]; simp; omega
  rcases step_cases conf st (.clear c a) with e | ⟨-, e⟩
  · rw [e] at h; simp at h
  · rw [h] at e
    exact key _ st st' (Nat.le_refl _) e.symm

example : let st := run anyType State.empty (start ++ [.add 0 0 (.many [2, 3])])
    (step anyType st (.clear 0 0)).2 = .ok () ∧ ((step anyType st (.clear 0 0)).1.w.node 2).parent = .none := by decide

/-! ### objects in a dictionary have a parent -/

/-- **C111 (partial).** After any history without removals every object in a dictionary has a parent, whichever calls were
rejected and however objects are shared between dictionaries. -/
theorem C111_owned_partial (conf : Nat → Nat → Bool) (ops : List Op) (h : ∀ op ∈ ops, op.removes = false) (c a : Nat) :
    let st := run conf State.empty ops
    ∀ p ∈ (st.dict c a).items, (st.w.node p.2.id).parent ≠ .none := by
  have key : ∀ (ops : List Op) (st : State), MInv st → Owned st → (∀ op ∈ ops, op.removes = false) →
      Owned (run conf st ops) := by
    intro ops
    induction ops with
    | nil => intro st _ ho _; exact ho
    | cons op ops ih =>
      intro st hi ho hr
      exact ih _ (step_inv conf hi op) (step_owned conf hi ho (hr op (by simp))) (fun o h => hr o (by simp [h]))
  intro st p hp
  exact key ops State.empty minv_empty (by rintro _ _ _ ⟨p, hp, _⟩; simp [State.empty, LabelledDict.init] at hp) h c a _ ⟨p, hp, rfl⟩

example : ∀ op ∈ start ++ [.add 0 0 (.one 2), .add 1 0 (.one 2), .create 1 0 1 none (s "z")], op.removes = false := by decide

/-- The states reached by calls that share no object between dictionaries: what a call adds is in no dictionary at that time;
parents are only taken away through the dictionaries, with keys without `==`. -/
inductive Reach (conf : Nat → Nat → Bool) : State → Prop
  | empty : Reach conf State.empty
  | step {st : State} (op : Op) (h : Reach conf st) (hf : Fair st op) : Reach conf (step conf st op).1

/-- **C111 (partial).** With removals too, as long as no object is shared between two dictionaries. -/
theorem C111_owned_excl_partial (conf : Nat → Nat → Bool) (st : State) (h : Reach conf st) (c a : Nat) :
    ∀ p ∈ (st.dict c a).items, (st.w.node p.2.id).parent ≠ .none := by
  have : MInv st ∧ Owned st ∧ Excl st := by
    induction h with
    | empty =>
      refine ⟨minv_empty, ?_, ?_⟩
      · rintro _ _ _ ⟨p, hp, _⟩; simp [State.empty, LabelledDict.init] at hp
      · rintro _ _ _ _ _ ⟨p, hp, _⟩; simp [State.empty, LabelledDict.init] at hp
    | step op _ hf ih =>
      obtain ⟨h1, h2, h3⟩ := ih
      obtain ⟨g1, g2⟩ := step_fair conf h1 h2 h3 hf
      exact ⟨step_inv conf h1 op, g1, g2⟩
  exact fun p hp => this.2.1 c a _ ⟨p, hp, rfl⟩

/-- non-vacuity: add, remove, add elsewhere -/
example : Reach anyType (step anyType (step anyType (step anyType State.empty (.new true 0 none (s "m"))).1
    (.create 0 0 1 none (s "x"))).1 (.del 0 0 (s "x"))).1 :=
  .step _ (.step _ (.step _ .empty ⟨by simp [Op.adds], by simp, by simp⟩) ⟨by simp [Op.adds], by simp, by simp⟩)
    ⟨by simp [Op.adds], by simp, by intro c a k h; simp at h; rw [← h.2.2]; decide⟩

/-- **C111 fails** for an object in two dictionaries (added to one container, then linked from another): removing it from the
first leaves it in the second without a parent; and `reset_parent` leaves it in its dictionary. -/
theorem C111_shared_fails : ∃ ops, let st := run anyType State.empty ops
    (get st 1 0 (some (s "a"))).toOption = some 2 ∧ (st.w.node 2).parent = .none ∧
    (get st 0 0 (some (s "b"))).toOption = some 3 ∧ (st.w.node 3).parent = .none :=
  ⟨start ++ [.add 0 0 (.many [2, 3]), .add 1 0 (.one 2), .del 0 0 (s "a"), .resetParent 3], by decide⟩

/-! ### a rejected `add` -/

/-- **C112 fails**: an object rejected because of its name has become a child of the container: it has it as parent, is listed
among its children, and cannot be given to another container; and the objects before it in a list have been added. -/
theorem C112_rejected_fails : ∃ ops, let st := run anyType State.empty ops
    let r := step anyType st (.add 0 0 (.many [3, 4]))
    r.2 = .error .valueError ∧ (r.1.w.node 4).parent = .cont 0 ∧ 4 ∈ (r.1.w.node 0).children ∧
    (get r.1 0 0 (some (s "b"))).toOption = some 3 ∧
    (step anyType r.1 (.setParent 4 (.cont 1))).2 = .error .valueError :=
  ⟨start ++ [.add 0 0 (.one 2)], by decide⟩

/-- **C112 (partial).** A single object of another type is refused without any trace; a rejected single object leaves all
dictionaries as they are. -/
theorem C112_rejected_partial (conf : Nat → Nat → Bool) (ops : List Op) (c a x : Nat) (e : Err) :
    let st := run conf State.empty ops
    (conf a (st.w.node x).dtype = false → (step conf st (.add c a (.one x))).1 = st) ∧
    ((step conf st (.add c a (.one x))).2 = .error e → (step conf st (.add c a (.one x))).1.dict = st.dict) := by
  intro st
  have hi : MInv st := run_inv conf ops minv_empty
  rcases step_cases conf st (.add c a (.one x)) with h | ⟨-, h⟩
  · rw [h]; exact ⟨fun _ => rfl, fun _ => rfl⟩
  · rw [h]
    simp only [add]
    constructor
    · intro hc; rw [hc]; rfl
    · split
      · unfold addLoop addLoop
        rcases addOne_cases hi.key c a x with ⟨e', h, -⟩ | ⟨-, -, h⟩
        · rw [h]; exact fun _ => rfl
        · rw [h]; simp
      · exact fun _ => rfl

example : let st := run (fun _ t => t == 1) State.empty (start ++ [.add 0 0 (.one 2)])
    (step (fun _ t => t == 1) st (.add 0 0 (.one 1))).2 = .error .typeError ∧
    (step (fun _ t => t == 1) st (.add 0 0 (.one 4))).2 = .error .valueError := by decide

/-! ### types -/

/-- The states reached when lists and dicts are only given with objects of the declared types. -/
inductive ReachTyped (conf : Nat → Nat → Bool) : State → Prop
  | empty : ReachTyped conf State.empty
  | step {st : State} (op : Op) (h : ReachTyped conf st)
      (hf : ∀ c a xs, (op = .add c a (.many xs) ∨ op = .assign c a (some (.many xs))) →
        ∀ x ∈ xs, conf a (st.w.node x).dtype = true) : ReachTyped conf (step conf st op).1

/-- **C113 (partial).** If lists and dicts are only given with objects of the declared types, everything in a dictionary is of
the declared types. -/
theorem C113_types_partial (conf : Nat → Nat → Bool) (st : State) (h : ReachTyped conf st) (c a : Nat) :
    ∀ p ∈ (st.dict c a).items, conf a (st.w.node p.2.id).dtype = true := by
  have : MInv st ∧ Typed conf st := by
    induction h with
    | empty =>
      refine ⟨minv_empty, ?_⟩
      rintro _ _ _ ⟨p, hp, _⟩; simp [State.empty, LabelledDict.init] at hp
    | step op _ hf ih => exact ⟨step_inv conf ih.1 op, step_typed conf ih.1 ih.2 hf⟩
  exact fun p hp => this.2 c a _ ⟨p, hp, rfl⟩

/-- non-vacuity: type 1 is declared -/
example : ReachTyped (fun _ t => t == 1) (step (fun _ t => t == 1) (step (fun _ t => t == 1) (step (fun _ t => t == 1) State.empty
    (.new true 0 none (s "m"))).1 (.new true 1 none (s "x"))).1 (.add 0 0 (.many [1]))).1 := by
  refine .step _ (.step _ (.step _ .empty (by simp)) (by simp)) ?_
  intro c a xs h x hx
  simp at h
  obtain ⟨-, -, rfl⟩ := h
  simp at hx; subst hx; decide

/-- **C113 fails**: the elements of a list are not checked; an object of another type is stored and found. -/
theorem C113_list_fails : ∃ ops, let st := run (fun _ t => t == 1) State.empty ops
    (st.w.node 1).dtype = 0 ∧ (step (fun _ t => t == 1) st (.add 0 0 (.one 1))).2 = .error .typeError ∧
    (step (fun _ t => t == 1) st (.add 0 0 (.many [1]))).2 = .ok () ∧
    (get (step (fun _ t => t == 1) st (.add 0 0 (.many [1]))).1 0 0 (some (s "n"))).toOption = some 1 :=
  ⟨start, by decide⟩

/-! ### assignment -/

/-- **C114 (partial).** After an accepted assignment `c.attr = xs` to an attribute that was empty, it holds exactly `xs`; in
general it holds what it did before as well. -/
theorem C114_assign_partial (conf : Nat → Nat → Bool) (ops : List Op) (c a : Nat) (xs : List Nat) (st' : State)
    (h : step conf (run conf State.empty ops) (.assign c a (some (.many xs))) = (st', .ok ())) (y : Nat) :
    (∃ p ∈ (st'.dict c a).items, p.2.id = y) ↔
      y ∈ xs ∨ (∃ p ∈ ((run conf State.empty ops).dict c a).items, p.2.id = y) := by
  have e : step conf (run conf State.empty ops) (.add c a (.many xs)) = (st', .ok ()) := by
    rw [← h]; rfl
  have := C72_add conf ops c a (.many xs) st' e c a y
  rw [this]
  simp [Arg.objs, or_comm]

example : (step anyType (run anyType State.empty start) (.assign 0 0 (some (.many [2, 3])))).2 = .ok () := by decide

/-- **C114 fails**: an assignment adds to what is there instead of replacing it; assigning the empty list or `None` changes
nothing; assigning the dictionary to itself raises. -/
theorem C114_replace_fails : ∃ ops, let st := run anyType State.empty ops
    (step anyType st (.assign 0 0 (some (.many [3])))).2 = .ok () ∧
    ((step anyType st (.assign 0 0 (some (.many [3])))).1.dict 0 0).items.map (fun p => p.2.id) = [2, 3] ∧
    (step anyType st (.assign 0 0 (some (.many [])))).2 = .ok () ∧
    ((step anyType st (.assign 0 0 (some (.many [])))).1.dict 0 0).items.map (fun p => p.2.id) = [2] ∧
    (step anyType st (.assign 0 0 (some (.many (((st.dict 0 0).items.map (fun p => p.2.id))))))).2 = .error .valueError :=
  ⟨start ++ [.add 0 0 (.one 2)], by decide⟩

end Verif.Multi

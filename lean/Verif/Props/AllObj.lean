import Verif.Model.AllObj
import Verif.Props.Tree

/-!
# Object ids and `all_objects` (C250–C252)
-/

namespace Verif.AllObj
open Verif Relation

/-- The call on the tree that an operation makes. -/
def Op.treeOp : Op → Option Tree.Op
  | .tree op => some op
  | .load a b c _ => some (.new a b c)
  | _ => none

/-- Every id that is read from a file is one no object has at that time. -/
def LoadsFresh (s : St) : List Op → Prop
  | [] => True
  | op :: ops => (∀ a b c i, op = .load a b c i → ∀ x, s.oid x ≠ some i) ∧ LoadsFresh (step s op) ops

/-- Different objects have different ids, all seen. -/
structure IdInv (s : St) : Prop where
  below : ∀ a i, s.oid a = some i → i < s.next
  inj : ∀ a b i, s.oid a = some i → s.oid b = some i → a = b

theorem idInv_empty : IdInv St.empty := ⟨(fun _ _ h => nomatch h), (fun _ _ _ h => nomatch h)⟩

theorem upd_self {α : Type} (f : Nat → α) (n : Nat) (a : α) : upd f n a n = a := by simp [upd]

theorem upd_ne {α : Type} (f : Nat → α) {n m : Nat} (a : α) (h : m ≠ n) : upd f n a m = f m := by simp [upd, h]

theorem newId_inv {s : St} (h : IdInv s) (n : Nat) : IdInv (newId s n) := by
  refine ⟨?_, ?_⟩
  · intro a i ha
    simp only [newId, upd] at ha ⊢
    split at ha
    · cases ha; omega
    · have := h.below a i ha; omega
  · intro a b i ha hb
    simp only [newId, upd] at ha hb
    split at ha <;> split at hb
    · simp_all
    · cases ha; have := h.below b _ hb; omega
    · cases hb; have := h.below a _ ha; omega
    · exact h.inj a b i ha hb

theorem objectId_inv {s : St} (h : IdInv s) (n : Nat) : IdInv (objectId s n).1 := by
  unfold objectId
  split
  · exact h
  · exact newId_inv h n

theorem objectId_self (s : St) (n : Nat) : (objectId s n).1.oid n = some (objectId s n).2 := by
  unfold objectId
  split
  · assumption
  · simp [newId, upd]

theorem objectId_keeps {s : St} {n x i : Nat} (h : s.oid x = some i) : (objectId s n).1.oid x = some i := by
  unfold objectId
  split
  · exact h
  · rename_i hn
    have : x ≠ n := by rintro rfl; rw [h] at hn; cases hn
    simp [newId, upd, this, h]

theorem objectId_w (s : St) (n : Nat) : (objectId s n).1.w = s.w := by
  unfold objectId
  split <;> rfl

theorem objectId_obj (s : St) (n : Nat) : (objectId s n).1.obj = s.obj := by
  unfold objectId
  split <;> rfl

theorem setItem_ok {d d' : Dict Nat Nat} {i n : Nat} (h : setItem d i n = .ok d') : i ∉ Dict.keys d ∧ d' = d ++ [(i, n)] := by
  unfold setItem at h
  split at h
  · cases h
  · rename_i hh
    have hk : i ∉ Dict.keys d := Dict.has_false_iff.mp (by simpa using hh)
    cases h
    exact ⟨hk, Dict.set_of_not_mem hk⟩

theorem setItem_error {d : Dict Nat Nat} {i n : Nat} {e : Err} (h : setItem d i n = .error e) : e = .typeError := by
  unfold setItem at h
  split at h
  · cases h; rfl
  · cases h

/-- What the loop keeps: the tree, ids that are there, other caches, and the invariant on ids. -/
theorem objLoop_keeps : ∀ (k : Nat) (s : St) (d : Dict Nat Nat) (stack ret : List Nat),
    (objLoop k s d stack ret).1.w = s.w ∧ (objLoop k s d stack ret).1.obj = s.obj ∧
    (∀ x i, s.oid x = some i → (objLoop k s d stack ret).1.oid x = some i) ∧
    (IdInv s → IdInv (objLoop k s d stack ret).1) := by
  intro k
  induction k with
  | zero => intro s d stack ret; cases stack <;> exact ⟨rfl, rfl, fun _ _ h => h, id⟩
  | succ k ih =>
    intro s d stack ret
    cases stack with
    | nil => exact ⟨rfl, rfl, fun _ _ h => h, id⟩
    | cons n stack =>
      rw [objLoop]
      cases hs : setItem d (objectId s n).2 n with
      | error e => exact ⟨objectId_w s n, objectId_obj s n, fun _ _ h => objectId_keeps h, fun h => objectId_inv h n⟩
      | ok d' =>
        obtain ⟨h1, h2, h3, h4⟩ := ih (objectId s n).1 d' ((s.w.node n).children.reverse ++ stack) (ret ++ [n])
        exact ⟨h1.trans (objectId_w s n), h2.trans (objectId_obj s n), fun x i h => h3 x i (objectId_keeps h),
          fun h => h4 (objectId_inv h n)⟩

/-- A dictionary that lists `ret`, each under its id. -/
def Lists (s : St) (d : Dict Nat Nat) (ret : List Nat) : Prop := d.map (fun p => (some p.1, p.2)) = ret.map (fun x => (s.oid x, x))

theorem Lists.snoc {s s' : St} {d : Dict Nat Nat} {ret : List Nat} {n i : Nat} (h : Lists s d ret)
    (hk : ∀ x i, s.oid x = some i → s'.oid x = some i) (hn : s'.oid n = some i) : Lists s' (d ++ [(i, n)]) (ret ++ [n]) := by
  have hl : Lists s' d ret := by
    have e : ret.map (fun x => (s.oid x, x)) = ret.map (fun x => (s'.oid x, x)) := by
      apply List.map_congr_left
      intro x hx
      have : (s.oid x, x) ∈ d.map (fun p => (some p.1, p.2)) := by rw [h]; exact List.mem_map.mpr ⟨x, hx, rfl⟩
      obtain ⟨p, _, hp⟩ := List.mem_map.mp this
      have h1 : some p.1 = s.oid x := congrArg Prod.fst hp
      rw [← h1, hk x p.1 h1.symm]
    exact Eq.trans h e
  unfold Lists at hl ⊢
  simp [hl, hn]

/-- When the loop returns, the dictionary lists what is returned, under distinct ids. -/
theorem objLoop_lists : ∀ (k : Nat) (s : St) (d : Dict Nat Nat) (stack ret l : List Nat), Lists s d ret → (Dict.keys d).Nodup →
    (objLoop k s d stack ret).2.2 = .ok l →
    Lists (objLoop k s d stack ret).1 (objLoop k s d stack ret).2.1 l ∧ (Dict.keys (objLoop k s d stack ret).2.1).Nodup ∧
      Tree.allLoop s.w k stack ret = .ok l := by
  intro k
  induction k with
  | zero =>
    intro s d stack ret l h1 h2 h
    cases stack with
    | nil => simp only [objLoop] at h ⊢; cases h; exact ⟨h1, h2, rfl⟩
    | cons => simp [objLoop] at h
  | succ k ih =>
    intro s d stack ret l h1 h2 h
    cases stack with
    | nil => simp only [objLoop] at h ⊢; cases h; exact ⟨h1, h2, rfl⟩
    | cons n stack =>
      rw [objLoop] at h ⊢
      rw [Tree.allLoop]
      cases hs : setItem d (objectId s n).2 n with
      | error e => simp [hs] at h
      | ok d' =>
        simp only [hs] at h ⊢
        obtain ⟨hk, rfl⟩ := setItem_ok hs
        have := ih (objectId s n).1 _ _ _ l (h1.snoc (fun x i hx => objectId_keeps hx) (objectId_self s n))
          (by
            simp only [Dict.keys, List.map_append, List.map_cons, List.map_nil] at hk ⊢
            rw [List.nodup_append]
            refine ⟨h2, by simp, ?_⟩
            intro a ha b hb
            simp only [List.mem_singleton] at hb
            rintro rfl
            exact hk (hb ▸ ha)) h
        rw [objectId_w] at this
        exact this

/-- With distinct ids the loop succeeds where no object is met twice. -/
theorem objLoop_ok : ∀ (k : Nat) (s : St) (d : Dict Nat Nat) (stack ret l : List Nat), IdInv s → Lists s d ret →
    Tree.allLoop s.w k stack ret = .ok l → l.Nodup → (objLoop k s d stack ret).2.2 = .ok l := by
  have pre : ∀ (w : Tree.World) (k : Nat) (stack ret l : List Nat), Tree.allLoop w k stack ret = .ok l → ret <+: l := by
    intro w k
    induction k with
    | zero =>
      intro stack ret l h
      cases stack with
      | nil => simp only [Tree.allLoop] at h; cases h; exact List.prefix_refl _
      | cons => simp [Tree.allLoop] at h
    | succ k ih =>
      intro stack ret l h
      cases stack with
      | nil => simp only [Tree.allLoop] at h; cases h; exact List.prefix_refl _
      | cons n stack =>
        rw [Tree.allLoop] at h
        exact (List.prefix_append ret [n]).trans (ih _ _ _ h)
  intro k
  induction k with
  | zero =>
    intro s d stack ret l _ _ h _
    cases stack with
    | nil => simp only [Tree.allLoop] at h; cases h; rfl
    | cons => simp [Tree.allLoop] at h
  | succ k ih =>
    intro s d stack ret l hi h1 h hn
    cases stack with
    | nil => simp only [Tree.allLoop] at h; cases h; rfl
    | cons n stack =>
      rw [Tree.allLoop] at h
      rw [objLoop]
      have hp := pre _ _ _ _ _ h
      have hnr : n ∉ ret := by
        have := hp.sublist.nodup hn
        rw [List.nodup_append] at this
        exact fun hm => this.2.2 n hm n (by simp) rfl
      cases hs : setItem d (objectId s n).2 n with
      | error e =>
        exfalso
        unfold setItem at hs
        split at hs
        · rename_i hh
          have hk := Dict.has_iff.mp hh
          obtain ⟨p, hp1, hp2⟩ := List.mem_map.mp hk
          have hm : (some p.1, p.2) ∈ ret.map (fun x => (s.oid x, x)) := by
            rw [← h1]; exact List.mem_map.mpr ⟨p, hp1, rfl⟩
          obtain ⟨x, hx, he⟩ := List.mem_map.mp hm
          have hxo : s.oid x = some (objectId s n).2 := by rw [← hp2]; exact congrArg Prod.fst he
          have := (objectId_inv hi n).inj x n _ (objectId_keeps hxo) (objectId_self s n)
          exact hnr (this ▸ hx)
        · cases hs
      | ok d' =>
        obtain ⟨hk, rfl⟩ := setItem_ok hs
        exact ih _ _ _ _ _ (objectId_inv hi n) (h1.snoc (fun x i hx => objectId_keeps hx) (objectId_self s n))
          (by rw [objectId_w]; exact h) hn

theorem allLoop_more (w : Tree.World) : ∀ (k : Nat) (stack ret l : List Nat), Tree.allLoop w k stack ret = .ok l →
    Tree.allLoop w (k + 1) stack ret = .ok l := by
  intro k
  induction k with
  | zero =>
    intro stack ret l h
    cases stack with
    | nil => exact h
    | cons => simp [Tree.allLoop] at h
  | succ k ih =>
    intro stack ret l h
    cases stack with
    | nil => exact h
    | cons n stack =>
      rw [Tree.allLoop] at h ⊢
      exact ih _ _ _ h

theorem allChildren_keeps (s : St) (n : Nat) : (allChildren s n).1.w = s.w ∧
    (∀ x, x ≠ n → (allChildren s n).1.obj x = s.obj x) ∧ (∀ x i, s.oid x = some i → (allChildren s n).1.oid x = some i) ∧
    (IdInv s → IdInv (allChildren s n).1) := by
  obtain ⟨h1, h2, h3, h4⟩ := objLoop_keeps (s.w.size + 1) s [] [n] []
  refine ⟨h1, ?_, h3, fun h => ⟨(h4 h).below, (h4 h).inj⟩⟩
  intro x hx
  simp only [allChildren]
  rw [upd_ne _ _ hx, h2]

theorem allObjects_state (s : St) (n : Nat) : (allObjects s n).1 = s ∨ (allObjects s n).1 = (allChildren s n).1 := by
  unfold allObjects
  split
  · exact .inl rfl
  · split <;> exact .inr rfl

theorem step_w (s : St) (op : Op) : (step s op).w = (match op.treeOp with | some t => (Tree.step s.w t).1 | none => s.w) := by
  cases op with
  | tree op => rfl
  | load a b c i => simp [step, load, Op.treeOp, Tree.step, Tree.Op.args]
  | objectId n => exact objectId_w s n
  | newId n => rfl
  | allChildren n => exact (allChildren_keeps s n).1
  | allObjects n =>
    simp only [step, Op.treeOp]
    rcases allObjects_state s n with h | h <;> rw [h]
    exact (allChildren_keeps s n).1

theorem run_w : ∀ (ops : List Op) (s : St), (run s ops).w = Tree.run s.w (ops.filterMap Op.treeOp) := by
  intro ops
  induction ops with
  | nil => intro s; rfl
  | cons op ops ih =>
    intro s
    rw [run, ih, step_w]
    cases h : op.treeOp with
    | none => simp [h]
    | some t => simp [h, Tree.run]

theorem step_inv {s : St} (h : IdInv s) {op : Op} (hop : ∀ a b c i, op = .load a b c i → ∀ x, s.oid x ≠ some i) :
    IdInv (step s op) := by
  cases op with
  | tree op => exact ⟨h.below, h.inj⟩
  | load a b c i =>
    have hf := hop a b c i rfl
    refine ⟨?_, ?_⟩
    · intro x j hx
      simp only [step, load, upd] at hx ⊢
      split at hx
      · cases hx; omega
      · have := h.below x j hx; omega
    · intro x y j hx hy
      simp only [step, load, upd] at hx hy
      split at hx <;> split at hy
      · simp_all
      · cases hx; exact absurd hy (hf y)
      · cases hy; exact absurd hx (hf x)
      · exact h.inj x y j hx hy
  | objectId n => exact objectId_inv h n
  | newId n => exact newId_inv h n
  | allChildren n => exact (allChildren_keeps s n).2.2.2 h
  | allObjects n =>
    simp only [step]
    rcases allObjects_state s n with e | e <;> rw [e]
    · exact h
    · exact (allChildren_keeps s n).2.2.2 h

theorem run_idInv : ∀ (ops : List Op) (s : St), IdInv s → LoadsFresh s ops → IdInv (run s ops) := by
  intro ops
  induction ops with
  | nil => intro s h _; exact h
  | cons op ops ih => intro s h hl; exact ih _ (step_inv h hl.1) hl.2

/-- Whatever the state, when `all_children` returns, the dictionary is replaced by one of exactly what is returned. -/
theorem allChildren_ok {s : St} {n : Nat} {l : List Nat} (h : (allChildren s n).2 = .ok l) :
    ∃ d, (allChildren s n).1.obj n = some d ∧ (Dict.keys d).Nodup ∧
      ∀ i y, (i, y) ∈ d ↔ y ∈ l ∧ (allChildren s n).1.oid y = some i := by
  obtain ⟨h1, h2, -⟩ := objLoop_lists (s.w.size + 1) s [] [n] [] l rfl List.nodup_nil h
  refine ⟨_, upd_self _ _ _, h2, ?_⟩
  intro i y
  have hm : ∀ p : Option Nat × Nat, p ∈ (objLoop (s.w.size + 1) s [] [n] []).2.1.map (fun p => (some p.1, p.2)) ↔
      p ∈ l.map (fun x => ((objLoop (s.w.size + 1) s [] [n] []).1.oid x, x)) := fun p => by rw [h1]
  have := hm (some i, y)
  simp only [List.mem_map, Prod.mk.injEq, Option.some.injEq] at this
  constructor
  · intro hd
    obtain ⟨x, hx, he, rfl⟩ := this.mp ⟨(i, y), hd, rfl, rfl⟩
    exact ⟨hx, he⟩
  · rintro ⟨hy, ho⟩
    obtain ⟨p, hp, e1, e2⟩ := this.mpr ⟨y, hy, ho, rfl⟩
    rw [← e1, ← e2]
    exact hp

theorem allChildren_tree {ops : List Op} {s : St} (hs : s = run St.empty ops) (hl : LoadsFresh St.empty ops)
    (hr : Tree.runOk Tree.World.empty (ops.filterMap Op.treeOp) = some s.w) (hpl : ∀ op ∈ ops.filterMap Op.treeOp, op.plain)
    (hp : ∀ op ∈ ops.filterMap Op.treeOp, ∀ c, op.newParent = some c → (s.w.node c).isCont = true) {n : Nat} (hn : n < s.w.size) :
    ∃ l, (allChildren s n).2 = .ok l ∧ ∀ y, y ∈ l ↔ ReflTransGen (fun a b => (s.w.node a).parent = .cont b) y n := by
  obtain ⟨l, l1, l2, -, l4⟩ := Tree.C27_all_children _ s.w hr hpl hp n hn
  refine ⟨l, ?_, l4⟩
  have hi : IdInv s := hs ▸ run_idInv ops _ idInv_empty hl
  exact objLoop_ok _ _ _ _ _ _ hi rfl (allLoop_more _ _ _ _ _ l1) l2

theorem run_unasked : ∀ (ops : List Op) (s : St) (n : Nat), s.obj n = none →
    (∀ op ∈ ops, op ≠ .allChildren n ∧ op ≠ .allObjects n) → (run s ops).obj n = none := by
  intro ops
  induction ops with
  | nil => intro s n h _; exact h
  | cons op ops ih =>
    intro s n h hop
    refine ih _ n ?_ (fun o ho => hop o (List.mem_cons_of_mem _ ho))
    have h1 := hop op List.mem_cons_self
    cases op with
    | tree op => exact h
    | load a b c i => exact h
    | objectId m => simpa only [step, objectId_obj] using h
    | newId m => exact h
    | allChildren m =>
      have hm : n ≠ m := by rintro rfl; exact h1.1 rfl
      exact ((allChildren_keeps s m).2.1 n hm).trans h
    | allObjects m =>
      have hm : n ≠ m := by rintro rfl; exact h1.2 rfl
      simp only [step]
      rcases allObjects_state s m with e | e <;> rw [e]
      · exact h
      · exact ((allChildren_keeps s m).2.1 n hm).trans h

/-- `all_objects` holds exactly the object and its descendants, each under its id. -/
def Current (s : St) (n : Nat) : Prop :=
  ∃ d, (allObjects s n).2 = .ok d ∧ (Dict.keys d).Nodup ∧
    ∀ i y, (i, y) ∈ d ↔ ReflTransGen (fun a b => (s.w.node a).parent = .cont b) y n ∧ (allObjects s n).1.oid y = some i

theorem current_of_none {s : St} {n : Nat} {l : List Nat} (h0 : s.obj n = none) (h1 : (allChildren s n).2 = .ok l)
    (h2 : ∀ y, y ∈ l ↔ ReflTransGen (fun a b => (s.w.node a).parent = .cont b) y n) : Current s n := by
  obtain ⟨d, d1, d2, d3⟩ := allChildren_ok h1
  have e : allObjects s n = ((allChildren s n).1, .ok d) := by
    unfold allObjects
    simp only [h0, h1, d1, Option.getD_some]
  unfold Current
  rw [e]
  refine ⟨d, rfl, d2, fun i y => ?_⟩
  rw [d3, h2]

/-- **C250 (asked for the first time).** After any history in which the calls on the tree succeed, parents are Containers compared
by identity and the ids that were read are not those of other objects, `all_objects` of an existing object for which neither it
nor `all_children` was asked before holds exactly the object and its descendants, each under its `object_id`.  Missing: when it
was asked before (`C250_current_fails`). -/
theorem C250_current_partial (ops : List Op) (hl : LoadsFresh St.empty ops)
    (hr : Tree.runOk Tree.World.empty (ops.filterMap Op.treeOp) = some (run St.empty ops).w)
    (hpl : ∀ op ∈ ops.filterMap Op.treeOp, op.plain)
    (hp : ∀ op ∈ ops.filterMap Op.treeOp, ∀ c, op.newParent = some c → ((run St.empty ops).w.node c).isCont = true)
    (n : Nat) (hn : n < (run St.empty ops).w.size) (hu : ∀ op ∈ ops, op ≠ .allChildren n ∧ op ≠ .allObjects n) :
    Current (run St.empty ops) n := by
  obtain ⟨l, h1, h2⟩ := allChildren_tree rfl hl hr hpl hp hn
  exact current_of_none (run_unasked ops _ n rfl hu) h1 h2

/-- **C250 (after `all_children`).** Under the same conditions on the history, but whatever was asked before: right after
`all_children` of the object, `all_objects` holds exactly the object and its descendants. -/
theorem C250_refreshed (ops : List Op) (hl : LoadsFresh St.empty ops)
    (hr : Tree.runOk Tree.World.empty (ops.filterMap Op.treeOp) = some (run St.empty ops).w)
    (hpl : ∀ op ∈ ops.filterMap Op.treeOp, op.plain)
    (hp : ∀ op ∈ ops.filterMap Op.treeOp, ∀ c, op.newParent = some c → ((run St.empty ops).w.node c).isCont = true)
    (n : Nat) (hn : n < (run St.empty ops).w.size) : Current (run St.empty (ops ++ [.allChildren n])) n := by
  obtain ⟨l, h1, h2⟩ := allChildren_tree rfl hl hr hpl hp hn
  obtain ⟨d, d1, d2, d3⟩ := allChildren_ok h1
  have ha : ∀ (xs : List Op) (s : St), run s (xs ++ [.allChildren n]) = (allChildren (run s xs) n).1 := by
    intro xs
    induction xs with
    | nil => intro s; rfl
    | cons x xs ih => intro s; exact ih (step s x)
  rw [ha]
  have e : allObjects (allChildren (run St.empty ops) n).1 n = ((allChildren (run St.empty ops) n).1, .ok d) := by
    rw [allObjects]
    simp only [d1]
  unfold Current
  rw [e]
  refine ⟨d, rfl, d2, fun i y => ?_⟩
  rw [d3, h2, (allChildren_keeps _ n).1]

/-- a container with a child, which has a child -/
def family : List Op := [.tree (.new true 0 none), .load true 0 none 7, .tree (.new true 0 none),
  .tree (.setParent 1 (.cont 0)), .tree (.setParent 2 (.cont 1))]

/-- non-vacuity: the descendants, and after a further child was added and `all_children` called -/
example : (allObjects (run St.empty family) 0).2 = .ok [(8, 0), (7, 1), (9, 2)] ∧
    (allObjects (run St.empty (family ++ [.allObjects 0, .tree (.new true 0 none), .tree (.setParent 3 (.cont 0)), .newId 1,
      .allChildren 0])) 0).2 = .ok [(8, 0), (11, 3), (10, 1), (9, 2)] := by decide +kernel

/-- **C250 (violated).** A child that is added after `all_objects` was asked for is not in it, and one that was removed still is;
an object that was given a new id is found under the old one only. -/
theorem C250_current_fails :
    (¬ ∀ ops n, LoadsFresh St.empty ops → n < (run St.empty ops).w.size → Current (run St.empty ops) n) ∧
    (allObjects (run St.empty (family ++ [.allObjects 0, .tree (.new true 0 none), .tree (.setParent 3 (.cont 0))])) 0).2 =
      .ok [(8, 0), (7, 1), (9, 2)] ∧
    (allObjects (run St.empty (family ++ [.allObjects 0, .tree (.resetParent 1)])) 0).2 = .ok [(8, 0), (7, 1), (9, 2)] ∧
    (allObjects (run St.empty (family ++ [.allObjects 0, .newId 1])) 0).2 = .ok [(8, 0), (7, 1), (9, 2)] := by
  refine ⟨?_, by decide +kernel, by decide +kernel, by decide +kernel⟩
  intro h
  obtain ⟨d, h1, -, h2⟩ := h [.tree (.new true 0 none), .allObjects 0, .newId 0] 0
    (by
      refine ⟨?_, ?_, ?_, trivial⟩ <;> intro a b c i hc <;> cases hc)
    (by decide +kernel)
  have e1 : (allObjects (run St.empty [.tree (.new true 0 none), .allObjects 0, .newId 0]) 0).2 = .ok [(0, 0)] := by
    decide +kernel
  rw [e1] at h1
  cases h1
  have e2 : (allObjects (run St.empty [.tree (.new true 0 none), .allObjects 0, .newId 0]) 0).1.oid 0 = some 1 := by
    decide +kernel
  have := (h2 1 0).mpr ⟨.refl, e2⟩
  simp at this

/-- The objects that have been met have distinct ids, so there are no more of them than objects. -/
theorem objLoop_terminates {size : Nat} : ∀ (k : Nat) (s : St) (d : Dict Nat Nat) (stack ret : List Nat), Lists s d ret →
    (Dict.keys d).Nodup → (∀ c x, x ∈ (s.w.node c).children → x < size) → (∀ x ∈ stack, x < size) → (∀ x ∈ ret, x < size) →
    size + 1 ≤ k + ret.length → (objLoop k s d stack ret).2.2 ≠ .error .runtimeError := by
  have hnd : ∀ (s : St) (d : Dict Nat Nat) (ret : List Nat), Lists s d ret → (Dict.keys d).Nodup → ret.Nodup := by
    intro s d ret h hn
    have e : (d.map (fun p => (some p.1, p.2))).map Prod.fst = ret.map s.oid := by
      rw [h, List.map_map]; rfl
    have e2 : (d.map (fun p => (some p.1, p.2))).map Prod.fst = (Dict.keys d).map some := by
      rw [List.map_map, Dict.keys, List.map_map]; rfl
    have : (ret.map s.oid).Nodup := by
      rw [← e, e2]
      exact hn.map (Option.some_injective _)
    exact this.of_map
  intro k
  induction k with
  | zero =>
    intro s d stack ret h1 h2 h3 h4 h5 h6
    have := Tree.length_le_of_lt (hnd s d ret h1 h2) h5
    omega
  | succ k ih =>
    intro s d stack ret h1 h2 h3 h4 h5 h6
    cases stack with
    | nil => simp [objLoop]
    | cons n stack =>
      rw [objLoop]
      cases hs : setItem d (objectId s n).2 n with
      | error e => simp [setItem_error hs]
      | ok d' =>
        obtain ⟨hk, rfl⟩ := setItem_ok hs
        have hn : n < size := h4 n List.mem_cons_self
        refine ih _ _ _ _ (h1.snoc (fun x i hx => objectId_keeps hx) (objectId_self s n)) ?_ (by rw [objectId_w]; exact h3) ?_ ?_
          (by simp; omega)
        · simp only [Dict.keys, List.map_append, List.map_cons, List.map_nil] at hk ⊢
          rw [List.nodup_append]
          refine ⟨h2, by simp, ?_⟩
          intro a ha b hb
          simp only [List.mem_singleton] at hb
          rintro rfl
          exact hk (hb ▸ ha)
        · intro x hx
          rcases List.mem_append.mp hx with hx | hx
          · exact h3 n x (List.mem_reverse.mp hx)
          · exact h4 x (List.mem_cons_of_mem _ hx)
        · intro x hx
          rcases List.mem_append.mp hx with hx | hx
          · exact h5 x hx
          · simp only [List.mem_singleton] at hx; exact hx ▸ hn

theorem objLoop_errors : ∀ (k : Nat) (s : St) (d : Dict Nat Nat) (stack ret : List Nat) (e : Err),
    (objLoop k s d stack ret).2.2 = .error e → e = .typeError ∨ e = .runtimeError := by
  intro k
  induction k with
  | zero =>
    intro s d stack ret e h
    cases stack with
    | nil => simp [objLoop] at h
    | cons => simp [objLoop] at h; exact .inr h.symm
  | succ k ih =>
    intro s d stack ret e h
    cases stack with
    | nil => simp [objLoop] at h
    | cons n stack =>
      rw [objLoop] at h
      cases hs : setItem d (objectId s n).2 n with
      | error e' =>
        simp only [hs] at h
        cases h
        exact .inl (setItem_error hs)
      | ok d' =>
        simp only [hs] at h
        exact ih _ _ _ _ _ h

/-- **C251 (it ends).** After any history of calls — also calls that raised and left an object its own ancestor, and whatever ids
were read — `all_children` of an existing object returns or raises TypeError; it does not run for ever. -/
theorem C251_ends (ops : List Op) (hpl : ∀ op ∈ ops.filterMap Op.treeOp, op.plain) (n : Nat) (hn : n < (run St.empty ops).w.size) :
    (∃ l, (allChildren (run St.empty ops) n).2 = .ok l) ∨ (allChildren (run St.empty ops) n).2 = .error .typeError := by
  have hi := Tree.run_inv (ops.filterMap Op.treeOp) Tree.World.empty Tree.inv_empty hpl
  have hw : (run St.empty ops).w = Tree.run Tree.World.empty (ops.filterMap Op.treeOp) := run_w ops St.empty
  rw [← hw] at hi
  have hlt : ∀ c x, x ∈ ((run St.empty ops).w.node c).children → x < (run St.empty ops).w.size := by
    intro c x hx
    by_contra hc
    have := hi.lists c x hx
    rw [(hi.fresh x (by omega)).1] at this; simp at this
  have ht := objLoop_terminates ((run St.empty ops).w.size + 1) (run St.empty ops) [] [n] [] rfl List.nodup_nil hlt
    (by simpa using hn) (by simp) (by simp)
  cases h : (allChildren (run St.empty ops) n).2 with
  | ok l => exact .inl ⟨l, rfl⟩
  | error e =>
    rcases objLoop_errors _ _ _ _ _ _ h with rfl | rfl
    · exact .inr rfl
    · exact absurd h ht

/-- two containers that are each other's parent: the assignment that closes the circle raises -/
def circle : List Op := [.tree (.new true 0 none), .tree (.new true 0 none), .tree (.setParent 1 (.cont 0)),
  .tree (.setParent 0 (.cont 1))]

/-- non-vacuity -/
example : (allChildren (run St.empty circle) 0).2 = .error .typeError := by decide +kernel

/-- **C251 (what it returned).** In any state: when `all_children` returns a list, `all_objects` after it holds exactly the objects
of the list, each under its id.  Missing: when it raised (`C251_whole_fails`). -/
theorem C251_whole_partial (s : St) (n : Nat) (l : List Nat) (h : (allChildren s n).2 = .ok l) :
    ∃ d, (allObjects (allChildren s n).1 n).2 = .ok d ∧ ∀ i y, (i, y) ∈ d ↔ y ∈ l ∧ (allChildren s n).1.oid y = some i := by
  obtain ⟨d, d1, -, d3⟩ := allChildren_ok h
  refine ⟨d, ?_, d3⟩
  rw [allObjects]
  simp only [d1]

/-- non-vacuity -/
example : (allChildren (run St.empty family) 1).2 = .ok [1, 2] := by decide +kernel

/-- a container with two children whose ids, as read from a file, are the same -/
def copied : List Op := [.load true 0 none 1, .load true 0 none 5, .load true 0 none 5, .tree (.setParent 1 (.cont 0)),
  .tree (.setParent 2 (.cont 0))]

/-- **C251 (violated).** With two children of the same id, `all_objects` raises the first time it is asked for and the second time
returns, without a word, a dictionary in which one child is missing. -/
theorem C251_whole_fails :
    (allObjects (run St.empty copied) 0).2 = .error .typeError ∧
    (allObjects (run St.empty (copied ++ [.allObjects 0])) 0).2 = .ok [(1, 0), (5, 2)] ∧
    ((run St.empty (copied ++ [.allObjects 0])).w.node 1).parent = .cont 0 := by
  refine ⟨?_, ?_, ?_⟩ <;> decide +kernel

theorem step_oid {s : St} {op : Op} {n i : Nat} (hn : n < s.w.size) (h : s.oid n = some i) (hop : op ≠ .newId n) :
    (step s op).oid n = some i := by
  cases op with
  | tree op => exact h
  | load a b c j => simp only [step, load]; rw [upd_ne _ _ (by omega)]; exact h
  | objectId m => exact objectId_keeps h
  | newId m => simp only [step, newId]; rw [upd_ne _ _ (by rintro rfl; exact hop rfl)]; exact h
  | allChildren m => exact (allChildren_keeps s m).2.2.1 n i h
  | allObjects m =>
    simp only [step]
    rcases allObjects_state s m with e | e <;> rw [e]
    · exact h
    · exact (allChildren_keeps s m).2.2.1 n i h

/-- **C252 (an id stays).** From any state whose tree was made by calls compared by identity, the `object_id` of an object, once
asked for, is the same after any further calls other than `generate_new_id` of that object. -/
theorem C252_stays (pre ops : List Op) (hpl : ∀ op ∈ (pre ++ ops).filterMap Op.treeOp, op.plain) (n : Nat)
    (hn : n < (run St.empty pre).w.size) (hop : ∀ op ∈ ops, op ≠ .newId n) :
    (objectId (run (objectId (run St.empty pre) n).1 ops) n).2 = (objectId (run St.empty pre) n).2 := by
  have key : ∀ (ops : List Op) (s : St) (i : Nat), Tree.Inv s.w → (∀ op ∈ ops.filterMap Op.treeOp, op.plain) → n < s.w.size →
      s.oid n = some i → (∀ op ∈ ops, op ≠ .newId n) → (run s ops).oid n = some i := by
    intro ops
    induction ops with
    | nil => intro s i _ _ _ h _; exact h
    | cons op ops ih =>
      intro s i hi hp hn h ho
      have hw := step_w s op
      refine ih _ _ ?_ (fun o hm => hp o ?_) ?_ (step_oid hn h (ho op List.mem_cons_self)) (fun o hm => ho o (List.mem_cons_of_mem _ hm))
      · rw [hw]
        cases ht : op.treeOp with
        | none => exact hi
        | some t => exact hi.step (hp t (by simp [ht]))
      · cases ht : op.treeOp with
        | none => simpa [ht] using hm
        | some t => simp only [List.filterMap_cons, ht]; exact List.mem_cons_of_mem _ hm
      · rw [hw]
        cases ht : op.treeOp with
        | none => exact hn
        | some t => exact Nat.lt_of_lt_of_le hn (Tree.step_grow hi.parLt t).1
  have hi := Tree.run_inv (pre.filterMap Op.treeOp) Tree.World.empty Tree.inv_empty
    (fun o ho => hpl o (by rw [List.filterMap_append]; exact List.mem_append_left _ ho))
  have hw : (run St.empty pre).w = Tree.run Tree.World.empty (pre.filterMap Op.treeOp) := run_w pre St.empty
  rw [← hw] at hi
  have := key ops (objectId (run St.empty pre) n).1 _ (by rw [objectId_w]; exact hi)
    (fun o ho => hpl o (by rw [List.filterMap_append]; exact List.mem_append_right _ ho)) (by rw [objectId_w]; exact hn)
    (objectId_self _ n) hop
  rw [objectId, this]

/-- **C252 (an id is of one object).** After any history in which ids read from files are not those of other objects at that time,
different objects have different `object_id`s; and `generate_new_id` gives an id that no object has, and changes no other. -/
theorem C252_own (ops : List Op) (hl : LoadsFresh St.empty ops) (a b : Nat) (hab : a ≠ b) :
    (objectId (run St.empty ops) a).2 ≠ (objectId (objectId (run St.empty ops) a).1 b).2 ∧
    (∀ x, (run St.empty ops).oid x ≠ (newId (run St.empty ops) a).oid a) ∧
    (newId (run St.empty ops) a).oid b = (run St.empty ops).oid b := by
  have hi := run_idInv ops _ idInv_empty hl
  refine ⟨?_, ?_, upd_ne _ _ hab.symm⟩
  · intro e
    have h1 := objectId_self (run St.empty ops) a
    have h2 := objectId_self (objectId (run St.empty ops) a).1 b
    have h3 := objectId_keeps (n := b) h1
    rw [e] at h3
    exact hab ((objectId_inv (objectId_inv hi a) b).inj a b _ h3 h2)
  · intro x
    simp only [newId, upd_self]
    intro hx
    exact absurd (hi.below x _ hx) (Nat.lt_irrefl _)

/-- non-vacuity -/
example : (objectId (run (objectId (run St.empty family) 2).1 [.tree (.resetParent 2), .newId 1, .allObjects 0]) 2).2 = 8 ∧
    (objectId (run St.empty family) 1).2 = 7 ∧ (newId (run St.empty family) 1).oid 1 = some 8 := by decide +kernel

end Verif.AllObj

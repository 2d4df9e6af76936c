import Verif.Model.Tree
import Verif.Base.Tac
import Mathlib.Logic.Relation

/-!
# Lemmas about the container tree
-/

namespace Verif.Tree
open Verif Relation

/-- `b` is the parent of `a` -/
def Up (w : World) (a b : Nat) : Prop := (w.node a).parent = .cont b

/-- no object is its own ancestor -/
def Acyclic (w : World) : Prop := ∀ n, ¬ TransGen (Up w) n n

/-- `b` is the parent of `a` and a `Container` -/
def UpC (w : World) (a b : Nat) : Prop := w.contParent a = some b

theorem upC_iff {w : World} {a b : Nat} : UpC w a b ↔ Up w a b ∧ (w.node b).isCont = true := by
  unfold UpC Up World.contParent
  cases h : (w.node a).parent with
  | none => simp
  | proxy => simp
  | cont p =>
    simp only [Par.cont.injEq]
    by_cases hp : (w.node p).isCont = true
    · simp only [hp, if_true, Option.some.injEq]
      constructor
      · rintro rfl; exact ⟨rfl, hp⟩
      · exact fun h => h.1
    · simp only [hp]
      constructor
      · intro h; simp at h
      · rintro ⟨rfl, h⟩; exact absurd h hp

@[simp] theorem upd_node (w : World) (n : Nat) (f : Node → Node) (m : Nat) :
    (w.upd n f).node m = if m = n then f (w.node n) else w.node m := rfl

@[simp] theorem upd_size (w : World) (n : Nat) (f : Node → Node) : (w.upd n f).size = w.size := rfl

/-- only the marks differ -/
structure SameTree (w w' : World) : Prop where
  size : w'.size = w.size
  parent : ∀ n, (w'.node n).parent = (w.node n).parent
  children : ∀ n, (w'.node n).children = (w.node n).children
  isCont : ∀ n, (w'.node n).isCont = (w.node n).isCont
  dtype : ∀ n, (w'.node n).dtype = (w.node n).dtype
  eqClass : ∀ n, (w'.node n).eqClass = (w.node n).eqClass

theorem SameTree.refl (w : World) : SameTree w w := ⟨rfl, fun _ => rfl, fun _ => rfl, fun _ => rfl, fun _ => rfl, fun _ => rfl⟩

theorem SameTree.trans {a b c : World} (h : SameTree a b) (g : SameTree b c) : SameTree a c :=
  ⟨g.size.trans h.size, fun n => (g.parent n).trans (h.parent n), fun n => (g.children n).trans (h.children n),
    fun n => (g.isCont n).trans (h.isCont n), fun n => (g.dtype n).trans (h.dtype n),
    fun n => (g.eqClass n).trans (h.eqClass n)⟩

theorem sameTree_mark (w : World) (n : Nat) (b : Bool) : SameTree w (w.upd n fun x => { x with modified := b }) := by
  refine ⟨rfl, ?_, ?_, ?_, ?_, ?_⟩ <;> (intro m; simp only [upd_node]; split <;> simp_all)

theorem SameTree.up {w w' : World} (h : SameTree w w') : Up w' = Up w := by
  funext a b; unfold Up; rw [h.parent]

theorem SameTree.upC {w w' : World} (h : SameTree w w') : UpC w' = UpC w := by
  funext a b
  apply propext
  rw [upC_iff, upC_iff, h.up, h.isCont]

theorem SameTree.contParent {w w' : World} (h : SameTree w w') (n : Nat) : w'.contParent n = w.contParent n := by
  unfold World.contParent
  rw [h.parent]
  cases (w.node n).parent <;> simp [h.isCont]

theorem markUp_same : ∀ (k : Nat) (w : World) (n : Nat), SameTree w (markUp k w n).1 := by
  intro k
  induction k with
  | zero => intro w n; exact SameTree.refl w
  | succ k ih =>
    intro w n
    simp only [markUp]
    cases h : w.contParent n with
    | none => exact sameTree_mark w n true
    | some p => exact (sameTree_mark w n true).trans (ih _ p)

theorem setModified_same (w : World) (n : Nat) (b : Bool) : SameTree w (setModified w n b).1 := by
  unfold setModified
  split
  · exact markUp_same _ w n
  · exact sameTree_mark w n false

/-- a call that returns has marked exactly the object and its chain of Container parents -/
theorem markUp_marks : ∀ (k : Nat) (w w' : World) (n : Nat), markUp k w n = (w', .ok ()) →
    ∀ y, (w'.node y).modified = true ↔ (w.node y).modified = true ∨ ReflTransGen (UpC w) n y := by
  intro k
  induction k with
  | zero => intro w w' n h; simp [markUp] at h
  | succ k ih =>
    intro w w' n h y
    simp only [markUp] at h
    cases hp : w.contParent n with
    | none =>
      simp only [hp, Prod.mk.injEq, and_true] at h
      subst h
      simp only [upd_node]
      by_cases hy : y = n
      · subst hy; simp [ReflTransGen.refl]
      · simp only [hy, if_false]
        constructor
        · exact Or.inl
        · rintro (h | h)
          · exact h
          · rcases ReflTransGen.cases_head h with h | ⟨c, hc, -⟩
            · exact absurd h.symm hy
            · simp [UpC, hp] at hc
    | some p =>
      simp only [hp] at h
      rw [ih _ _ _ h y, (sameTree_mark w n true).upC]
      simp only [upd_node]
      by_cases hy : y = n
      · subst hy; simp [ReflTransGen.refl]
      · simp only [hy, if_false]
        refine or_congr_right ?_
        constructor
        · intro h; exact ReflTransGen.head hp h
        · intro h
          rcases ReflTransGen.cases_head h with h | ⟨c, hc, h⟩
          · exact absurd h.symm hy
          · simp only [UpC, hp, Option.some.injEq] at hc
            subst hc; exact h

theorem markUp_ok_noCycle : ∀ (k : Nat) (w w' : World) (n : Nat), markUp k w n = (w', .ok ()) → ¬ TransGen (UpC w) n n := by
  intro k
  induction k with
  | zero => intro w w' n h; simp [markUp] at h
  | succ k ih =>
    intro w w' n h ht
    simp only [markUp] at h
    rcases TransGen.head'_iff.1 ht with ⟨c, hc, hr⟩
    have hc' : w.contParent n = some c := hc
    simp only [hc'] at h
    refine ih _ _ _ h ?_
    rw [(sameTree_mark w n true).upC]
    exact TransGen.tail' hr hc

theorem markUp_error : ∀ (k : Nat) (w w' : World) (n : Nat) (e : Err), markUp k w n = (w', .error e) →
    ∃ l : List Nat, l.length = k + 1 ∧ l.Pairwise (TransGen (UpC w)) ∧ ∀ y ∈ l, ReflTransGen (UpC w) n y := by
  intro k
  induction k with
  | zero => intro w w' n e _; exact ⟨[n], rfl, by simp, by simp [ReflTransGen.refl]⟩
  | succ k ih =>
    intro w w' n e h
    simp only [markUp] at h
    cases hp : w.contParent n with
    | none => simp [hp] at h
    | some p =>
      simp only [hp] at h
      obtain ⟨l, h1, h2, h3⟩ := ih _ _ _ _ h
      rw [(sameTree_mark w n true).upC] at h2 h3
      refine ⟨n :: l, by simp [h1], ?_, ?_⟩
      · rw [List.pairwise_cons]
        exact ⟨fun y hy => TransGen.head' hp (h3 y hy), h2⟩
      · intro y hy
        simp only [List.mem_cons] at hy
        rcases hy with rfl | hy
        · exact ReflTransGen.refl
        · exact ReflTransGen.head hp (h3 y hy)

theorem length_le_of_lt {l : List Nat} {k : Nat} (hn : l.Nodup) (h : ∀ y ∈ l, y < k) : l.length ≤ k := by
  have : l ⊆ List.range k := fun y hy => List.mem_range.2 (h y hy)
  have := (List.Nodup.subperm hn this).length_le
  simpa using this

/-- parents are existing objects -/
def ParLt (w : World) : Prop := ∀ x c, (w.node x).parent = .cont c → c < w.size

theorem markUp_ok {w : World} {n : Nat} (hn : n < w.size) (hp : ParLt w) (ha : ∀ n, ¬ TransGen (UpC w) n n) :
    ∃ w', markUp w.size w n = (w', .ok ()) := by
  cases h : markUp w.size w n with
  | mk w' r =>
    cases r with
    | ok u => exact ⟨w', rfl⟩
    | error e =>
      exfalso
      obtain ⟨l, h1, h2, h3⟩ := markUp_error _ _ _ _ _ h
      have hnd : l.Nodup := List.Pairwise.imp (fun {a b} (h : TransGen (UpC w) a b) (e : a = b) => ha b (e ▸ h)) h2
      have hlt : ∀ y ∈ l, y < w.size := by
        intro y hy
        rcases ReflTransGen.cases_tail (h3 y hy) with h | ⟨b, -, hb⟩
        · rw [h]; exact hn
        · exact hp b y (upC_iff.1 hb).1
      have := length_le_of_lt hnd hlt
      omega

/-- adding one edge -/
theorem acyclic_add {r r' : Nat → Nat → Prop} {x c : Nat} (hr : ∀ a b, r' a b → r a b ∨ (a = x ∧ b = c))
    (hx : r' x c) (ha : ∀ n, ¬ TransGen r n n) (hc : ¬ TransGen r' c c) : ∀ n, ¬ TransGen r' n n := by
  have key : ∀ a b, TransGen r' a b → TransGen r a b ∨ (ReflTransGen r' a x ∧ ReflTransGen r' c b) := by
    intro a b h
    induction h with
    | single h =>
      rcases hr _ _ h with h | ⟨rfl, rfl⟩
      · exact .inl (.single h)
      · exact .inr ⟨.refl, .refl⟩
    | tail h1 h2 ih =>
      rcases ih with ih | ⟨i1, i2⟩
      · rcases hr _ _ h2 with h | ⟨rfl, rfl⟩
        · exact .inl (ih.tail h)
        · exact .inr ⟨h1.to_reflTransGen, .refl⟩
      · exact .inr ⟨i1, i2.tail h2⟩
  intro n h
  rcases key n n h with h | ⟨h1, h2⟩
  · exact ha n h
  · exact hc (TransGen.tail' (h2.trans h1) hx)

theorem acyclic_mono {r r' : Nat → Nat → Prop} (hr : ∀ a b, r' a b → r a b) (ha : ∀ n, ¬ TransGen r n n) :
    ∀ n, ¬ TransGen r' n n := fun n h => ha n (TransGen.mono (fun a b => hr a b) n n h)

/-- What one operation does to the parents: the outcome tree `w1` up to marks, and whether it succeeded -/
theorem setParent_shape (w : World) (x : Nat) (p : Par) :
    (setParent w x p).1 = w ∨
    (∃ c, p = .cont c ∧ (∀ d, (w.node x).parent ≠ .cont d) ∧ setParent w x p = attach w x c) ∨
    ((w.node x).parent = .none ∧ (∀ c, p = .cont c → (w.node c).isCont = false) ∧
      (setParent w x p).1 = w.upd x fun n => { n with parent := p }) := by
  unfold setParent
  split
  · exact .inl rfl
  · rename_i hne
    cases hx : (w.node x).parent with
    | cont d => exact .inl rfl
    | proxy i ms =>
      cases p with
      | none => exact .inl rfl
      | proxy => exact .inl rfl
      | cont c =>
        simp only
        split
        · exact .inr (.inl ⟨c, rfl, by simp, rfl⟩)
        · exact .inl rfl
    | none =>
      cases p with
      | none => exact absurd hx hne
      | proxy i ms => exact .inr (.inr ⟨rfl, by simp, rfl⟩)
      | cont c =>
        simp only
        split
        · exact .inr (.inl ⟨c, rfl, by simp, rfl⟩)
        · rename_i h; exact .inr (.inr ⟨trivial, by simpa using h, rfl⟩)

/-- the tree after `attach`, before marking -/
def attached (w : World) (x c : Nat) : World :=
  (w.upd x fun n => { n with parent := .cont c }).upd c fun n => { n with children := n.children ++ [x] }

theorem attach_same (w : World) (x c : Nat) : SameTree (attached w x c) (attach w x c).1 :=
  setModified_same _ c true

theorem attached_parent (w : World) (x c n : Nat) :
    ((attached w x c).node n).parent = if n = x then .cont c else (w.node n).parent := by
  simp only [attached, upd_node]
  by_cases h1 : n = c <;> by_cases h2 : n = x <;> simp_all

theorem attached_children (w : World) (x c n : Nat) :
    ((attached w x c).node n).children = if n = c then (w.node n).children ++ [x] else (w.node n).children := by
  simp only [attached, upd_node]
  by_cases h1 : n = c <;> by_cases h2 : n = x <;> simp_all

theorem attached_isCont (w : World) (x c n : Nat) : ((attached w x c).node n).isCont = (w.node n).isCont := by
  simp only [attached, upd_node]
  by_cases h1 : n = c <;> by_cases h2 : n = x <;> simp_all

theorem attached_eqClass (w : World) (x c n : Nat) : ((attached w x c).node n).eqClass = (w.node n).eqClass := by
  simp only [attached, upd_node]
  by_cases h1 : n = c <;> by_cases h2 : n = x <;> simp_all

/-- the tree after `_remove_child`, before marking -/
def removed (w : World) (c x : Nat) : World :=
  (w.upd x fun n => { n with parent := .none }).upd c fun n =>
    { n with children := n.children.eraseP (fun y => pyEq w y x) }

theorem removeChild_shape (w : World) (c x : Nat) :
    ((removeChild w c x).1 = w ∧ (removeChild w c x).2 = .error .valueError ∧
      ∀ y ∈ (w.node c).children, pyEq w y x = false) ∨
    ((∃ y ∈ (w.node c).children, pyEq w y x = true) ∧ SameTree (removed w c x) (removeChild w c x).1) := by
  unfold removeChild
  split
  · rename_i h
    right
    refine ⟨by simpa [List.any_eq_true] using h, ?_⟩
    simp only
    cases hr : setModified (removed w c x) x true with
    | mk w1 r =>
      have h1 : SameTree (removed w c x) w1 := by have := setModified_same (removed w c x) x true; rwa [hr] at this
      have e : setModified ((w.upd x fun n => { n with parent := .none }).upd c fun n =>
        { n with children := n.children.eraseP (fun y => pyEq w y x) }) x true = (w1, r) := hr
      rw [e]
      cases r with
      | error e => exact h1
      | ok u => exact h1.trans (setModified_same _ c true)
  · rename_i h
    left
    refine ⟨rfl, rfl, ?_⟩
    simpa using h

theorem removed_parent (w : World) (c x n : Nat) :
    ((removed w c x).node n).parent = if n = x then .none else (w.node n).parent := by
  simp only [removed, upd_node]
  by_cases h1 : n = c <;> by_cases h2 : n = x <;> simp_all

theorem removed_children (w : World) (c x n : Nat) : ((removed w c x).node n).children =
    if n = c then (w.node n).children.eraseP (fun y => pyEq w y x) else (w.node n).children := by
  simp only [removed, upd_node]
  by_cases h1 : n = c <;> by_cases h2 : n = x <;> simp_all

theorem removed_isCont (w : World) (c x n : Nat) : ((removed w c x).node n).isCont = (w.node n).isCont := by
  simp only [removed, upd_node]
  by_cases h1 : n = c <;> by_cases h2 : n = x <;> simp_all

theorem removed_eqClass (w : World) (c x n : Nat) : ((removed w c x).node n).eqClass = (w.node n).eqClass := by
  simp only [removed, upd_node]
  by_cases h1 : n = c <;> by_cases h2 : n = x <;> simp_all

/-- The possible effects of an operation on the tree, up to marks -/
inductive Effect (w w' : World) (op : Op) (ok : Prop) : Prop
  | same (h : SameTree w w')
  | new (a : Bool) (b : Nat) (c : Option Nat) (ho : op = .new a b c) (h : w' = w.new a b c)
  | attach (x c : Nat) (hx : x < w.size) (hc : c < w.size) (ho : op.newParent = some c)
      (hp : ∀ d, (w.node x).parent ≠ .cont d) (h : SameTree (attached w x c) w')
      (hok : ok → ¬ TransGen (UpC (attached w x c)) c c)
  | dangle (x : Nat) (p : Par) (hx : x < w.size) (ho : ∀ c, p = .cont c → op.newParent = some c ∧ c < w.size)
      (hp : (w.node x).parent = .none)
      (hc : ∀ c, p = .cont c → (w.node c).isCont = false) (h : w' = w.upd x fun n => { n with parent := p })
  | remove (c x : Nat) (hx : x < w.size) (hc : c < w.size)
      (hy : ∃ y ∈ (w.node c).children, pyEq w y x = true) (h : SameTree (removed w c x) w')

theorem attach_ok {w w' : World} {x c : Nat} (h : attach w x c = (w', .ok ())) :
    ¬ TransGen (UpC (attached w x c)) c c := by
  have h' : markUp (attached w x c).size (attached w x c) c = (w', .ok ()) := h
  exact markUp_ok_noCycle _ _ _ _ h'

theorem setParent_effect {w : World} {x : Nat} {p : Par} (op : Op) (hx : x < w.size)
    (ho : ∀ c, p = .cont c → op.newParent = some c ∧ c < w.size) :
    Effect w (setParent w x p).1 op ((setParent w x p).2 = .ok ()) := by
  rcases setParent_shape w x p with h | ⟨c, rfl, hp, h⟩ | ⟨hp, hc, h⟩
  · rw [h]; exact .same (SameTree.refl w)
  · obtain ⟨h1, h2⟩ := ho c rfl
    rw [h]
    refine .attach x c hx h2 h1 hp (attach_same w x c) ?_
    intro hk
    exact attach_ok (w' := (attach w x c).1) (by rw [← hk])
  · rw [h]; exact .dangle x p hx ho hp hc rfl

theorem removeChild_effect {w : World} {c x : Nat} (op : Op) (hx : x < w.size) (hc : c < w.size) (ok : Prop) :
    Effect w (removeChild w c x).1 op ok := by
  rcases removeChild_shape w c x with ⟨h, -, -⟩ | ⟨hy, h⟩
  · rw [h]; exact .same (SameTree.refl w)
  · exact .remove c x hx hc hy h

theorem step_effect (w : World) (hw : ParLt w) (op : Op) : Effect w (step w op).1 op ((step w op).2 = .ok ()) := by
  unfold step
  split
  · exact .same (SameTree.refl w)
  · rename_i hargs
    simp only [List.any_eq_true, decide_eq_true_eq, not_exists, not_and, not_le] at hargs
    cases op with
    | new a b c => exact .new a b c rfl rfl
    | setParent x p =>
      simp only
      cases p with
      | none => exact setParent_effect _ (hargs x (by simp [Op.args])) (by simp)
      | proxy => exact setParent_effect _ (hargs x (by simp [Op.args])) (by simp)
      | cont c =>
        refine setParent_effect _ (hargs x (by simp [Op.args])) ?_
        intro d hd; simp at hd; subst hd
        exact ⟨rfl, hargs c (by simp [Op.args])⟩
    | removeChild c x => exact removeChild_effect _ (hargs x (by simp [Op.args])) (hargs c (by simp [Op.args])) _
    | resetParent x =>
      simp only [resetParent]
      cases hp : (w.node x).parent with
      | none => exact .same (SameTree.refl w)
      | proxy => exact .same (SameTree.refl w)
      | cont c => exact removeChild_effect _ (hargs x (by simp [Op.args])) (hw x c hp) _
    | addChild c x =>
      have hx := hargs x (by simp [Op.args])
      have hc := hargs c (by simp [Op.args])
      have := setParent_effect (p := .cont c) (.addChild c x) hx
        (by intro d hd; simp at hd; subst hd; exact ⟨rfl, hc⟩)
      simp only [addChild]
      split
      · cases hp : (w.node x).parent with
        | cont d => exact .same (SameTree.refl w)
        | none => exact this
        | proxy => exact this
      · exact .same (SameTree.refl w)
    | setField c x =>
      have hx := hargs x (by simp [Op.args])
      have hc := hargs c (by simp [Op.args])
      simp only [setField]
      cases hp : w.contParent x with
      | some d => exact .same (setModified_same w c true)
      | none =>
        exact setParent_effect (p := .cont c) (.setField c x) hx
          (by intro d hd; simp at hd; subst hd; exact ⟨rfl, hc⟩)
    | setModified x b => exact .same (setModified_same w x b)

/-- invariant of all histories -/
structure Inv (w : World) : Prop where
  fresh : ∀ n, w.size ≤ n → (w.node n).parent = .none ∧ (w.node n).children = []
  parLt : ParLt w
  lists : ∀ c x, x ∈ (w.node c).children → (w.node x).parent = .cont c
  listed : ∀ c x, (w.node c).isCont = true → (w.node x).parent = .cont c → x ∈ (w.node c).children
  nodup : ∀ c, (w.node c).children.Nodup
  plain : ∀ n, (w.node n).eqClass = none

theorem inv_empty : Inv World.empty := by
  refine ⟨?_, ?_, ?_, ?_, ?_, ?_⟩ <;> simp [World.empty, ParLt]

theorem Inv.same {w w' : World} (h : Inv w) (s : SameTree w w') : Inv w' := by
  refine ⟨?_, ?_, ?_, ?_, ?_, ?_⟩
  · intro n hn; rw [s.parent, s.children]; exact h.fresh n (by rw [← s.size]; exact hn)
  · intro x c hx; rw [s.parent] at hx; rw [s.size]; exact h.parLt x c hx
  · intro c x hx; rw [s.children] at hx; rw [s.parent]; exact h.lists c x hx
  · intro c x hc hx; rw [s.parent] at hx; rw [s.children]; rw [s.isCont] at hc; exact h.listed c x hc hx
  · intro c; rw [s.children]; exact h.nodup c
  · intro n; rw [s.eqClass]; exact h.plain n

/-- no content equality -/
def Op.plain : Op → Prop
  | .new _ _ (some _) => False
  | _ => True

theorem Inv.step {w : World} (h : Inv w) {op : Op} (hop : op.plain) : Inv (step w op).1 := by
  rcases step_effect w h.parLt op with hs | ⟨a, b, c, ho, hw'⟩ | ⟨x, c, hx, hc, -, hp, hs, -⟩ | ⟨x, p, hx, ho, hp, hc, hw'⟩ |
    ⟨c, x, hx, hc, ⟨y, hy, hyx⟩, hs⟩
  · exact h.same hs
  · rw [hw']
    have hcn : c = none := by
      cases c with
      | none => rfl
      | some k => rw [ho] at hop; exact hop.elim
    subst hcn
    have hlt : ∀ c x, (w.node x).parent = .cont c → c ≠ w.size := fun c x h1 e => by
      have := h.parLt x c h1; omega
    refine ⟨?_, ?_, ?_, ?_, ?_, ?_⟩
    · intro n hn
      simp only [World.new] at hn ⊢
      rw [if_neg (by omega)]; exact h.fresh n (by omega)
    · intro x c hx
      simp only [World.new] at hx ⊢
      split at hx
      · simp at hx
      · have := h.parLt x c hx; omega
    · intro c x hx
      simp only [World.new] at hx ⊢
      split at hx
      · simp at hx
      · have h1 := h.lists c x hx
        rw [if_neg]; exact h1
        rintro rfl
        rw [(h.fresh w.size (Nat.le_refl _)).1] at h1; simp at h1
    · intro c x hc hx
      simp only [World.new] at hc hx ⊢
      split at hx
      · simp at hx
      · rw [if_neg (hlt c x hx)] at hc ⊢
        exact h.listed c x hc hx
    · intro c
      simp only [World.new]
      split
      · simp
      · exact h.nodup c
    · intro n
      simp only [World.new]
      split
      · rfl
      · exact h.plain n
  · refine Inv.same ?_ hs
    have hnl : ∀ d, x ∉ (w.node d).children := fun d hd => hp d (h.lists d x hd)
    refine ⟨?_, ?_, ?_, ?_, ?_, ?_⟩
    · intro n hn
      have hn' : w.size ≤ n := hn
      rw [attached_parent, attached_children, if_neg (by omega), if_neg (by omega)]
      exact h.fresh n hn'
    · intro y d hy
      rw [attached_parent] at hy
      show d < w.size
      split at hy
      · simp at hy; omega
      · exact h.parLt y d hy
    · intro d y hy
      rw [attached_children] at hy
      rw [attached_parent]
      split at hy
      · rename_i hd
        subst hd
        simp only [List.mem_append, List.mem_singleton] at hy
        rcases hy with hy | rfl
        · rw [if_neg (fun e : y = x => hnl d (e ▸ hy))]; exact h.lists d y hy
        · rw [if_pos rfl]
      · rw [if_neg (fun e : y = x => hnl d (e ▸ hy))]; exact h.lists d y hy
    · intro d y hd hy
      rw [attached_isCont] at hd
      rw [attached_parent] at hy
      rw [attached_children]
      split at hy
      · rename_i e
        simp only [Par.cont.injEq] at hy
        subst hy; subst e; simp
      · have := h.listed d y hd hy
        split
        · simp [this]
        · exact this
    · intro d
      rw [attached_children]
      split
      · rw [List.nodup_append]
        refine ⟨h.nodup d, by simp, ?_⟩
        intro a ha b hb e
        simp only [List.mem_singleton] at hb
        subst hb; subst e; exact hnl d ha
      · exact h.nodup d
    · intro n; rw [attached_eqClass]; exact h.plain n
  · rw [hw']
    have hnl : ∀ d, x ∉ (w.node d).children := fun d hd => by
      have := h.lists d x hd; rw [hp] at this; simp at this
    refine ⟨?_, ?_, ?_, ?_, ?_, ?_⟩
    · intro n hn
      have hn' : w.size ≤ n := hn
      simp only [upd_node]; rw [if_neg (by omega)]; exact h.fresh n hn'
    · intro y d hy
      simp only [upd_node] at hy
      show d < w.size
      split at hy
      · exact (ho d hy).2
      · exact h.parLt y d hy
    · intro d y hy
      have hy' : y ∈ (w.node d).children := by
        simp only [upd_node] at hy
        split at hy
        · rename_i e; subst e; exact hy
        · exact hy
      simp only [upd_node]
      rw [if_neg (fun e : y = x => hnl d (e ▸ hy'))]; exact h.lists d y hy'
    · intro d y hd hy
      have hd' : (w.node d).isCont = true := by
        simp only [upd_node] at hd
        split at hd
        · rename_i e; subst e; exact hd
        · exact hd
      have : y ∈ (w.node d).children := by
        simp only [upd_node] at hy
        split at hy
        · have := hc d hy; rw [this] at hd'; simp at hd'
        · exact h.listed d y hd' hy
      simp only [upd_node]
      split
      · rename_i e; subst e; exact this
      · exact this
    · intro d
      simp only [upd_node]
      split
      · exact h.nodup x
      · exact h.nodup d
    · intro n
      simp only [upd_node]
      split
      · exact h.plain x
      · exact h.plain n
  · refine Inv.same ?_ hs
    have hpe : ∀ y, pyEq w y x = decide (y = x) := by
      intro y; simp [pyEq, h.plain, Bool.beq_eq_decide_eq]
    rw [hpe] at hyx
    have hxy : y = x := by simpa using hyx
    subst hxy
    have hpar := h.lists c y hy
    have her : ∀ z, z ∈ ((removed w c y).node c).children ↔ z ∈ (w.node c).children ∧ z ≠ y := by
      intro z
      rw [removed_children, if_pos rfl]
      have : (w.node c).children.eraseP (fun z => pyEq w z y) = (w.node c).children.erase y := by
        rw [List.erase_eq_eraseP]
        congr 1
        funext z
        rw [hpe]
        by_cases e : z = y
        · subst e; simp
        · have : ¬ y = z := fun h => e h.symm
          simp [e, this]
      rw [this, (h.nodup c).mem_erase_iff]
      exact and_comm
    refine ⟨?_, ?_, ?_, ?_, ?_, ?_⟩
    · intro n hn
      have hn' : w.size ≤ n := hn
      rw [removed_parent, removed_children, if_neg (by omega), if_neg (by omega)]
      exact h.fresh n hn'
    · intro z d hz
      rw [removed_parent] at hz
      show d < w.size
      split at hz
      · simp at hz
      · exact h.parLt z d hz
    · intro d z hz
      rw [removed_parent]
      by_cases hd : d = c
      · subst hd
        obtain ⟨h1, h2⟩ := (her z).1 hz
        rw [if_neg h2]; exact h.lists d z h1
      · rw [removed_children, if_neg hd] at hz
        have := h.lists d z hz
        rw [if_neg]; exact this
        rintro rfl
        rw [hpar] at this; simp at this; exact hd this.symm
    · intro d z hd hz
      rw [removed_isCont] at hd
      rw [removed_parent] at hz
      split at hz
      · simp at hz
      · rename_i hzy
        have := h.listed d z hd hz
        by_cases hdc : d = c
        · subst hdc; exact (her z).2 ⟨this, hzy⟩
        · rw [removed_children, if_neg hdc]; exact this
    · intro d
      rw [removed_children]
      split
      · exact (h.nodup d).sublist List.eraseP_sublist
      · exact h.nodup d
    · intro n; rw [removed_eqClass]; exact h.plain n

theorem run_inv : ∀ (ops : List Op) (w : World), Inv w → (∀ op ∈ ops, op.plain) → Inv (run w ops) := by
  intro ops
  induction ops with
  | nil => intro w h _; exact h
  | cons op ops ih =>
    intro w h hp
    exact ih _ (h.step (hp op (by simp))) (fun o ho => hp o (by simp [ho]))

theorem runOk_run : ∀ (ops : List Op) (w w' : World), runOk w ops = some w' → run w ops = w' := by
  intro ops
  induction ops with
  | nil => intro w w' h; simpa [runOk, run] using h
  | cons op ops ih =>
    intro w w' h
    simp only [runOk] at h
    cases hs : step w op with
    | mk w1 r =>
      rw [hs] at h
      cases r with
      | error e => simp at h
      | ok u => simp only [run, hs]; exact ih _ _ h

/-- sizes grow, kinds of existing objects stay -/
structure Grow (w w' : World) : Prop where
  size : w.size ≤ w'.size
  isCont : ∀ n, n < w.size → (w'.node n).isCont = (w.node n).isCont

theorem step_grow {w : World} (hw : ParLt w) (op : Op) : Grow w (step w op).1 := by
  rcases step_effect w hw op with hs | ⟨a, b, c, ho, hw'⟩ | ⟨x, c, hx, hc, -, hp, hs, -⟩ | ⟨x, p, hx, ho, hp, hc, hw'⟩ |
    ⟨c, x, hx, hc, ⟨y, hy, hyx⟩, hs⟩
  · exact ⟨hs.size.ge, fun n _ => hs.isCont n⟩
  · rw [hw']
    refine ⟨by simp [World.new], ?_⟩
    intro n hn
    simp only [World.new]; rw [if_neg (by omega)]
  · exact ⟨hs.size.ge, fun n _ => by rw [hs.isCont, attached_isCont]⟩
  · rw [hw']
    refine ⟨Nat.le_refl _, fun n _ => ?_⟩
    simp only [upd_node]; split
    · rename_i e; subst e; rfl
    · rfl
  · exact ⟨hs.size.ge, fun n _ => by rw [hs.isCont, removed_isCont]⟩

/-- invariant of histories without errors that use Containers as parents (content equality allowed) -/
structure AInv (w : World) : Prop where
  parLt : ParLt w
  contPar : ∀ x c, (w.node x).parent = .cont c → (w.node c).isCont = true
  acyclic : Acyclic w

theorem ainv_empty : AInv World.empty := by
  refine ⟨by simp [World.empty, ParLt], by simp [World.empty], ?_⟩
  intro n h
  rcases TransGen.head'_iff.1 h with ⟨c, hc, -⟩
  simp [Up, World.empty] at hc

theorem AInv.same {w w' : World} (h : AInv w) (s : SameTree w w') : AInv w' := by
  refine ⟨?_, ?_, ?_⟩
  · intro x c hx; rw [s.parent] at hx; rw [s.size]; exact h.parLt x c hx
  · intro x c hx; rw [s.parent] at hx; rw [s.isCont]; exact h.contPar x c hx
  · intro n; rw [s.up]; exact h.acyclic n

theorem AInv.upC {w : World} (h : ∀ x c, (w.node x).parent = .cont c → (w.node c).isCont = true) : UpC w = Up w := by
  funext a b
  apply propext
  rw [upC_iff]
  exact ⟨fun x => x.1, fun x => ⟨x, h a b x⟩⟩

theorem AInv.step {w w' : World} (h : AInv w) {op : Op} (hs : step w op = (w', .ok ()))
    (hop : ∀ c, op.newParent = some c → c < w.size → (w.node c).isCont = true) : AInv w' := by
  have heff := step_effect w h.parLt op
  rw [hs] at heff
  simp only at heff
  rcases heff with hs | ⟨a, b, c, ho, hw'⟩ | ⟨x, c, hx, hc, ho, hp, hs, hok⟩ | ⟨x, p, hx, ho, hp, hc, hw'⟩ |
    ⟨c, x, hx, hc, ⟨y, hy, hyx⟩, hs⟩
  · exact h.same hs
  · rw [hw']
    refine ⟨?_, ?_, ?_⟩
    · intro x c hx
      simp only [World.new] at hx ⊢
      split at hx
      · simp at hx
      · have := h.parLt x c hx; omega
    · intro x c hx
      simp only [World.new] at hx ⊢
      split at hx
      · simp at hx
      · have := h.parLt x c hx
        rw [if_neg (by omega)]
        exact h.contPar x c hx
    · refine acyclic_mono ?_ h.acyclic
      intro a b hab
      simp only [Up, World.new] at hab
      split at hab
      · simp at hab
      · exact hab
  · refine AInv.same ?_ hs
    have hcp : ∀ y d, ((attached w x c).node y).parent = .cont d → ((attached w x c).node d).isCont = true := by
      intro y d hy
      rw [attached_parent] at hy
      rw [attached_isCont]
      split at hy
      · simp only [Par.cont.injEq] at hy; subst hy; exact hop _ ho hc
      · exact h.contPar y d hy
    refine ⟨?_, hcp, ?_⟩
    · intro y d hy
      rw [attached_parent] at hy
      show d < w.size
      split at hy
      · simp at hy; omega
      · exact h.parLt y d hy
    · refine acyclic_add (x := x) (c := c) ?_ ?_ h.acyclic ?_
      · intro a b hab
        simp only [Up] at hab ⊢
        rw [attached_parent] at hab
        split at hab
        · rename_i e; simp only [Par.cont.injEq] at hab; exact .inr ⟨e, hab.symm⟩
        · exact .inl hab
      · simp only [Up]; rw [attached_parent, if_pos rfl]
      · have := hok trivial
        rwa [AInv.upC hcp] at this
  · cases p with
    | cont c =>
      exfalso
      obtain ⟨h1, h2⟩ := ho c rfl
      have := hop c h1 h2
      rw [hc c rfl] at this; simp at this
    | none =>
      rw [hw']
      refine ⟨?_, ?_, ?_⟩
      · intro y d hy
        simp only [upd_node] at hy
        show d < w.size
        split at hy
        · simp at hy
        · exact h.parLt y d hy
      · intro y d hy
        simp only [upd_node] at hy ⊢
        split at hy
        · simp at hy
        · have := h.contPar y d hy
          split
          · rename_i e; subst e; exact this
          · exact this
      · refine acyclic_mono ?_ h.acyclic
        intro a b hab
        simp only [Up, upd_node] at hab
        split at hab
        · simp at hab
        · exact hab
    | proxy i ms =>
      rw [hw']
      refine ⟨?_, ?_, ?_⟩
      · intro y d hy
        simp only [upd_node] at hy
        show d < w.size
        split at hy
        · simp at hy
        · exact h.parLt y d hy
      · intro y d hy
        simp only [upd_node] at hy ⊢
        split at hy
        · simp at hy
        · have := h.contPar y d hy
          split
          · rename_i e; subst e; exact this
          · exact this
      · refine acyclic_mono ?_ h.acyclic
        intro a b hab
        simp only [Up, upd_node] at hab
        split at hab
        · simp at hab
        · exact hab
  · refine AInv.same ?_ hs
    refine ⟨?_, ?_, ?_⟩
    · intro z d hz
      rw [removed_parent] at hz
      show d < w.size
      split at hz
      · simp at hz
      · exact h.parLt z d hz
    · intro z d hz
      rw [removed_parent] at hz
      rw [removed_isCont]
      split at hz
      · simp at hz
      · exact h.contPar z d hz
    · refine acyclic_mono ?_ h.acyclic
      intro a b hab
      simp only [Up] at hab ⊢
      rw [removed_parent] at hab
      split at hab
      · simp at hab
      · exact hab

theorem runOk_ainv : ∀ (ops : List Op) (w w' : World), runOk w ops = some w' → AInv w →
    (∀ op ∈ ops, ∀ c, op.newParent = some c → (w'.node c).isCont = true) → AInv w' ∧ Grow w w' := by
  intro ops
  induction ops with
  | nil =>
    intro w w' h hi _
    simp only [runOk, Option.some.injEq] at h; subst h
    exact ⟨hi, ⟨Nat.le_refl _, fun _ _ => rfl⟩⟩
  | cons op ops ih =>
    intro w w' h hi hop
    simp only [runOk] at h
    -- kinds in the final world are those of the current one
    have grow : ∀ (ops : List Op) (w : World), ParLt w → runOk w ops = some w' → Grow w w' := by
      intro ops
      induction ops with
      | nil =>
        intro w _ h; simp only [runOk, Option.some.injEq] at h; subst h
        exact ⟨Nat.le_refl _, fun _ _ => rfl⟩
      | cons o os ih2 =>
        intro w hw h
        simp only [runOk] at h
        have hg := step_grow hw o
        have hpl : ParLt (step w o).1 := by
          rcases step_effect w hw o with hs | ⟨a, b, c, ho, hw'⟩ | ⟨x, c, hx, hc, ho, hp, hs, hok⟩ |
            ⟨x, p, hx, ho, hp, hc, hw'⟩ | ⟨c, x, hx, hc, hyy, hs⟩
          · intro x c hx; rw [hs.parent] at hx; rw [hs.size]; exact hw x c hx
          · rw [hw']; intro x c hx
            simp only [World.new] at hx ⊢
            split at hx
            · simp at hx
            · have := hw x c hx; omega
          · intro y d hy
            rw [hs.parent, attached_parent] at hy
            rw [hs.size]; show d < w.size
            split at hy
            · simp at hy; omega
            · exact hw y d hy
          · rw [hw']; intro y d hy
            simp only [upd_node] at hy
            show d < w.size
            split at hy
            · exact (ho d hy).2
            · exact hw y d hy
          · intro z d hz
            rw [hs.parent, removed_parent] at hz
            rw [hs.size]; show d < w.size
            split at hz
            · simp at hz
            · exact hw z d hz
        cases hs : step w o with
        | mk w1 r =>
          rw [hs] at h hg hpl
          cases r with
          | error e => simp at h
          | ok u =>
            have g2 := ih2 w1 hpl h
            have := hg.size
            exact ⟨le_trans hg.size g2.size, fun n hn => (g2.isCont n (by simp only at this; omega)).trans (hg.isCont n hn)⟩
    have gall := grow (op :: ops) w hi.parLt (by simp only [runOk]; exact h)
    cases hs : step w op with
    | mk w1 r =>
      rw [hs] at h
      cases r with
      | error e => simp at h
      | ok u =>
        have h1 := hi.step hs (fun c hc hlt => by rw [← gall.isCont c hlt]; exact hop op (by simp) c hc)
        exact ⟨(ih w1 w' h h1 (fun o ho => hop o (by simp [ho]))).1, gall⟩

/-- the stack loop of `all_children` -/
theorem allLoop_spec {w : World} (hl : ∀ c x, x ∈ (w.node c).children → (w.node x).parent = .cont c)
    (hnd : ∀ c, (w.node c).children.Nodup) (hlt : ∀ c x, x ∈ (w.node c).children → x < w.size) (ha : Acyclic w)
    (root : Nat) : ∀ (k : Nat) (stack ret : List Nat), (ret ++ stack).Nodup →
    (∀ y ∈ ret ++ stack, y < w.size) → w.size ≤ k + ret.length →
    (∀ y ∈ ret ++ stack, ReflTransGen (fun a b => b ∈ (w.node a).children) root y) →
    (∀ y ∈ ret ++ stack, y = root ∨ ∃ p ∈ ret, (w.node y).parent = .cont p) →
    (∀ p ∈ ret, ∀ y ∈ (w.node p).children, y ∈ ret ++ stack) →
    ∃ l, allLoop w k stack ret = .ok l ∧ l.Nodup ∧ ret <+: l ∧ (∀ y ∈ stack, y ∈ l) ∧
      (∀ y ∈ l, y < w.size) ∧ (∀ y ∈ l, ReflTransGen (fun a b => b ∈ (w.node a).children) root y) ∧
      (∀ p ∈ l, ∀ y ∈ (w.node p).children, y ∈ l) := by
  have hdown : ∀ a b, ReflTransGen (fun a b => b ∈ (w.node a).children) a b → ReflTransGen (Up w) b a := by
    intro a b h
    induction h with
    | refl => exact .refl
    | tail _ h2 ih => exact ReflTransGen.head (hl _ _ h2) ih
  intro k
  induction k with
  | zero =>
    intro stack ret h1 h2 h3 h4 h5 h6
    have hle := length_le_of_lt h1 h2
    cases stack with
    | nil =>
      simp only [List.append_nil] at *
      exact ⟨ret, rfl, h1, List.prefix_refl _, by simp, h2, h4, h6⟩
    | cons n stack => simp at hle; omega
  | succ k ih =>
    intro stack ret h1 h2 h3 h4 h5 h6
    cases stack with
    | nil =>
      simp only [List.append_nil] at *
      exact ⟨ret, rfl, h1, List.prefix_refl _, by simp, h2, h4, h6⟩
    | cons n stack =>
      simp only [allLoop]
      have hnret : n ∉ ret := by
        rw [List.nodup_append] at h1
        intro hm; exact h1.2.2 n hm n (by simp) rfl
      have hch : ∀ y ∈ (w.node n).children, y ∉ ret ++ n :: stack := by
        intro y hy hm
        have hpy := hl n y hy
        rcases h5 y hm with rfl | ⟨p, hp, hpp⟩
        · have := hdown _ _ (h4 n (by simp))
          exact ha y (TransGen.head' hpy this)
        · rw [hpy] at hpp; simp at hpp; subst hpp; exact hnret hp
      have hmem : ∀ y, y ∈ (ret ++ [n]) ++ ((w.node n).children.reverse ++ stack) ↔
          y ∈ ret ++ n :: stack ∨ y ∈ (w.node n).children := by
        intro y; simp only [List.mem_append, List.mem_cons, List.mem_reverse, List.not_mem_nil]; tauto
      have hnd' : ((ret ++ [n]) ++ ((w.node n).children.reverse ++ stack)).Nodup := by
        have hp : ((ret ++ [n]) ++ ((w.node n).children.reverse ++ stack)).Perm
            ((ret ++ n :: stack) ++ (w.node n).children.reverse) := by
          rw [show ret ++ n :: stack = (ret ++ [n]) ++ stack by simp, List.append_assoc (ret ++ [n])]
          exact List.Perm.append_left _ List.perm_append_comm
        rw [hp.nodup_iff, List.nodup_append]
        refine ⟨h1, List.nodup_reverse.2 (hnd n), ?_⟩
        intro a ha' b hb e
        subst e
        exact hch a (List.mem_reverse.1 hb) ha'
      obtain ⟨l, l1, l2, l3, l4, l5, l6, l7⟩ := ih ((w.node n).children.reverse ++ stack) (ret ++ [n]) hnd'
        (by
          intro y hy
          rcases (hmem y).1 hy with h | h
          · exact h2 y h
          · exact hlt n y h)
        (by simp; omega)
        (by
          intro y hy
          rcases (hmem y).1 hy with h | h
          · exact h4 y h
          · exact (h4 n (by simp)).tail h)
        (by
          intro y hy
          rcases (hmem y).1 hy with h | h
          · rcases h5 y h with h | ⟨p, hp, hpp⟩
            · exact .inl h
            · exact .inr ⟨p, by simp [hp], hpp⟩
          · exact .inr ⟨n, by simp, hl n y h⟩)
        (by
          intro p hp y hy
          simp only [List.mem_append, List.mem_singleton] at hp
          rw [hmem]
          rcases hp with hp | rfl
          · exact .inl (h6 p hp y hy)
          · exact .inr hy)
      refine ⟨l, l1, l2, (List.prefix_append ret [n]).trans l3, ?_, l5, l6, l7⟩
      intro y hy
      simp only [List.mem_cons] at hy
      rcases hy with rfl | hy
      · exact l3.subset (by simp)
      · exact l4 y (by simp [hy])

theorem ancestorsFrom_spec (w : World) : ∀ (k : Nat) (x : Nat) (l : List Nat),
    ancestorsFrom k w (w.node x).parent = .ok l →
    (∀ y, y ∈ l ↔ TransGen (Up w) x y) ∧ l.Pairwise (TransGen (Up w)) := by
  intro k
  induction k with
  | zero =>
    intro x l h
    cases hp : (w.node x).parent with
    | none =>
      simp only [hp, ancestorsFrom, Except.ok.injEq] at h; subst h
      refine ⟨?_, by simp⟩
      intro y
      simp only [List.not_mem_nil, false_iff]
      intro ht
      rcases TransGen.head'_iff.1 ht with ⟨c, hc, -⟩
      simp [Up, hp] at hc
    | proxy => simp [hp, ancestorsFrom] at h
    | cont p => simp [hp, ancestorsFrom] at h
  | succ k ih =>
    intro x l h
    cases hp : (w.node x).parent with
    | none =>
      simp only [hp, ancestorsFrom, Except.ok.injEq] at h; subst h
      refine ⟨?_, by simp⟩
      intro y
      simp only [List.not_mem_nil, false_iff]
      intro ht
      rcases TransGen.head'_iff.1 ht with ⟨c, hc, -⟩
      simp [Up, hp] at hc
    | proxy => simp [hp, ancestorsFrom] at h
    | cont p =>
      simp only [hp, ancestorsFrom] at h
      cases hr : ancestorsFrom k w (w.node p).parent with
      | error e => simp [hr] at h
      | ok l' =>
        simp only [hr, Except.ok.injEq] at h; subst h
        obtain ⟨h1, h2⟩ := ih p l' hr
        refine ⟨?_, List.pairwise_cons.2 ⟨fun y hy => (h1 y).1 hy, h2⟩⟩
        intro y
        rw [List.mem_cons, h1]
        constructor
        · rintro (rfl | h)
          · exact .single hp
          · exact TransGen.head hp h
        · intro ht
          rcases TransGen.head'_iff.1 ht with ⟨c, hc, hr⟩
          have : p = c := by simp only [Up, hp, Par.cont.injEq] at hc; exact hc
          subst this
          rcases reflTransGen_iff_eq_or_transGen.1 hr with h | h
          · exact .inl h
          · exact .inr h

theorem ancestorsFrom_error (w : World) : ∀ (k : Nat) (x : Nat) (e : Err),
    ancestorsFrom k w (w.node x).parent = .error e →
    (∃ y i ms, ReflTransGen (Up w) x y ∧ (w.node y).parent = .proxy i ms) ∨
    ∃ l : List Nat, l.length = k + 1 ∧ l.Pairwise (TransGen (Up w)) ∧ ∀ y ∈ l, TransGen (Up w) x y := by
  intro k
  induction k with
  | zero =>
    intro x e h
    cases hp : (w.node x).parent with
    | none => simp [hp, ancestorsFrom] at h
    | proxy i ms => exact .inl ⟨x, i, ms, .refl, hp⟩
    | cont p => exact .inr ⟨[p], rfl, by simp, by simpa using .single hp⟩
  | succ k ih =>
    intro x e h
    cases hp : (w.node x).parent with
    | none => simp [hp, ancestorsFrom] at h
    | proxy i ms => exact .inl ⟨x, i, ms, .refl, hp⟩
    | cont p =>
      simp only [hp, ancestorsFrom] at h
      cases hr : ancestorsFrom k w (w.node p).parent with
      | ok l' => simp [hr] at h
      | error e' =>
        rcases ih p e' hr with ⟨y, i, ms, h1, h2⟩ | ⟨l, h1, h2, h3⟩
        · exact .inl ⟨y, i, ms, ReflTransGen.head hp h1, h2⟩
        · refine .inr ⟨p :: l, by simp [h1], List.pairwise_cons.2 ⟨h3, h2⟩, ?_⟩
          intro y hy
          simp only [List.mem_cons] at hy
          rcases hy with rfl | hy
          · exact .single hp
          · exact TransGen.head hp (h3 y hy)

theorem ancestorFrom_eq (w : World) (t : Nat) : ∀ (k : Nat) (p : Par) (l : List Nat), ancestorsFrom k w p = .ok l →
    ancestorFrom k w t p = .ok (l.find? fun y => decide ((w.node y).dtype = t)) := by
  intro k
  induction k with
  | zero => intro p l h; cases p <;> simp_all [ancestorsFrom, ancestorFrom]
  | succ k ih =>
    intro p l h
    cases p with
    | none => simp_all [ancestorsFrom, ancestorFrom]
    | proxy => simp_all [ancestorsFrom, ancestorFrom]
    | cont p =>
      simp only [ancestorsFrom] at h
      cases hr : ancestorsFrom k w (w.node p).parent with
      | error e => simp [hr] at h
      | ok l' =>
        simp only [hr, Except.ok.injEq] at h; subst h
        simp only [ancestorFrom]
        by_cases hd : (w.node p).dtype = t
        · simp [hd]
        · simp [hd, ih _ _ hr]

end Verif.Tree

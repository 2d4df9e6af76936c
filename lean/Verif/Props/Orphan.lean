import Verif.Model.Orphan
import Verif.Base.Tac

/-! # Properties of the check for tables that are not in the file (C247-C249) -/

namespace Verif.Orphan
open Verif

/-- `y` is an ancestor of `x` -/
inductive Anc (w : World) : Nat → Nat → Prop
  | parent {x y} : w.parent x = some y → Anc w x y
  | up {x y z} : w.parent x = some y → Anc w y z → Anc w x z

/-- the two containers are in one tree, and so in one file when it is written -/
def SameTree (w : World) (x y : Nat) : Prop := ∃ z, (z = x ∨ Anc w x z) ∧ (z = y ∨ Anc w y z)

/-- the container or an ancestor was read from a file or written to one -/
def InFile (w : World) (x : Nat) : Prop := ∃ z, (z = x ∨ Anc w x z) ∧ w.source z = true

theorem anc_iff {w : World} {x z : Nat} : Anc w x z ↔ ∃ y, w.parent x = some y ∧ (z = y ∨ Anc w y z) := by
  constructor
  · intro h
    cases h with
    | parent h => exact ⟨_, h, .inl rfl⟩
    | up h h' => exact ⟨_, h, .inr h'⟩
  · rintro ⟨y, h, rfl | h'⟩
    · exact .parent h
    · exact .up h h'

theorem anc_trans {w : World} {x y z : Nat} (h : Anc w x y) (h' : Anc w y z) : Anc w x z := by
  induction h with
  | parent h => exact .up h h'
  | up h _ ih => exact .up h (ih h')

theorem ancestors_mem {w : World} : ∀ {n c : Nat} {l : List Nat}, ancestors w n c = some l → ∀ y, y ∈ l ↔ Anc w c y := by
  intro n
  induction n with
  | zero =>
    intro c l h y
    rw [ancestors] at h
    cases hp : w.parent c with
    | none =>
      simp [hp] at h; subst h
      rw [anc_iff]; simp [hp]
    | some p => simp [hp] at h
  | succ n ih =>
    intro c l h y
    rw [ancestors] at h
    cases hp : w.parent c with
    | none =>
      simp [hp] at h; subst h
      rw [anc_iff]; simp [hp]
    | some p =>
      simp only [hp, Option.map_eq_some_iff] at h
      obtain ⟨l', h1, rfl⟩ := h
      rw [anc_iff, List.mem_cons, ih h1]
      simp [hp]

theorem fromFile_iff {w : World} : ∀ {n p : Nat} {b : Bool}, fromFile w n (some p) = some b → (b = true ↔ InFile w p) := by
  intro n
  induction n with
  | zero => intro p b h; simp [fromFile] at h
  | succ n ih =>
    intro p b h
    simp only [fromFile] at h
    split at h
    · rename_i hs
      simp at h; subst h
      simp only [true_iff]
      exact ⟨p, .inl rfl, hs⟩
    · rename_i hs
      cases hp : w.parent p with
      | none =>
        rw [hp] at h
        have : b = false := by cases n <;> simpa [fromFile] using h.symm
        subst this
        simp only [Bool.false_eq_true, false_iff]
        rintro ⟨z, rfl | hz, hz'⟩
        · exact hs hz'
        · rw [anc_iff, hp] at hz; simp at hz
      | some q =>
        rw [hp] at h
        rw [ih h]
        constructor
        · rintro ⟨z, hz, hz'⟩
          exact ⟨z, .inr (anc_iff.mpr ⟨q, hp, hz⟩), hz'⟩
        · rintro ⟨z, rfl | hz, hz'⟩
          · exact absurd hz' hs
          · obtain ⟨y, hy, hz⟩ := anc_iff.mp hz
            rw [hp] at hy
            simp only [Option.some.injEq] at hy
            subst hy
            exact ⟨z, hz, hz'⟩

/-- what `validate` finds -/
theorem validate_iff {w : World} {n r : Nat} {b : Bool} (h : validate w n r = .ok b) :
    b = true ↔ ∃ u, w.region r = some (some u) ∧ ¬ InFile w u ∧ ∀ z, Anc w u z → ¬ Anc w r z := by
  simp only [validate] at h
  split at h
  · rename_i hr
    simp at h; subst h; simp [hr]
  · rename_i tbl hr
    split at h
    · simp at h
    · rename_i hf
      simp at h; subst h
      cases tbl with
      | none => cases n <;> simp [fromFile] at hf
      | some u =>
        have := (fromFile_iff hf).mp rfl
        simp only [hr, Bool.false_eq_true, Option.some.injEq, false_iff, not_exists, not_and]
        rintro u' rfl h; exact absurd this h
    · rename_i hf
      split at h
      · simp at h
      · rename_i u
        split at h
        · rename_i a l ha hl
          simp only [Except.ok.injEq] at h
          subst h
          have hn : ¬ InFile w u := fun hi => by simpa using (fromFile_iff hf).mpr hi
          simp only [List.all_eq_true, Bool.not_eq_true', List.contains_eq_mem, decide_eq_false_iff_not]
          constructor
          · intro h
            exact ⟨u, hr, hn, fun z hz hz' => h z ((ancestors_mem ha z).mpr hz) ((ancestors_mem hl z).mpr hz')⟩
          · rintro ⟨u', hu, _, h⟩ z hz hz'
            rw [hr] at hu
            simp only [Option.some.injEq] at hu
            subst hu
            exact h z ((ancestors_mem ha z).mp hz) ((ancestors_mem hl z).mp hz')
        · simp at h

theorem validateAll_iff {w : World} {n : Nat} : ∀ {rs ws : List Nat}, validateAll w n rs = (ws, .ok ()) → ∀ r,
    r ∈ ws ↔ r ∈ rs ∧ ∃ u, w.region r = some (some u) ∧ ¬ InFile w u ∧ ∀ z, Anc w u z → ¬ Anc w r z
  | [], ws, h, r => by simp [validateAll] at h; subst h; simp
  | x :: rs, ws, h, r => by
    simp only [validateAll] at h
    cases hv : validate w n x with
    | error e => simp [hv] at h
    | ok b =>
      simp only [hv, Prod.mk.injEq] at h
      have ih := validateAll_iff (rs := rs) (ws := (validateAll w n rs).1) (by rw [← h.2]) r
      have hb := validate_iff hv
      rw [← h.1]
      cases b with
      | true =>
        simp only [if_true, List.mem_cons, ih]
        constructor
        · rintro (rfl | ⟨h1, h2⟩)
          · exact ⟨.inl rfl, hb.mp rfl⟩
          · exact ⟨.inr h1, h2⟩
        · rintro ⟨rfl | h1, h2⟩
          · exact .inl rfl
          · exact .inr ⟨h1, h2⟩
      | false =>
        simp only [Bool.false_eq_true, if_false, List.mem_cons, ih]
        constructor
        · rintro ⟨h1, h2⟩; exact ⟨.inr h1, h2⟩
        · rintro ⟨rfl | h1, h2⟩
          · exact absurd (hb.mpr h2) (by simp)
          · exact ⟨h1, h2⟩

/-! ## C247: warnings when a container is placed -/

/-- the region is placed: its parent has a parent -/
theorem sameTree_common {w : World} {r u p : Nat} (hr : w.parent r = some p) (h : SameTree w r u) :
    (∃ z, Anc w u z ∧ Anc w r z) ∨ (Anc w r u ∧ w.parent u = none) := by
  obtain ⟨z, h1, h2⟩ := h
  rcases h1 with rfl | h1
  · rcases h2 with rfl | h2
    · exact .inl ⟨p, .parent hr, .parent hr⟩
    · exact .inl ⟨p, anc_trans h2 (.parent hr), .parent hr⟩
  · rcases h2 with rfl | h2
    · cases hz : w.parent z with
      | none => exact .inr ⟨h1, rfl⟩
      | some q => exact .inl ⟨q, .parent hz, anc_trans h1 (.parent hz)⟩
    · exact .inl ⟨z, h2, h1⟩

/-- C247, where the table is not itself the root of the tree: giving a parent to a container (that had none) warns for exactly those
regions among its children whose table is neither in the same tree nor in a file. -/
theorem C247_warns_partial (w : World) (n c p : Nat) (w' : World) (ws : List Nat) (hc : w.parent c = none)
    (h : setParent w n c p = (w', ws, .ok ())) (r u : Nat) (hr : r ∈ w'.children c) (hp : w'.parent r = some c)
    (hu : w'.region r = some (some u)) (hroot : ¬ (Anc w' r u ∧ w'.parent u = none)) :
    r ∈ ws ↔ ¬ SameTree w' r u ∧ ¬ InFile w' u := by
  simp only [setParent, hc, reduceCtorEq, if_false, Option.isSome_none, Bool.false_eq_true, Prod.mk.injEq] at h
  obtain ⟨rfl, h⟩ := h
  rw [validateAll_iff h r]
  constructor
  · rintro ⟨_, u', hu', hf, hd⟩
    rw [hu] at hu'
    simp only [Option.some.injEq] at hu'
    subst hu'
    refine ⟨fun hs => ?_, hf⟩
    rcases sameTree_common hp hs with ⟨z, hz, hz'⟩ | hx
    · exact hd z hz hz'
    · exact hroot hx
  · rintro ⟨hs, hf⟩
    exact ⟨hr, u, hu, hf, fun z hz hz' => hs ⟨z, .inr hz', .inr hz⟩⟩

/-- no other container warns -/
theorem C247_only (w : World) (n c p : Nat) (w' : World) (ws : List Nat) (h : setParent w n c p = (w', ws, .ok ())) (r : Nat)
    (hr : r ∈ ws) : r ∈ w'.children c ∧ w.parent c = none ∧ ∃ u, w'.region r = some (some u) ∧ ¬ InFile w' u := by
  simp only [setParent] at h
  split at h
  · simp only [Prod.mk.injEq] at h; rw [← h.2.1] at hr; simp at hr
  · split at h
    · simp at h
    · rename_i hn
      simp only [Prod.mk.injEq] at h
      obtain ⟨rfl, h⟩ := h
      obtain ⟨h1, u, h2, h3, _⟩ := (validateAll_iff h r).mp hr
      exact ⟨h1, by simpa using hn, u, h2, h3⟩

/-- a table 0 with a region 1 to table 2, which has no parent, and a region 3 to table 4, which is in container 5 -/
def sample : World :=
  { parent := fun x => if x = 1 ∨ x = 3 then some 0 else if x = 4 then some 5 else none
    children := fun x => if x = 0 then [1, 3] else if x = 5 then [4] else []
    source := fun _ => false
    region := fun x => if x = 1 then some (some 2) else if x = 3 then some (some 4) else none }

example : (setParent sample 5 0 5).2 = ([1], .ok ()) := by rfl

/-- a table 0 with a region 1 to the table 2 -/
def aligned : World :=
  { parent := fun x => if x = 1 then some 0 else none
    children := fun x => if x = 0 then [1] else []
    source := fun _ => false
    region := fun x => if x = 1 then some (some 2) else none }

/-- a table 0 in a container 3; a region 1 to a table 2 -/
def placed : World :=
  { parent := fun x => if x = 0 then some 3 else none
    children := fun x => if x = 3 then [0] else []
    source := fun _ => false
    region := fun x => if x = 1 then some (some 2) else none }

theorem anc_range {w : World} {x z : Nat} (h : Anc w x z) : ∃ y, w.parent y = some z := by
  induction h with
  | parent h => exact ⟨_, h⟩
  | up _ _ ih => exact ih

/-- in the sample the table 2 is not in the tree, nor in a file -/
theorem sample_out : ¬ SameTree (setParent sample 5 0 5).1 1 2 ∧ ¬ InFile (setParent sample 5 0 5).1 2 := by
  have hno : ∀ z, ¬ Anc (setParent sample 5 0 5).1 2 z := by
    intro z h
    obtain ⟨y, hy, _⟩ := anc_iff.mp h
    simp [setParent, place, sample] at hy
  constructor
  · rintro ⟨z, h1, rfl | h2⟩
    · rcases h1 with h1 | h1
      · simp at h1
      · obtain ⟨y, hy⟩ := anc_range h1
        simp only [setParent, place, sample] at hy
        simp at hy
        split at hy
        · simp at hy
        · split at hy
          · simp at hy
          · split at hy <;> simp at hy
    · exact hno z h2
  · rintro ⟨z, _, hz⟩
    simp [setParent, place, sample] at hz

/-- C247 fails: a table that is itself the root of the tree (a category of an aligned table with a region to the aligned table) gives a
warning; a region added to a table that has a parent already gives none. -/
theorem C247_warns_fails :
    (∃ (w : World) (r c u : Nat), r ∈ ((setParent w 5 c u).1).children c ∧ w.region r = some (some u) ∧ r ∈ (setParent w 5 c u).2.1 ∧
      SameTree (setParent w 5 c u).1 r u) ∧
    (∃ (w : World) (r c u : Nat), w.region r = some (some u) ∧ w.parent c ≠ none ∧ (setParent w 5 r c).2 = ([], .ok ()) ∧
      ¬ SameTree (setParent w 5 r c).1 r u ∧ ¬ InFile (setParent w 5 r c).1 u) := by
  constructor
  · refine ⟨aligned, 1, 0, 2, by decide, by decide, by decide, ?_⟩
    exact ⟨2, .inr (.up (y := 0) rfl (.parent rfl)), .inl rfl⟩
  · refine ⟨placed, 1, 0, 2, by decide, by decide, by rfl, ?_, ?_⟩
    · have key : ∀ x z, Anc (setParent placed 5 1 0).1 x z → z = 0 ∨ z = 3 := by
        intro x z h
        induction h with
        | parent h =>
          rename_i a b
          simp [setParent, place, placed] at h
          split at h
          · simp at h; exact .inl h.symm
          · split at h
            · simp at h; exact .inr h.symm
            · simp at h
        | up _ _ ih => exact ih
      have h2 : ∀ z, ¬ Anc (setParent placed 5 1 0).1 2 z := by
        intro z h
        obtain ⟨y, hy, _⟩ := anc_iff.mp h
        simp [setParent, place, placed] at hy
      rintro ⟨z, h1, rfl | h3⟩
      · rcases h1 with h1 | h1
        · simp at h1
        · have := key _ _ h1; simp at this
      · exact h2 z h3
    · rintro ⟨z, _, hz⟩
      simp [setParent, place, placed] at hz

/-! ## C248: histories -/

theorem setParent_parent {w : World} {n c p x y : Nat} (h : w.parent x = some y) : (setParent w n c p).1.parent x = some y := by
  simp only [setParent]
  split
  · exact h
  · split
    · exact h
    · rename_i hn
      simp only [place]
      split
      · rename_i hx; subst hx; simp [h] at hn
      · exact h

theorem step_parent {w : World} {n x y : Nat} (op : Op) (h : w.parent x = some y) : (step n w op).parent x = some y := by
  cases op with
  | parent c p => exact setParent_parent h
  | table r u => simp only [step, setTable]; split <;> exact h

theorem run_parent {n x y : Nat} : ∀ (ops : List Op) {w : World}, w.parent x = some y → (run n w ops).parent x = some y
  | [], _, h => h
  | op :: ops, w, h => run_parent ops (w := step n w op) (step_parent op h)

theorem run_anc {w : World} {n x y : Nat} (ops : List Op) (h : Anc w x y) : Anc (run n w ops) x y := by
  induction h with
  | parent h => exact .parent (run_parent ops h)
  | up h _ ih => exact .up (run_parent ops h) ih

theorem run_sameTree {w : World} {n x y : Nat} (ops : List Op) (h : SameTree w x y) : SameTree (run n w ops) x y := by
  obtain ⟨z, h1, h2⟩ := h
  exact ⟨z, h1.imp_right (run_anc ops), h2.imp_right (run_anc ops)⟩

theorem step_source {w : World} {n : Nat} (op : Op) : (step n w op).source = w.source := by
  cases op with
  | parent c p => simp only [step, setParent]; split <;> [rfl; split <;> rfl]
  | table r u => simp only [step, setTable]; split <;> rfl

theorem run_source {n : Nat} : ∀ (ops : List Op) {w : World}, (run n w ops).source = w.source
  | [], _ => rfl
  | op :: ops, w => (run_source ops (w := step n w op)).trans (step_source op)

theorem step_region {w : World} {n r u : Nat} (op : Op) (h : w.region r = some (some u)) : (step n w op).region r = some (some u) := by
  cases op with
  | parent c p =>
    simp only [step, setParent]
    split
    · exact h
    · split <;> exact h
  | table r' u' =>
    simp only [step, setTable]
    split
    · rename_i hr
      simp only
      split
      · rename_i e; subst e; rw [hr] at h; simp at h
      · exact h
    · exact h

theorem run_region {n r u : Nat} : ∀ (ops : List Op) {w : World}, w.region r = some (some u) → (run n w ops).region r = some (some u)
  | [], _, h => h
  | op :: ops, w, h => run_region ops (w := step n w op) (step_region op h)

/-- C248, for regions that were in their table, with their table set, when this table got its parent: if after any further history the
table of the region is neither in the tree of the region nor in a file, there was a warning. -/
theorem C248_not_missed_partial (w : World) (n c p : Nat) (w' : World) (ws : List Nat) (ops : List Op) (hc : w.parent c = none)
    (h : setParent w n c p = (w', ws, .ok ())) (r u : Nat) (hr : r ∈ w'.children c)
    (ht : ∃ t, w'.region r = some (some t)) (hu : (run n w' ops).region r = some (some u)) (hs : ¬ SameTree (run n w' ops) r u) (hf : ¬ InFile (run n w' ops) u) : r ∈ ws := by
  have hu : w'.region r = some (some u) := by
    obtain ⟨t, ht⟩ := ht
    have := run_region (n := n) ops ht
    rw [hu] at this
    rw [ht, this]
  simp only [setParent, hc, reduceCtorEq, if_false, Option.isSome_none, Bool.false_eq_true, Prod.mk.injEq] at h
  obtain ⟨rfl, h⟩ := h
  rw [validateAll_iff h r]
  refine ⟨hr, u, hu, ?_, fun z hz hz' => hs (run_sameTree ops ⟨z, .inr hz', .inr hz⟩)⟩
  rintro ⟨z, hz, hz'⟩
  exact hf ⟨z, hz.imp_right (run_anc ops), by rw [run_source]; exact hz'⟩

example : sample.parent 0 = none ∧ (setParent sample 5 0 5).2 = ([1], .ok ()) ∧ 1 ∈ (setParent sample 5 0 5).1.children 0 ∧
    (setParent sample 5 0 5).1.region 1 = some (some 2) ∧ ¬ SameTree (run 5 (setParent sample 5 0 5).1 []) 1 2 :=
  ⟨rfl, rfl, by decide, rfl, sample_out.1⟩

/-- C248 fails: a warning may be wrong in the end, as the table is put into the same container later. -/
theorem C248_final_fails : ∃ (w : World) (c p r u : Nat), r ∈ (setParent w 5 c p).2.1 ∧ w.region r = some (some u) ∧
    SameTree (run 5 (setParent w 5 c p).1 [.parent u p]) r u :=
  ⟨sample, 0, 5, 1, 2, by decide, rfl, ⟨5, .inr (.up (y := 0) rfl (.parent rfl)), .inr (.parent rfl)⟩⟩

/-! ## C249: a container is placed or nothing changes -/

/-- no walk along parents is longer than `n` -/
def Depth (w : World) (n : Nat) : Prop := ∀ x, (ancestors w n x).isSome

theorem fromFile_total {w : World} : ∀ {n x : Nat}, (ancestors w n x).isSome → (fromFile w (n + 1) (some x)).isSome := by
  intro n
  induction n with
  | zero =>
    intro x h
    rw [ancestors] at h
    cases hp : w.parent x with
    | none => simp only [fromFile, hp]; split <;> rfl
    | some p => simp [hp] at h
  | succ n ih =>
    intro x h
    rw [ancestors] at h
    rw [fromFile]
    split
    · rfl
    · cases hp : w.parent x with
      | none => simp [fromFile]
      | some p =>
        simp only [hp, Option.isSome_map] at h
        exact ih h

theorem ancestors_more {w : World} : ∀ {n x : Nat}, (ancestors w n x).isSome → (ancestors w (n + 1) x).isSome := by
  intro n
  induction n with
  | zero =>
    intro x h
    rw [ancestors] at h ⊢
    cases hp : w.parent x with
    | none => rfl
    | some p => simp [hp] at h
  | succ n ih =>
    intro x h
    rw [ancestors] at h ⊢
    cases hp : w.parent x with
    | none => rfl
    | some p =>
      simp only [hp, Option.isSome_map] at h ⊢
      exact ih h

theorem validateAll_ok {w : World} {n : Nat} (hd : Depth w n) : ∀ {rs : List Nat}, (∀ r ∈ rs, w.region r ≠ some none) →
    (validateAll w (n + 1) rs).2 = .ok ()
  | [], _ => rfl
  | r :: rs, h => by
    have ih := validateAll_ok hd (rs := rs) fun x hx => h x (List.mem_cons_of_mem _ hx)
    have hv : ∃ b, validate w (n + 1) r = .ok b := by
      simp only [validate]
      have hr := h r (by simp)
      match hreg : w.region r with
      | none => exact ⟨_, rfl⟩
      | some none => exact absurd hreg hr
      | some (some u) =>
        obtain ⟨f, hf⟩ := Option.isSome_iff_exists.mp (fromFile_total (hd u))
        obtain ⟨a, ha⟩ := Option.isSome_iff_exists.mp (ancestors_more (hd u))
        obtain ⟨b, hb⟩ := Option.isSome_iff_exists.mp (ancestors_more (hd r))
        simp only [hf, ha, hb]
        cases f <;> exact ⟨_, rfl⟩
    obtain ⟨b, hb⟩ := hv
    simp only [validateAll, hb]
    exact ih

/-- C249, if no region among the children of the container is without a table: giving a parent to a container without one succeeds, and
changes its parent and the children of the parent only; a container with another parent is refused and nothing changes. -/
theorem C249_placed_partial (w : World) (n c p : Nat) :
    (w.parent c = none → Depth (place w c p) n → (∀ r ∈ w.children c, w.region r ≠ some none) → (∀ r, r = c → c = p → w.region r ≠ some none) →
      (setParent w (n + 1) c p).2.2 = .ok ()) ∧
    (w.parent c = none → (setParent w n c p).1.parent c = some p ∧ (setParent w n c p).1.children p = w.children p ++ [c] ∧
      (∀ x, x ≠ c → (setParent w n c p).1.parent x = w.parent x) ∧ (∀ x, x ≠ p → (setParent w n c p).1.children x = w.children x)) ∧
    (∀ q, w.parent c = some q → (setParent w n c p).1 = w ∧
      (setParent w n c p).2 = ([], if q = p then .ok () else .error .valueError)) := by
  refine ⟨?_, ?_, ?_⟩
  · intro hc hd hr hr'
    simp only [setParent, hc, reduceCtorEq, if_false, Option.isSome_none, Bool.false_eq_true]
    refine validateAll_ok hd fun r hm => ?_
    simp only [place] at hm ⊢
    split at hm
    · rename_i e
      rcases List.mem_append.mp hm with hm | hm
      · exact hr r hm
      · exact hr' r (by simpa using hm) e
    · exact hr r hm
  · intro hc
    simp only [setParent, hc, reduceCtorEq, if_false, Option.isSome_none, Bool.false_eq_true, place, if_true, true_and]
    exact ⟨fun x hx => by simp [hx], fun x hx => by simp [hx]⟩
  · intro q hq
    simp only [setParent, hq, Option.some.injEq, Option.isSome_some, if_true]
    split <;> simp_all

example : sample.parent 0 = none ∧ (∀ r ∈ sample.children 0, sample.region r ≠ some none) ∧ (setParent sample 5 0 5).2.2 = .ok () :=
  ⟨rfl, by decide, rfl⟩

/-- C249 fails: a table with a region without a table (which the constructor of the region allows) gets its parent, but the setter raises
an AttributeError; regions after it are not checked. -/
theorem C249_placed_fails : ∃ (w : World) (c p : Nat), w.parent c = none ∧ (setParent w 5 c p).2 = ([], .error .attributeError) ∧
    (setParent w 5 c p).1.parent c = some p ∧ c ∈ (setParent w 5 c p).1.children p ∧
    ∃ r u, r ∈ w.children c ∧ w.region r = some (some u) ∧ ancestors w 5 u = some [] :=
  ⟨{ parent := fun x => if x = 1 ∨ x = 2 then some 0 else none, children := fun x => if x = 0 then [1, 2] else [],
     source := fun _ => false, region := fun x => if x = 1 then some none else if x = 2 then some (some 4) else none }, 0, 3, rfl, rfl, rfl,
   by decide, 2, 4, by decide, rfl, rfl⟩

end Verif.Orphan

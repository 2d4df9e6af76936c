import Verif.Model.Catalog
import Mathlib.Data.List.Perm.Subperm
import Mathlib.Data.List.Dedup

namespace Verif.Catalog
open Verif

/-- the chain of parents from a type up to a root -/
inductive Chain (par : String → Option String) : String → List String → Prop
  | root {t} : par t = none → Chain par t [t]
  | step {t p l} : par t = some p → Chain par p l → Chain par t (t :: l)

theorem Chain.unique {par : String → Option String} {t : String} {l l' : List String} (h : Chain par t l) (h' : Chain par t l') :
    l = l' := by
  induction h generalizing l' with
  | root h0 => cases h' with
    | root _ => rfl
    | step h1 _ => rw [h0] at h1; simp at h1
  | step h0 _ ih => cases h' with
    | root h1 => rw [h0] at h1; simp at h1
    | step h1 h2 => rw [h0] at h1; simp only [Option.some.injEq] at h1; subst h1; rw [ih h2]

theorem Chain.head {par : String → Option String} {t : String} {l : List String} (h : Chain par t l) : ∃ l', l = t :: l' := by
  cases h with
  | root _ => exact ⟨[], rfl⟩
  | step _ _ => exact ⟨_, rfl⟩

/-- every type in a chain has a chain, a suffix of it -/
theorem Chain.mem {par : String → Option String} {t : String} {l : List String} (h : Chain par t l) :
    ∀ x ∈ l, ∃ l', Chain par x l' ∧ l' <:+ l := by
  induction h with
  | root h0 =>
    rename_i t
    intro x hx
    simp only [List.mem_singleton] at hx
    subst hx
    exact ⟨[x], .root h0, List.suffix_rfl⟩
  | step h0 h1 ih =>
    intro x hx
    rcases List.mem_cons.1 hx with rfl | hx
    · exact ⟨_, .step h0 h1, List.suffix_rfl⟩
    · obtain ⟨l', a, b⟩ := ih x hx
      exact ⟨l', a, b.trans (List.suffix_cons _ _)⟩

theorem Chain.nodup {par : String → Option String} {t : String} {l : List String} (h : Chain par t l) : l.Nodup := by
  induction h with
  | root _ => simp
  | step h0 h1 ih =>
    rename_i t p l
    rw [List.nodup_cons]
    refine ⟨fun hm => ?_, ih⟩
    obtain ⟨l', a, b⟩ := h1.mem _ hm
    have := a.unique (.step h0 h1)
    rw [this] at b
    have := b.length_le
    simp only [List.length_cons] at this
    omega

theorem Chain.dropLast {par : String → Option String} {t : String} {l : List String} (h : Chain par t l) :
    ∀ x ∈ l.dropLast, ∃ p, par x = some p ∧ p ∈ l := by
  induction h with
  | root _ => simp
  | step h0 h1 ih =>
    obtain ⟨l', rfl⟩ := h1.head
    intro x hx
    simp only [List.dropLast_cons_cons, List.mem_cons] at hx
    rcases hx with rfl | hx
    · exact ⟨_, h0, by simp⟩
    · obtain ⟨p, a, b⟩ := ih x hx
      exact ⟨p, a, by simp only [List.mem_cons] at b ⊢; exact .inr b⟩

theorem Chain.congr {par par' : String → Option String} {t : String} {l : List String} (h : Chain par t l)
    (he : ∀ x ∈ l, par' x = par x) : Chain par' t l := by
  induction h with
  | root h0 => exact .root (by rw [he _ (by simp)]; exact h0)
  | step h0 _ ih => exact .step (by rw [he _ (by simp)]; exact h0) (ih (fun x hx => he x (by simp [hx])))

/-- going up from a chain element that has a parent in it -/
theorem Chain.parent_mem {par : String → Option String} {t x p : String} {l : List String} (h : Chain par t l) (hx : x ∈ l)
    (hp : par x = some p) : p ∈ l := by
  obtain ⟨l', a, b⟩ := h.mem x hx
  cases a with
  | root h0 => rw [hp] at h0; simp at h0
  | step h0 h1 =>
    rw [hp] at h0
    simp only [Option.some.injEq] at h0
    subst h0
    obtain ⟨l'', rfl⟩ := h1.head
    exact b.subset (by simp)

theorem climb_iff (parents : Dict String (Option String)) : ∀ n t l, climb parents n t = some l ↔
    Chain (fun t => (Dict.get? parents t).join) t l ∧ l.length ≤ n := by
  intro n
  induction n with
  | zero =>
    intro t l
    simp only [climb, reduceCtorEq, false_iff, not_and]
    intro h
    obtain ⟨l', rfl⟩ := h.head
    simp
  | succ n ih =>
    intro t l
    simp only [climb]
    cases hp : (Dict.get? parents t).join with
    | none =>
      simp only [Option.some.injEq]
      constructor
      · rintro rfl; exact ⟨.root hp, by simp⟩
      · rintro ⟨h, -⟩
        exact (Chain.root (par := fun t => (Dict.get? parents t).join) hp).unique h
    | some p =>
      simp only [Option.map_eq_some_iff]
      constructor
      · rintro ⟨l', h1, rfl⟩
        obtain ⟨a, b⟩ := (ih p l').1 h1
        exact ⟨.step hp a, by simpa using b⟩
      · rintro ⟨h, hl⟩
        cases h with
        | root h0 => rw [hp] at h0; simp at h0
        | step h0 h1 =>
          rw [hp] at h0
          simp only [Option.some.injEq] at h0
          subst h0
          exact ⟨_, (ih _ _).2 ⟨h1, by simpa using hl⟩, rfl⟩

/-- a finite chain is found within the bound of the loop -/
theorem climb_complete (parents : Dict String (Option String)) (t : String) (l : List String)
    (h : Chain (fun t => (Dict.get? parents t).join) t l) : climb parents (parents.length + 1) t = some l := by
  rw [climb_iff]
  refine ⟨h, ?_⟩
  have h1 : l.dropLast.Nodup := h.nodup.sublist (List.dropLast_sublist l)
  have h2 : ∀ x ∈ l.dropLast, x ∈ parents.keys := by
    intro x hx
    obtain ⟨p, hp, -⟩ := h.dropLast x hx
    rw [← Dict.has_iff]
    unfold Dict.has
    cases hg : Dict.get? parents x with
    | none => simp [hg] at hp
    | some _ => rfl
  have := (List.subperm_of_subset h1 h2).length_le
  simp only [List.length_dropLast, Dict.keys, List.length_map] at this
  omega

theorem memo_get (l : List String) : ∀ (h : Dict String (List String)) t v, Dict.get? (memo h l) t = some v →
    Dict.get? h t = some v ∨ (v <:+ l ∧ ∃ v', v = t :: v') := by
  induction l with
  | nil => intro h t v hg; exact .inl hg
  | cons x xs ih =>
    intro h t v hg
    rcases ih _ _ _ hg with hg | ⟨a, b⟩
    · rw [Dict.get?_set] at hg
      split at hg
      · rename_i he
        simp only [Option.some.injEq] at hg
        subst hg; subst he
        exact .inr ⟨List.suffix_rfl, xs, rfl⟩
      · exact .inl hg
    · exact .inr ⟨a.trans (List.suffix_cons _ _), b⟩

/-- the parent of a type according to its registered spec -/
def parentOf (c : Cat) (t : String) : Option String :=
  match getSpec c t with
  | none => none
  | some sp => if sp.inc = some t then none else sp.inc

/-- the catalog is coherent: the parent table and the memo agree with the specs; `seen` are the types in earlier answers -/
structure Coherent (c : Cat) (seen : List String) : Prop where
  nodup : c.specs.keys.Nodup
  dfn : ∀ t sp, getSpec c t = some sp → sp.dfn = some t
  par : ∀ t, (Dict.get? c.parents t).join = parentOf c t
  hier : ∀ t h, Dict.get? c.hier t = some h → Chain (parentOf c) t h ∧ ∀ x ∈ h, x ∈ seen
  src : ∀ t, Dict.has c.specs t = true → Dict.has c.sources t = true

/-- a history of accepted registrations and answered queries in which no type is registered after it was part of an answer -/
def runFresh (c : Cat) (seen : List String) : List Op → Option (Cat × List String)
  | [] => some (c, seen)
  | .register sp src :: ops =>
    if sp.dfn.any (fun d => seen.contains d && !Dict.has c.specs d) then none
    else match register c sp src with
      | (c', .ok _) => runFresh c' seen ops
      | (_, .error _) => none
  | .query t :: ops => match getHierarchy c t with
    | (c', some l) => runFresh c' (seen ++ l) ops
    | (_, none) => none

theorem coherent_empty : Coherent {} [] :=
  ⟨by simp [Dict.keys], by simp [getSpec], by simp [parentOf, getSpec], by simp, by simp [Dict.has]⟩

theorem getHierarchy_coherent {c : Cat} {seen : List String} (i : Coherent c seen) (t : String) :
    (∀ l, (getHierarchy c t).2 = some l ↔ Chain (parentOf c) t l) ∧
    (∀ l, (getHierarchy c t).2 = some l → Coherent (getHierarchy c t).1 (seen ++ l)) ∧
    (getHierarchy c t).1.specs = c.specs ∧ (getHierarchy c t).1.sources = c.sources ∧ (getHierarchy c t).1.parents = c.parents := by
  have hpar : (fun t => (Dict.get? c.parents t).join) = parentOf c := funext i.par
  unfold getHierarchy
  cases hg : Dict.get? c.hier t with
  | some h =>
    obtain ⟨h1, h2⟩ := i.hier t h hg
    refine ⟨fun l => ⟨?_, ?_⟩, fun l _ => ⟨i.nodup, i.dfn, i.par, ?_, i.src⟩, rfl, rfl, rfl⟩
    · intro hl; simp only [Option.some.injEq] at hl; subst hl; exact h1
    · intro hl; rw [hl.unique h1]
    · intro t' h' hg'
      obtain ⟨a, b⟩ := i.hier t' h' hg'
      exact ⟨a, fun x hx => by simp [b x hx]⟩
  | none =>
    simp only
    have hc := climb_complete c.parents t
    rw [hpar] at hc
    cases hcl : climb c.parents (c.parents.length + 1) t with
    | none =>
      refine ⟨fun l => ⟨by simp, ?_⟩, by simp, rfl, rfl, rfl⟩
      intro hl
      rw [hc l hl] at hcl; simp at hcl
    | some l0 =>
      have hl0 : Chain (parentOf c) t l0 := by
        have := ((climb_iff _ _ _ _).1 hcl).1
        rwa [hpar] at this
      refine ⟨fun l => ⟨?_, ?_⟩, ?_, rfl, rfl, rfl⟩
      · intro hl; simp only [Option.some.injEq] at hl; subst hl; exact hl0
      · intro hl; rw [hl.unique hl0]
      · intro l hl
        simp only [Option.some.injEq] at hl
        subst hl
        refine ⟨i.nodup, i.dfn, i.par, ?_, i.src⟩
        intro t' h' hg'
        rcases memo_get _ _ _ _ hg' with hg' | ⟨a, v', rfl⟩
        · obtain ⟨a, b⟩ := i.hier t' h' hg'
          exact ⟨a, fun x hx => by simp [b x hx]⟩
        · obtain ⟨l', b1, b2⟩ := hl0.mem t' (a.subset (by simp))
          obtain ⟨l'', rfl⟩ := b1.head
          -- two suffixes of a duplicate-free list with the same head are equal
          have : t' :: v' = t' :: l'' := by
            have hnd := hl0.nodup
            rcases List.suffix_or_suffix_of_suffix a b2 with h | h
            · rcases List.suffix_cons_iff.1 h with h | h
              · exact h
              · exact absurd (h.subset (by simp)) ((List.nodup_cons.1 (hnd.sublist b2.sublist)).1)
            · rcases List.suffix_cons_iff.1 h with h | h
              · exact h.symm
              · exact absurd (h.subset (by simp)) ((List.nodup_cons.1 (hnd.sublist a.sublist)).1)
          rw [this]
          exact ⟨b1, fun x hx => by simp [b2.subset hx]⟩

theorem set_same {κ α : Type} [DecidableEq κ] {d : Dict κ α} {k : κ} {v : α} (h : Dict.get? d k = some v) : Dict.set d k v = d := by
  induction d with
  | nil => simp at h
  | cons x xs ih =>
    obtain ⟨k', v'⟩ := x
    simp only [Dict.get?] at h
    simp only [Dict.set]
    split
    · rename_i he
      rw [if_pos he] at h
      simp only [Option.some.injEq] at h
      rw [h, he]
    · rename_i he
      rw [if_neg he] at h
      rw [ih h]

theorem register_coherent {c c' : Cat} {seen : List String} {sp : Spec} {src : Option String} (i : Coherent c seen)
    (h : register c sp src = (c', .ok ()))
    (hf : ∀ d, sp.dfn = some d → d ∈ seen → Dict.has c.specs d = true) :
    Coherent c' seen ∧ ∃ d, sp.dfn = some d ∧ getSpec c' d = some sp ∧ (∀ t, t ≠ d → getSpec c' t = getSpec c t) ∧
      (getSpec c d = none ∨ getSpec c d = some sp) := by
  unfold register at h
  cases hd : sp.dfn with
  | none => rw [hd] at h; simp at h
  | some d =>
    rw [hd] at h
    simp only at h
    have hspecs : (if sp.inc ≠ some d then { c with parents := Dict.set c.parents d sp.inc } else c).specs = c.specs := by split <;> rfl
    have hsources : (if sp.inc ≠ some d then { c with parents := Dict.set c.parents d sp.inc } else c).sources = c.sources := by
      split <;> rfl
    have hhier : (if sp.inc ≠ some d then { c with parents := Dict.set c.parents d sp.inc } else c).hier = c.hier := by split <;> rfl
    rw [hspecs, hsources] at h
    -- facts of an accepted registration
    have key : (Dict.get? c.specs d = none ∨ Dict.get? c.specs d = some sp ∧ Dict.get? c.sources d = some src) →
        c' = { (if sp.inc ≠ some d then { c with parents := Dict.set c.parents d sp.inc } else c) with
          specs := Dict.set c.specs d sp
          sources := Dict.set c.sources d src } →
        Coherent c' seen ∧ getSpec c' d = some sp ∧ (∀ t, t ≠ d → getSpec c' t = getSpec c t) ∧
          (getSpec c d = none ∨ getSpec c d = some sp) := by
      intro hcase hc'
      have s1 : c'.specs = Dict.set c.specs d sp := by rw [hc']
      have s2 : c'.sources = Dict.set c.sources d src := by rw [hc']
      have s3 : c'.hier = c.hier := by rw [hc']; exact hhier
      have s4 : c'.parents = if sp.inc ≠ some d then Dict.set c.parents d sp.inc else c.parents := by
        rw [hc']; dsimp only; split <;> rfl
      have g1 : getSpec c' d = some sp := by simp [getSpec, s1]
      have g2 : ∀ t, t ≠ d → getSpec c' t = getSpec c t := by
        intro t ht; simp only [getSpec, s1, Dict.get?_set_ne ht]
      have p1 : ∀ t, t ≠ d → parentOf c' t = parentOf c t := by
        intro t ht; simp only [parentOf, g2 t ht]
      have p2 : parentOf c' d = if sp.inc = some d then none else sp.inc := by simp only [parentOf, g1]
      refine ⟨⟨?_, ?_, ?_, ?_, ?_⟩, g1, g2, ?_⟩
      · rw [s1]; exact Dict.set_nodup i.nodup
      · intro t sp' hg
        by_cases ht : t = d
        · subst ht; rw [g1] at hg; simp only [Option.some.injEq] at hg; subst hg; exact hd
        · rw [g2 t ht] at hg; exact i.dfn t sp' hg
      · intro t
        by_cases ht : t = d
        · subst ht
          rw [p2, s4]
          split
          · simp
          · rename_i hne
            have he : sp.inc = some t := by simpa using hne
            rw [if_pos he, i.par t]
            rcases hcase with hc | ⟨hc, -⟩
            · simp [parentOf, getSpec, hc]
            · simp [parentOf, getSpec, hc, he]
        · rw [p1 t ht, s4, ← i.par t]
          split
          · rw [Dict.get?_set_ne ht]
          · rfl
      · intro t h' hg
        rw [s3] at hg
        obtain ⟨a, b⟩ := i.hier t h' hg
        refine ⟨a.congr ?_, b⟩
        intro x hx
        by_cases hxd : x = d
        · subst hxd
          have hreg := hf x hd (b x hx)
          rcases hcase with hc | ⟨hc, -⟩
          · rw [Dict.has, hc] at hreg; simp at hreg
          · rw [p2]; simp [parentOf, getSpec, hc]
        · exact p1 x hxd
      · intro t ht
        rw [s1, Dict.has_iff, Dict.mem_keys_set] at ht
        rw [s2, Dict.has_iff, Dict.mem_keys_set]
        rcases ht with ht | ht
        · exact .inl ht
        · exact .inr (Dict.has_iff.1 (i.src t (Dict.has_iff.2 ht)))
      · rcases hcase with hc | ⟨hc, -⟩
        · exact .inl hc
        · exact .inr hc
    cases hg : Dict.get? c.specs d with
    | none =>
      rw [hg] at h
      simp only [Prod.mk.injEq, and_true] at h
      obtain ⟨k1, k2⟩ := key (.inl hg) h.symm
      exact ⟨k1, d, rfl, k2⟩
    | some old =>
      rw [hg] at h
      simp only at h
      split at h
      · simp at h
      · rename_i hne
        have hold : old = sp := by simpa using hne
        subst hold
        cases hs : Dict.get? c.sources d with
        | none => rw [hs] at h; simp at h
        | some s =>
          rw [hs] at h
          simp only at h
          split at h
          · simp at h
          · rename_i hne2
            have : s = src := by simpa using hne2
            subst this
            simp only [Prod.mk.injEq, and_true] at h
            obtain ⟨k1, k2⟩ := key (.inr ⟨hg, hs⟩) h.symm
            exact ⟨k1, d, rfl, k2⟩

theorem runFresh_coherent : ∀ (ops : List Op) (c : Cat) (seen : List String), Coherent c seen → ∀ c' seen',
    runFresh c seen ops = some (c', seen') → Coherent c' seen' := by
  intro ops
  induction ops with
  | nil => intro c seen i c' seen' h; simp only [runFresh, Option.some.injEq, Prod.mk.injEq] at h; obtain ⟨rfl, rfl⟩ := h; exact i
  | cons op ops ih =>
    intro c seen i c' seen' h
    cases op with
    | register sp src =>
      simp only [runFresh] at h
      split at h
      · simp at h
      · rename_i hf
        cases hr : register c sp src with
        | mk c1 r =>
          rw [hr] at h
          cases r with
          | error e => simp at h
          | ok x =>
            refine ih c1 seen (register_coherent i hr ?_).1 c' seen' h
            intro d hd hs
            rw [hd] at hf
            simp only [Option.any_some, Bool.and_eq_true, Bool.not_eq_eq_eq_not, not_and, List.contains_iff_mem] at hf
            simpa using hf hs
    | query t =>
      simp only [runFresh] at h
      cases hr : getHierarchy c t with
      | mk c1 r =>
        rw [hr] at h
        cases r with
        | none => simp at h
        | some l =>
          have := (getHierarchy_coherent i t).2.1 l (by rw [hr])
          rw [hr] at this
          exact ih c1 _ this c' seen' h

/-! ### subtypes -/

theorem subLoop_ok (rec : String → Except Err (List String)) (recursive : Bool) (t : String) (f : String → List String) :
    ∀ (specs : List (String × Spec)), (recursive = true → ∀ p ∈ specs, p.2.inc = some t → p.2.dfn ≠ some t → rec p.1 = .ok (f p.1)) →
    ∃ l, subLoop rec recursive t specs = .ok l ∧ ∀ u, u ∈ l ↔ ∃ p ∈ specs, p.2.inc = some t ∧ p.2.dfn ≠ some t ∧
      (u = p.1 ∨ recursive = true ∧ u ∈ f p.1) := by
  intro specs
  induction specs with
  | nil => intro _; exact ⟨[], rfl, by simp⟩
  | cons p specs ih =>
    intro hr
    obtain ⟨rt, sp⟩ := p
    obtain ⟨l, h1, h2⟩ := ih (fun hrec p hp => hr hrec p (by simp [hp]))
    simp only [subLoop]
    by_cases hc : sp.inc = some t ∧ sp.dfn ≠ some t
    · rw [if_pos hc]
      have hrt : (if recursive = true then rec rt else .ok []) = .ok (if recursive = true then f rt else []) := by
        split
        · rename_i hrec; exact hr hrec (rt, sp) (by simp) hc.1 hc.2
        · rfl
      rw [hrt]
      simp only [h1]
      refine ⟨_, rfl, ?_⟩
      intro u
      simp only [List.cons_append, List.mem_cons, List.mem_append, h2, exists_eq_or_imp, hc, ne_eq, not_false_eq_true, true_and]
      constructor
      · rintro (h | h | h)
        · exact .inl (.inl h)
        · split at h
          · rename_i hrec; exact .inl (.inr ⟨hrec, h⟩)
          · simp at h
        · exact .inr h
      · rintro ((h | ⟨hrec, h⟩) | h)
        · exact .inl h
        · exact .inr (.inl (by rw [if_pos hrec]; exact h))
        · exact .inr (.inr h)
    · rw [if_neg hc]
      refine ⟨l, h1, ?_⟩
      intro u
      rw [h2]
      simp only [List.mem_cons, exists_eq_or_imp]
      constructor
      · exact .inr
      · rintro (⟨h3, h4, -⟩ | h)
        · exact absurd ⟨h3, h4⟩ hc
        · exact h

/-- the specs whose parent is `t` -/
theorem mem_specs_iff {c : Cat} {seen : List String} (i : Coherent c seen) (u t : String) :
    (∃ p ∈ c.specs, p.2.inc = some t ∧ p.2.dfn ≠ some t ∧ u = p.1) ↔ parentOf c u = some t := by
  constructor
  · rintro ⟨⟨n, sp⟩, hp, h1, h2, hu⟩
    simp only at hu
    subst hu
    have hg : getSpec c u = some sp := Dict.get?_of_mem i.nodup hp
    have hd := i.dfn u sp hg
    simp only at h1 h2 ⊢
    simp only [parentOf, hg, h1]
    rw [if_neg]
    intro he
    rw [hd, ← he] at h2
    exact h2 rfl
  · intro h
    unfold parentOf at h
    cases hg : getSpec c u with
    | none => rw [hg] at h; simp at h
    | some sp =>
      rw [hg] at h
      simp only at h
      split at h
      · simp at h
      · rename_i hne
        refine ⟨(u, sp), Dict.mem_of_get? hg, h, ?_, rfl⟩
        rw [i.dfn u sp hg]
        intro he
        simp only [Option.some.injEq] at he
        subst he
        exact hne h

theorem registered_of_parent {c : Cat} {u t : String} (h : parentOf c u = some t) : (getSpec c u).isSome := by
  unfold parentOf at h
  cases hg : getSpec c u with
  | none => rw [hg] at h; simp at h
  | some sp => rfl

theorem nodup_eraseDups_aux : ∀ (n : Nat) (l : List String), l.length ≤ n → l.eraseDups.Nodup
  | _, [], _ => by simp
  | 0, _ :: _, h => by simp at h
  | n + 1, a :: as, h => by
    rw [List.eraseDups_cons, List.nodup_cons]
    refine ⟨?_, nodup_eraseDups_aux n _ ?_⟩
    · rw [List.mem_eraseDups]; simp
    · have := List.length_filter_le (fun b => !b == a) as
      simp only [List.length_cons] at h; omega

theorem nodup_eraseDups (l : List String) : l.eraseDups.Nodup := nodup_eraseDups_aux _ l (Nat.le_refl _)

theorem mem_eraseDups {l : List String} {x : String} : x ∈ l.eraseDups ↔ x ∈ l := List.mem_eraseDups

/-- a chain below `t`: an element other than `t` has a chain through a child of `t` -/
theorem chain_child {par : String → Option String} {u t : String} {l : List String} (h : Chain par u l) (ht : t ∈ l) (hne : u ≠ t) :
    ∃ v lv, v ∈ l ∧ par v = some t ∧ Chain par u l ∧ Chain par v lv := by
  induction h with
  | root h0 => simp only [List.mem_singleton] at ht; exact absurd ht.symm hne
  | step h0 h1 ih =>
    rename_i u p l'
    rcases List.mem_cons.1 ht with rfl | ht
    · exact absurd rfl hne
    · by_cases hp : p = t
      · subst hp
        exact ⟨u, _, by simp, h0, .step h0 h1, .step h0 h1⟩
      · obtain ⟨v, lv, a, b, -, d⟩ := ih ht hp
        exact ⟨v, lv, by simp [a], b, .step h0 h1, d⟩

theorem subtypesN_ok {c : Cat} {seen : List String} (i : Coherent c seen)
    (hac : ∀ u, (getSpec c u).isSome → ∃ l, Chain (parentOf c) u l) : ∀ (n : Nat) (t : String) (lt : List String),
    Chain (parentOf c) t lt → (getSpec c t).isSome → c.specs.length + 2 ≤ n + lt.length →
    ∃ l, subtypesN c true n t = .ok l ∧ ∀ u, u ∈ l ↔ u ≠ t ∧ ∃ lu, Chain (parentOf c) u lu ∧ t ∈ lu := by
  intro n
  induction n with
  | zero =>
    intro t lt hlt hreg hn
    -- the chain cannot be that long
    have h1 : lt.dropLast.Nodup := hlt.nodup.sublist (List.dropLast_sublist lt)
    have h2 : ∀ x ∈ lt.dropLast, x ∈ c.specs.keys := by
      intro x hx
      obtain ⟨p, hp, -⟩ := hlt.dropLast x hx
      rw [← Dict.has_iff]
      exact registered_of_parent hp
    have := (List.subperm_of_subset h1 h2).length_le
    simp only [List.length_dropLast, Dict.keys, List.length_map] at this
    omega
  | succ n ih =>
    intro t lt hlt hreg hn
    -- answers for the children
    have hchild : ∀ p : String, ∃ l : List String, parentOf c p = some t → subtypesN c true n p = .ok l ∧
        ∀ u, u ∈ l ↔ u ≠ p ∧ ∃ lu, Chain (parentOf c) u lu ∧ p ∈ lu := by
      intro p
      by_cases hp : parentOf c p = some t
      · obtain ⟨l, h1, h2⟩ := ih p (p :: lt) (.step hp hlt) (registered_of_parent hp) (by simp only [List.length_cons]; omega)
        exact ⟨l, fun _ => ⟨h1, h2⟩⟩
      · exact ⟨[], fun h => absurd h hp⟩
    choose f hf using hchild
    obtain ⟨l, h1, h2⟩ := subLoop_ok (subtypesN c true n) true t f c.specs (by
      intro _ p hp h3 h4
      exact (hf p.1 ((mem_specs_iff i _ _).1 ⟨p, hp, h3, h4, rfl⟩)).1)
    simp only [subtypesN]
    obtain ⟨sp, hsp⟩ := Option.isSome_iff_exists.1 hreg
    rw [hsp]
    simp only [h1, Except.map]
    refine ⟨_, rfl, ?_⟩
    intro u
    rw [mem_eraseDups, h2]
    constructor
    · rintro ⟨p, hp, h3, h4, hu⟩
      have hpar : parentOf c p.1 = some t := (mem_specs_iff i _ _).1 ⟨p, hp, h3, h4, rfl⟩
      have htnot : p.1 ≠ t := by
        intro he
        have := (Chain.step hpar hlt).nodup
        rw [he] at this
        obtain ⟨l', rfl⟩ := hlt.head
        simp at this
      rcases hu with rfl | ⟨-, hu⟩
      · obtain ⟨l', rfl⟩ := hlt.head
        exact ⟨htnot, _, .step hpar hlt, by simp⟩
      · obtain ⟨h5, lu, h6, h7⟩ := ((hf p.1 hpar).2 u).1 hu
        have ht : t ∈ lu := h6.parent_mem h7 hpar
        refine ⟨?_, lu, h6, ht⟩
        rintro rfl
        -- then `p` would be in the chain of its own parent
        have := h6.unique hlt
        subst this
        have := (Chain.step hpar h6).nodup
        rw [List.nodup_cons] at this
        exact this.1 h7
    · rintro ⟨hne, lu, h3, h4⟩
      obtain ⟨v, lv, h5, h6, -, h8⟩ := chain_child h3 h4 hne
      obtain ⟨p, hp, h9, h10, rfl⟩ := (mem_specs_iff i v t).2 h6
      refine ⟨p, hp, h9, h10, ?_⟩
      by_cases hu : u = p.1
      · exact .inl hu
      · exact .inr ⟨rfl, ((hf p.1 h6).2 u).2 ⟨hu, lu, h3, h5⟩⟩

end Verif.Catalog

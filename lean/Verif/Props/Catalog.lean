import Verif.Lemmas.Catalog

/-!
# Properties of the catalog of specifications
-/

namespace Verif.Catalog
open Verif

/-- **C38.** After any history of accepted registrations and answered hierarchy queries in which no type is registered for the
first time after it was part of an answer, `get_hierarchy(t)` is `t` followed by the chain of the parents given in the registered
specs, up to a type without one; it returns exactly if there is such a (finite) chain.  (Registering a type after it was part
of an answer is what is missing: `C38_stale_fails`.) -/
theorem C38_hierarchy_partial (ops : List Op) (c : Cat) (seen : List String) (h : runFresh {} [] ops = some (c, seen)) (t : String)
    (l : List String) : (getHierarchy c t).2 = some l ↔ Chain (parentOf c) t l :=
  (getHierarchy_coherent (runFresh_coherent ops {} [] coherent_empty c seen h) t).1 l

/-- the hierarchy does not repeat a type and starts with the type asked for -/
theorem C38_hierarchy_shape (ops : List Op) (c : Cat) (seen : List String) (h : runFresh {} [] ops = some (c, seen)) (t : String)
    (l : List String) (hl : (getHierarchy c t).2 = some l) : l.head? = some t ∧ l.Nodup := by
  have hc := (C38_hierarchy_partial ops c seen h t l).1 hl
  obtain ⟨l', rfl⟩ := hc.head
  exact ⟨rfl, hc.nodup⟩

/-- types registered and queried, children before parents -/
def demo : List Op :=
  [.register ⟨some "B", some "C", 1⟩ none, .register ⟨some "A", some "B", 2⟩ (some "f"), .register ⟨none, some "A", 3⟩ none,
   .query "B", .query "C", .register ⟨some "C", some "D", 4⟩ none, .register ⟨some "A", some "B", 2⟩ (some "f")]

/-- non-vacuity -/
example : ((runFresh {} [] demo).map fun r => ((getHierarchy r.1 "D").2, r.2, types r.1)) =
    some (some ["D", "C", "B", "A"], ["B", "A", "C", "B", "A"], ["C", "B", "A", "D"]) := by decide +kernel

/-- **C38 fails** when a parent is registered after a query: the memo keeps the old answer. -/
theorem C38_stale_fails : ∃ c, run {} [.register ⟨some "A", some "B", 0⟩ none, .query "B", .register ⟨some "R", some "A", 0⟩ none] = c ∧
    (getHierarchy c "B").2 = some ["B", "A"] ∧ (getHierarchy c "A").2 = some ["A"] ∧ parentOf c "A" = some "R" :=
  ⟨_, rfl, by decide +kernel, by decide +kernel, by decide +kernel⟩

/-- **C38 fails** for a cycle of types, which is accepted: `get_hierarchy` never returns. -/
theorem C38_cycle_fails : ∃ c, runFresh {} [] [.register ⟨some "B", some "A", 0⟩ none, .register ⟨some "A", some "B", 0⟩ none] =
    some (c, []) ∧ (getHierarchy c "A").2 = none :=
  ⟨_, rfl, by decide +kernel⟩

/-- **C39 (kept).** Whatever history follows, accepted or rejected, a registered spec and its source file stay what they are. -/
theorem C39_kept (c : Cat) (ops : List Op) (t : String) (sp : Spec) (h : getSpec c t = some sp) :
    getSpec (run c ops) t = some sp ∧ (Dict.get? c.sources t ≠ none → Dict.get? (run c ops).sources t = Dict.get? c.sources t) := by
  induction ops generalizing c with
  | nil => exact ⟨h, fun _ => rfl⟩
  | cons op ops ih =>
    cases op with
    | query t' =>
      simp only [run]
      have e : (getHierarchy c t').1.specs = c.specs ∧ (getHierarchy c t').1.sources = c.sources := by
        unfold getHierarchy
        split
        · exact ⟨rfl, rfl⟩
        · split
          · exact ⟨rfl, rfl⟩
          · exact ⟨rfl, rfl⟩
      obtain ⟨a, b⟩ := ih (getHierarchy c t').1 (by simp only [getSpec, e.1]; exact h)
      rw [e.2] at b
      exact ⟨a, b⟩
    | register sp' src =>
      simp only [run]
      have e : getSpec (register c sp' src).1 t = some sp ∧
          (Dict.get? c.sources t ≠ none → Dict.get? (register c sp' src).1.sources t = Dict.get? c.sources t) := by
        unfold register
        cases hd : sp'.dfn with
        | none => exact ⟨h, fun _ => rfl⟩
        | some d =>
          simp only
          have hspecs : (if sp'.inc ≠ some d then { c with parents := Dict.set c.parents d sp'.inc } else c).specs = c.specs := by
            split <;> rfl
          have hsources : (if sp'.inc ≠ some d then { c with parents := Dict.set c.parents d sp'.inc } else c).sources = c.sources := by
            split <;> rfl
          rw [hspecs, hsources]
          split
          · rename_i hg
            have hne : t ≠ d := by
              rintro rfl
              simp only [getSpec] at h
              rw [hg] at h; simp at h
            simp only [getSpec, Dict.get?_set_ne hne]
            exact ⟨h, fun _ => trivial⟩
          · rename_i old hg
            split
            · simp only [getSpec, hspecs, hsources]; exact ⟨h, fun _ => trivial⟩
            · rename_i hold
              have hold : old = sp' := by simpa using hold
              split
              · simp only [getSpec, hspecs, hsources]; exact ⟨h, fun _ => trivial⟩
              · rename_i s hs
                split
                · simp only [getSpec, hspecs, hsources]; exact ⟨h, fun _ => trivial⟩
                · rename_i hsrc
                  have hsrc : s = src := by simpa using hsrc
                  subst hold; subst hsrc
                  simp only [getSpec, set_same hg, set_same hs]
                  exact ⟨h, fun _ => trivial⟩
      obtain ⟨a, b⟩ := ih (register c sp' src).1 e.1
      exact ⟨a, fun hne => by rw [b (by rw [e.2 hne]; exact hne), e.2 hne]⟩

/-- **C39 (rejection).** A different spec or another source for a registered type is rejected with ValueError; specs, sources and
memo stay as they are, and if the parent type given is the one registered the whole catalog does (see `C39_rejected_fails`). -/
theorem C39_rejected_partial (ops : List Op) (c : Cat) (seen : List String) (h : runFresh {} [] ops = some (c, seen)) (sp old : Spec)
    (src : Option String) (d : String) (hd : sp.dfn = some d) (hold : getSpec c d = some old) (hne : old ≠ sp ∨ getSource c d ≠ src) :
    ∃ c', register c sp src = (c', .error .valueError) ∧ c'.specs = c.specs ∧ c'.sources = c.sources ∧ c'.hier = c.hier ∧
      (sp.inc = old.inc → ∀ t, (Dict.get? c'.parents t).join = (Dict.get? c.parents t).join) := by
  have i := runFresh_coherent ops {} [] coherent_empty c seen h
  have hspecs : (if sp.inc ≠ some d then { c with parents := Dict.set c.parents d sp.inc } else c).specs = c.specs := by split <;> rfl
  have hsources : (if sp.inc ≠ some d then { c with parents := Dict.set c.parents d sp.inc } else c).sources = c.sources := by
    split <;> rfl
  have hhier : (if sp.inc ≠ some d then { c with parents := Dict.set c.parents d sp.inc } else c).hier = c.hier := by split <;> rfl
  have hpar : sp.inc = old.inc → ∀ t, (Dict.get? (if sp.inc ≠ some d then { c with parents := Dict.set c.parents d sp.inc } else c).parents t).join =
      (Dict.get? c.parents t).join := by
    intro he t
    split
    · rename_i hinc
      by_cases ht : t = d
      · subst ht
        rw [i.par t]
        simp only [parentOf, hold, Dict.get?_set_self]
        rw [if_neg (by rw [← he]; exact hinc), he]
        rfl
      · simp only [Dict.get?_set_ne ht]
    · rfl
  unfold register
  rw [hd]
  simp only
  have hg : Dict.get? c.specs d = some old := hold
  rw [hspecs, hsources, hg]
  simp only
  by_cases ho : old = sp
  · rw [if_neg (by simpa using ho)]
    have hs := i.src d (by simp [Dict.has, hg])
    obtain ⟨s, hs⟩ := Option.isSome_iff_exists.1 hs
    rw [hs]
    simp only
    have : s ≠ src := by
      rcases hne with hne | hne
      · exact absurd ho hne
      · simp only [getSource, hs] at hne; exact hne
    rw [if_pos this]
    exact ⟨_, rfl, hspecs, hsources, hhier, hpar⟩
  · rw [if_pos ho]
    exact ⟨_, rfl, hspecs, hsources, hhier, hpar⟩

/-- **C39 (repetition).** Registering a registered spec again from the same source is accepted and changes no answer. -/
theorem C39_repeat (ops : List Op) (c : Cat) (seen : List String) (h : runFresh {} [] ops = some (c, seen)) (sp : Spec)
    (d : String) (hd : sp.dfn = some d) (hold : getSpec c d = some sp) :
    ∃ c', register c sp (getSource c d) = (c', .ok ()) ∧ c'.specs = c.specs ∧ c'.sources = c.sources ∧ c'.hier = c.hier ∧
      ∀ t, (getHierarchy c' t).2 = (getHierarchy c t).2 := by
  have i := runFresh_coherent ops {} [] coherent_empty c seen h
  have hg : Dict.get? c.specs d = some sp := hold
  have hs := i.src d (by simp [Dict.has, hg])
  obtain ⟨s, hs⟩ := Option.isSome_iff_exists.1 hs
  have hsrc : getSource c d = s := by simp [getSource, hs]
  have hreg : ∃ c', register c sp (getSource c d) = (c', .ok ()) ∧ c'.specs = c.specs ∧ c'.sources = c.sources ∧ c'.hier = c.hier := by
    have hspecs : (if sp.inc ≠ some d then { c with parents := Dict.set c.parents d sp.inc } else c).specs = c.specs := by split <;> rfl
    have hsources : (if sp.inc ≠ some d then { c with parents := Dict.set c.parents d sp.inc } else c).sources = c.sources := by
      split <;> rfl
    have hhier : (if sp.inc ≠ some d then { c with parents := Dict.set c.parents d sp.inc } else c).hier = c.hier := by split <;> rfl
    unfold register
    rw [hd, hsrc]
    simp only
    rw [hspecs, hsources, hg]
    simp only [ne_eq, not_true, if_false, hs]
    exact ⟨_, rfl, set_same hg, set_same hs, by simp only [ne_eq] at hhier; exact hhier⟩
  obtain ⟨c', h1, h2, h3, h4⟩ := hreg
  refine ⟨c', h1, h2, h3, h4, ?_⟩
  obtain ⟨i', -⟩ := register_coherent i h1 (by
    intro d' hd' _
    rw [hd] at hd'
    simp only [Option.some.injEq] at hd'
    subst hd'
    simp [Dict.has, hg])
  intro t
  have hp : parentOf c' = parentOf c := by funext t; simp only [parentOf, getSpec, h2]
  apply Option.ext
  intro l
  rw [(getHierarchy_coherent i' t).1 l, (getHierarchy_coherent i t).1 l, hp]

/-- **C39 fails**: a rejected registration changes the parent of the type, hence its hierarchy. -/
theorem C39_rejected_fails : ∃ c c', register {} ⟨some "A", some "B", 0⟩ none = (c, .ok ()) ∧
    register c ⟨some "X", some "B", 0⟩ none = (c', .error .valueError) ∧ (getHierarchy c "B").2 = some ["B", "A"] ∧
    (getHierarchy c' "B").2 = some ["B", "X"] :=
  ⟨_, _, rfl, rfl, by decide +kernel, by decide +kernel⟩

/-- **C40.** After any such history without a cycle of types, `get_subtypes(t)` of a registered type succeeds and contains, once
each, exactly the types whose hierarchy contains `t`, other than `t`. -/
theorem C40_subtypes (ops : List Op) (c : Cat) (seen : List String) (h : runFresh {} [] ops = some (c, seen))
    (hac : ∀ u ∈ types c, (getHierarchy c u).2 ≠ none) (t : String) (ht : t ∈ types c) :
    ∃ l, getSubtypes c true t = .ok l ∧ l.Nodup ∧ ∀ u, u ∈ l ↔ u ≠ t ∧ ∃ lu, (getHierarchy c u).2 = some lu ∧ t ∈ lu := by
  have i := runFresh_coherent ops {} [] coherent_empty c seen h
  have hreg : ∀ u, (getSpec c u).isSome ↔ u ∈ types c := fun u => Dict.has_iff
  have hchain : ∀ u, (getSpec c u).isSome → ∃ l, Chain (parentOf c) u l := by
    intro u hu
    obtain ⟨l, hl⟩ := Option.ne_none_iff_exists'.1 (hac u ((hreg u).1 hu))
    exact ⟨l, ((getHierarchy_coherent i u).1 l).1 hl⟩
  obtain ⟨lt, hlt⟩ := hchain t ((hreg t).2 ht)
  obtain ⟨l, h1, h2⟩ := subtypesN_ok i hchain (c.specs.length + 1) t lt hlt ((hreg t).2 ht) (by
    obtain ⟨l', rfl⟩ := hlt.head
    simp only [List.length_cons]; omega)
  refine ⟨l, h1, ?_, ?_⟩
  · simp only [subtypesN] at h1
    split at h1
    · simp only [Except.ok.injEq] at h1; subst h1; simp
    · cases hs : subLoop (subtypesN c true c.specs.length) true t c.specs with
      | error e => rw [hs] at h1; simp [Except.map] at h1
      | ok l0 =>
        rw [hs] at h1
        simp only [Except.map, Except.ok.injEq] at h1
        subst h1
        exact nodup_eraseDups _
  · intro u
    rw [h2]
    constructor
    · rintro ⟨h3, lu, h4, h5⟩; exact ⟨h3, lu, ((getHierarchy_coherent i u).1 lu).2 h4, h5⟩
    · rintro ⟨h3, lu, h4, h5⟩; exact ⟨h3, lu, ((getHierarchy_coherent i u).1 lu).1 h4, h5⟩

/-- **C40 (direct subtypes).** Without recursion the result is exactly the types whose registered parent is `t`. -/
theorem C40_direct (ops : List Op) (c : Cat) (seen : List String) (h : runFresh {} [] ops = some (c, seen)) (t : String)
    (ht : t ∈ types c) : ∃ l, getSubtypes c false t = .ok l ∧ ∀ u, u ∈ l ↔ parentOf c u = some t := by
  have i := runFresh_coherent ops {} [] coherent_empty c seen h
  obtain ⟨sp, hsp⟩ := Option.isSome_iff_exists.1 (Dict.has_iff.2 ht : (getSpec c t).isSome)
  obtain ⟨l, h1, h2⟩ := subLoop_ok (subtypesN c true c.specs.length) false t (fun _ => []) c.specs (by simp)
  simp only [getSubtypes, subtypesN, h1, Except.map]
  rw [show getSpec c t = some sp from hsp]
  refine ⟨_, rfl, ?_⟩
  intro u
  rw [mem_eraseDups, h2, ← mem_specs_iff i]
  simp

/-- non-vacuity: the example has no cycle -/
example : ((runFresh {} [] demo).map fun r => ((types r.1).map fun u => ((getHierarchy r.1 u).2.isSome, (getSubtypes r.1 true u).toOption))) =
    some [(true, some ["D"]), (true, some ["C", "D"]), (true, some ["B", "C", "D"]), (true, some [])] := by decide +kernel

/-- **C40 fails** for a type that is only used as a parent: it has no subtypes, though it is in the hierarchy of others. -/
theorem C40_unregistered_fails : ∃ c, register {} ⟨some "A", some "B", 0⟩ none = (c, .ok ()) ∧ getSubtypes c true "A" = .ok [] ∧
    (getHierarchy c "B").2 = some ["B", "A"] :=
  ⟨_, rfl, by decide +kernel, by decide +kernel⟩

/-- **C41 (what holds).** A copy has the same specs, types and subtypes. -/
theorem C41_copy_partial (c : Cat) (t : String) (r : Bool) :
    getSpec (copy c) t = getSpec c t ∧ types (copy c) = types c ∧ getSubtypes (copy c) r t = getSubtypes c r t := by
  have key : ∀ n r t, subtypesN (copy c) r n t = subtypesN c r n t := by
    intro n
    induction n with
    | zero => intro r t; rfl
    | succ n ih =>
      intro r t
      have : subtypesN (copy c) true n = subtypesN c true n := funext fun t => ih true t
      simp only [subtypesN, this]
      rfl
  exact ⟨rfl, rfl, key _ r t⟩

/-- **C41 fails** for hierarchies and source files, and registering a spec again in the copy raises KeyError. -/
theorem C41_copy_fails : ∃ c sp, register {} sp (some "f") = (c, .ok ()) ∧ (getHierarchy c "B").2 = some ["B", "A"] ∧
    (getHierarchy (copy c) "B").2 = some ["B"] ∧ getSource c "B" = some "f" ∧ getSource (copy c) "B" = none ∧
    (register (copy c) sp (some "f")).2 = .error .keyError :=
  ⟨_, ⟨some "A", some "B", 0⟩, rfl, by decide +kernel, by decide +kernel, by decide +kernel, by decide +kernel, by decide +kernel⟩

end Verif.Catalog

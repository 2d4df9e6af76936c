import Verif.Base.Tac
import Verif.Model.BuilderEq

/-!
# C229: what the comparison of builders in tests distinguishes
-/

namespace Verif.BuilderEq
open Verif

/-- a step from a builder: to a sub-builder of a group, or to the target of a link -/
inductive Step where
  | child (c : Cat) (key : String)
  | target

/-- the builder at the end of a path -/
def reach : List Step → Bld → Option Bld
  | [], b => some b
  | .child c key :: p, .group _ _ _ k => match k.lookup c key with
    | some b => reach p b
    | none => none
  | .target :: p, .link _ _ t => reach p t
  | _ :: _, _ => none

/-- the data of a dataset -/
def Bld.data? : Bld → Option Nat
  | .ds _ _ d _ _ => some d
  | _ => none

/-- the value of an attribute -/
def Bld.attr? : Bld → String → Option Nat
  | .ds _ _ _ a _, n => a.get? n
  | .link .., _ => none
  | .group _ _ a _, n => a.get? n

/-- two builders, or none: of the same class, with the same data and the same values of attributes -/
def Looks : Option Bld → Option Bld → Prop
  | some x, some y => x.cat = y.cat ∧ x.data? = y.data? ∧ ∀ n, x.attr? n = y.attr? n
  | none, none => True
  | _, _ => False

/-- two builders cannot be distinguished by following any path -/
def Agree (x y : Bld) : Prop := ∀ p, Looks (reach p x) (reach p y)

/-- the classes and names of sub-builders -/
def Kids.names : Kids → List (Cat × String)
  | .nil => []
  | .cons key b rest => (b.cat, key) :: rest.names

mutual
/-- the keys of all dictionaries are different, as they are in Python -/
def WF : Bld → Prop
  | .ds _ _ _ a _ => a.keys.Nodup
  | .link _ _ t => WF t
  | .group _ _ a k => a.keys.Nodup ∧ k.names.Nodup ∧ WFK k
/-- the same for all sub-builders -/
def WFK : Kids → Prop
  | .nil => True
  | .cons _ b rest => WF b ∧ WFK rest
end

theorem names_length (k : Kids) : k.names.length = k.size := by
  match k with
  | .nil => rfl
  | .cons _ _ rest => show rest.names.length + 1 = rest.size + 1; rw [names_length rest]

theorem lookup_none {k : Kids} {c : Cat} {s : String} : k.lookup c s = none ↔ (c, s) ∉ k.names := by
  match k with
  | .nil => simp [Kids.lookup, Kids.names]
  | .cons key b rest =>
    have ih := lookup_none (k := rest) (c := c) (s := s)
    unfold Kids.lookup Kids.names
    by_cases h : key = s ∧ b.cat = c
    · rw [if_pos h]
      simp [h.1, h.2]
    · rw [if_neg h, ih]
      simp only [List.mem_cons, not_or, Prod.mk.injEq]
      exact ⟨fun g => ⟨fun e => h ⟨e.2.symm, e.1.symm⟩, g⟩, fun g => g.2⟩

theorem lookup_cat {k : Kids} {c : Cat} {s : String} {b : Bld} (h : k.lookup c s = some b) : b.cat = c := by
  match k with
  | .nil => cases h
  | .cons key x rest =>
    unfold Kids.lookup at h
    split at h
    · rename_i hx; cases h; exact hx.2
    · exact lookup_cat h

theorem subset_of_length {α : Type} [DecidableEq α] {a b : List α} (ha : a.Nodup) (hs : a ⊆ b) (hl : a.length = b.length) : b ⊆ a := by
  have h := List.subperm_of_subset ha hs
  exact (h.perm_of_length_le (Nat.le_of_eq hl.symm)).symm.subset

theorem keys_length {d : Dict String Nat} : d.keys.length = d.length := by simp [Dict.keys]

theorem attrsEq_iff {a b : Dict String Nat} (ha : a.keys.Nodup) (hb : b.keys.Nodup) : attrsEq a b = true ↔ ∀ n, a.get? n = b.get? n := by
  unfold attrsEq
  rw [Bool.and_eq_true, List.all_eq_true]
  constructor
  · rintro ⟨hl, hall⟩ n
    have hl : a.length = b.length := by simpa using hl
    have hsub : a.keys ⊆ b.keys := by
      intro k hk
      obtain ⟨p, hp, rfl⟩ := List.mem_map.1 hk
      have := hall p hp
      exact Dict.mem_keys_of_mem (Dict.mem_of_get? (by simpa using this))
    have hsup := subset_of_length ha hsub (by rw [keys_length, keys_length, hl])
    cases hg : a.get? n with
    | some v =>
      have := hall (n, v) (Dict.mem_of_get? hg)
      exact (by simpa using this : b.get? n = some v).symm
    | none =>
      have hn := Dict.get?_eq_none_iff.1 hg
      exact (Dict.get?_eq_none_iff.2 fun h => hn (hsup h)).symm
  · intro h
    have hk : ∀ n, n ∈ a.keys ↔ n ∈ b.keys := by
      intro n
      constructor <;> intro hn <;> refine Classical.byContradiction fun hc => ?_
      · exact Dict.get?_eq_none_iff.1 ((h n).trans (Dict.get?_eq_none_iff.2 hc)) hn
      · exact Dict.get?_eq_none_iff.1 ((h n).symm.trans (Dict.get?_eq_none_iff.2 hc)) hn
    refine ⟨?_, ?_⟩
    · have h1 := (List.subperm_of_subset ha fun n hn => (hk n).1 hn).length_le
      have h2 := (List.subperm_of_subset hb fun n hn => (hk n).2 hn).length_le
      rw [keys_length, keys_length] at h1 h2
      have : a.length = b.length := by omega
      simp [this]
    · intro p hp
      have := Dict.get?_of_mem ha (show (p.1, p.2) ∈ a from hp)
      rw [← h, this]
      simp

mutual
theorem eqB_agree (x y : Bld) (hx : WF x) (hy : WF y) (h : eqB x y = true) : Agree x y := by
  match x, y with
  | .ds n s d a t, .ds n' s' d' a' t' =>
    unfold eqB at h
    rw [Bool.and_eq_true] at h
    intro p
    cases p with
    | nil => exact ⟨rfl, by simpa [Bld.data?] using h.1, (attrsEq_iff hx hy).1 h.2⟩
    | cons q p => cases q <;> exact trivial
  | .link n s t, .link n' s' t' =>
    unfold eqB at h
    have ih := eqB_agree t t' hx hy h
    intro p
    cases p with
    | nil => exact ⟨rfl, rfl, fun _ => rfl⟩
    | cons q p =>
      cases q with
      | target => exact ih p
      | child c k => exact trivial
  | .group n s a k, .group n' s' a' k' =>
    unfold eqB at h
    rw [Bool.and_eq_true, Bool.and_eq_true] at h
    obtain ⟨⟨h1, h2⟩, h3⟩ := h
    have h2 : k.size = k'.size := by simpa using h2
    have ih := eqKids_agree k k' hx.2.2 hy.2.2 h3
    have hsub : k.names ⊆ k'.names := by
      rintro ⟨c, key⟩ hm
      cases hg : k.lookup c key with
      | none => exact absurd hm (lookup_none.1 hg)
      | some b =>
        obtain ⟨b', hb', -⟩ := ih c key b hx.2.1 hg
        exact Classical.byContradiction fun hc => by rw [lookup_none.2 hc] at hb'; cases hb'
    have hsup := subset_of_length hx.2.1 hsub (by rw [names_length, names_length, h2])
    intro p
    cases p with
    | nil => exact ⟨rfl, rfl, (attrsEq_iff hx.1 hy.1).1 h1⟩
    | cons q p =>
      cases q with
      | target => exact trivial
      | child c key =>
        show Looks (match k.lookup c key with | some b => reach p b | none => none) (match k'.lookup c key with | some b => reach p b | none => none)
        cases hg : k.lookup c key with
        | some b =>
          obtain ⟨b', hb', hag⟩ := ih c key b hx.2.1 hg
          rw [hb']
          exact hag p
        | none =>
          rw [lookup_none.2 fun hm => lookup_none.1 hg (hsup hm)]
          exact trivial
  | .ds .., .link .. => simp [eqB] at h
  | .ds .., .group .. => simp [eqB] at h
  | .link .., .ds .. => simp [eqB] at h
  | .link .., .group .. => simp [eqB] at h
  | .group .., .ds .. => simp [eqB] at h
  | .group .., .link .. => simp [eqB] at h
theorem eqKids_agree (k k' : Kids) (hk : WFK k) (hk' : WFK k') (h : eqKids k k' = true) (c : Cat) (key : String) (b : Bld) (hn : k.names.Nodup) (hb : k.lookup c key = some b) :
    ∃ b', k'.lookup c key = some b' ∧ Agree b b' := by
  match k with
  | .nil => cases hb
  | .cons key0 b0 rest =>
    unfold eqKids at h
    rw [Bool.and_eq_true] at h
    unfold Kids.lookup at hb
    by_cases hc : key0 = key ∧ b0.cat = c
    · rw [if_pos hc] at hb
      cases hb
      have h1 := h.1
      rw [hc.1, hc.2] at h1
      cases hg : k'.lookup c key with
      | none => simp [hg] at h1
      | some b' =>
        simp only [hg] at h1
        exact ⟨b', rfl, eqB_agree b b' hk.1 (wf_lookup hk' hg) h1⟩
    · rw [if_neg hc] at hb
      exact eqKids_agree rest k' hk.2 hk' h.2 c key b (List.nodup_cons.1 hn).2 hb
theorem wf_lookup {k : Kids} {c : Cat} {s : String} {b : Bld} (hk : WFK k) (h : k.lookup c s = some b) : WF b := by
  match k with
  | .nil => cases h
  | .cons key x rest =>
    unfold Kids.lookup at h
    split at h
    · cases h; exact hk.1
    · exact wf_lookup hk.2 h
end

mutual
theorem agree_eqB (x y : Bld) (hx : WF x) (hy : WF y) (h : Agree x y) : eqB x y = true := by
  match x, y with
  | .ds n s d a t, .ds n' s' d' a' t' =>
    obtain ⟨-, h2, h3⟩ := h []
    have h2 : d = d' := by simpa [Bld.data?] using h2
    unfold eqB
    rw [Bool.and_eq_true]
    exact ⟨by simp [h2], (attrsEq_iff hx hy).2 h3⟩
  | .link n s t, .link n' s' t' =>
    unfold eqB
    exact agree_eqB t t' hx hy fun p => h (.target :: p)
  | .group n s a k, .group n' s' a' k' =>
    obtain ⟨-, -, h3⟩ := h []
    have hch : ∀ c key p, Looks (match k.lookup c key with | some b => reach p b | none => none) (match k'.lookup c key with | some b => reach p b | none => none) :=
      fun c key p => h (.child c key :: p)
    have hmem : ∀ m : Cat × String, m ∈ k.names ↔ m ∈ k'.names := by
      rintro ⟨c, key⟩
      have := hch c key []
      cases hg : k.lookup c key with
      | none =>
        cases hg' : k'.lookup c key with
        | none => exact ⟨fun hm => absurd hm (lookup_none.1 hg), fun hm => absurd hm (lookup_none.1 hg')⟩
        | some b' => rw [hg, hg'] at this; exact this.elim
      | some b =>
        cases hg' : k'.lookup c key with
        | none => rw [hg, hg'] at this; exact this.elim
        | some b' =>
          refine ⟨fun _ => Classical.byContradiction fun hc => ?_, fun _ => Classical.byContradiction fun hc => ?_⟩
          · rw [lookup_none.2 hc] at hg'
            cases hg'
          · rw [lookup_none.2 hc] at hg
            cases hg
    have hsize : k.size = k'.size := by
      have h1 := (List.subperm_of_subset hx.2.1 fun n hn => (hmem n).1 hn).length_le
      have h2 := (List.subperm_of_subset hy.2.1 fun n hn => (hmem n).2 hn).length_le
      rw [names_length, names_length] at h1 h2
      omega
    unfold eqB
    rw [Bool.and_eq_true, Bool.and_eq_true]
    refine ⟨⟨(attrsEq_iff hx.1 hy.1).2 h3, by simp [hsize]⟩, ?_⟩
    refine agree_eqKids k k' hx.2.2 hy.2.2 hx.2.1 ?_
    intro c key b hb
    have hm : (c, key) ∈ k'.names := (hmem _).1 (Classical.byContradiction fun hc => by rw [lookup_none.2 hc] at hb; cases hb)
    cases hg' : k'.lookup c key with
    | none => exact absurd hm (lookup_none.1 hg')
    | some b' =>
      refine ⟨b', rfl, fun p => ?_⟩
      have := hch c key p
      rw [hb, hg'] at this
      exact this
  | .ds .., .link .. => exact nomatch (h []).1
  | .ds .., .group .. => exact nomatch (h []).1
  | .link .., .ds .. => exact nomatch (h []).1
  | .link .., .group .. => exact nomatch (h []).1
  | .group .., .ds .. => exact nomatch (h []).1
  | .group .., .link .. => exact nomatch (h []).1
theorem agree_eqKids (k k' : Kids) (hk : WFK k) (hk' : WFK k') (hn : k.names.Nodup) (h : ∀ c key b, k.lookup c key = some b → ∃ b', k'.lookup c key = some b' ∧ Agree b b') :
    eqKids k k' = true := by
  match k with
  | .nil => rfl
  | .cons key b rest =>
    have hn' := List.nodup_cons.1 hn
    unfold eqKids
    rw [Bool.and_eq_true]
    refine ⟨?_, agree_eqKids rest k' hk.2 hk' hn'.2 ?_⟩
    · obtain ⟨b', hb', hag⟩ := h b.cat key b (by unfold Kids.lookup; rw [if_pos ⟨rfl, rfl⟩])
      simp only [hb']
      exact agree_eqB b b' hk.1 (wf_lookup hk' hb') hag
    · intro c s x hx
      refine h c s x ?_
      unfold Kids.lookup
      rw [if_neg, hx]
      rintro ⟨rfl, rfl⟩
      exact Classical.byContradiction fun _ => by
        rw [lookup_none.2 hn'.1] at hx
        cases hx
end

/-- the comparison passes if and only if the builders have the same class, name, path and source, and no path from them leads to a difference in class, data or attributes -/
theorem C229_exact_partial (cp cs : Bool) (x y : Placed) (hx : WF x.b) (hy : WF y.b) :
    passes cp cs x y = true ↔ x.b.name = y.b.name ∧ (cp = true → x.path = y.path) ∧ (cs = true → x.b.src = y.b.src) ∧ Agree x.b y.b := by
  unfold passes
  simp only [Bool.and_eq_true, decide_eq_true_eq, Bool.or_eq_true, Bool.not_eq_true']
  constructor
  · rintro ⟨⟨⟨⟨-, h2⟩, h3⟩, h4⟩, h5⟩
    refine ⟨h2, ?_, ?_, eqB_agree _ _ hx hy h5⟩
    · rintro rfl; simpa using h3
    · rintro rfl; simpa using h4
  · rintro ⟨h2, h3, h4, h5⟩
    refine ⟨⟨⟨⟨(h5 []).1, h2⟩, ?_⟩, ?_⟩, agree_eqB _ _ hx hy h5⟩
    · cases cp
      · exact .inl rfl
      · exact .inr (h3 rfl)
    · cases cs
      · exact .inl rfl
      · exact .inr (h4 rfl)

/-- a group with a dataset and a link -/
def demo (data : Nat) : Bld := .group "g" none [("a", 1)] (.cons "d" (.ds "d" (some "f") data [] 0) (.cons "l" (.link "l" none (.ds "t" none 5 [] 0)) .nil))

example : WF (demo 3) ∧ passes true true ⟨[], demo 3⟩ ⟨[], demo 3⟩ = true ∧ passes true true ⟨[], demo 3⟩ ⟨[], demo 4⟩ = false := by
  refine ⟨?_, by decide +kernel, by decide +kernel⟩
  simp [demo, WF, WFK, Kids.names, Bld.cat, Dict.keys]

/-- the comparison is reflexive and symmetric, and transitive -/
theorem C229_equivalence (cp cs : Bool) (x y z : Placed) (hx : WF x.b) (hy : WF y.b) (hz : WF z.b) :
    passes cp cs x x = true ∧ (passes cp cs x y = true → passes cp cs y x = true) ∧ (passes cp cs x y = true → passes cp cs y z = true → passes cp cs x z = true) := by
  have refl : ∀ o, Looks o o := by
    intro o
    cases o with
    | none => trivial
    | some b => exact ⟨rfl, rfl, fun _ => rfl⟩
  have symm : ∀ o o', Looks o o' → Looks o' o := by
    intro o o' h
    cases o <;> cases o'
    · trivial
    · exact h.elim
    · exact h.elim
    · exact ⟨h.1.symm, h.2.1.symm, fun n => (h.2.2 n).symm⟩
  have trans : ∀ o o' o'', Looks o o' → Looks o' o'' → Looks o o'' := by
    intro o o' o'' h h'
    cases o <;> cases o' <;> cases o'' <;> first | trivial | exact h.elim | exact h'.elim | exact ⟨h.1.trans h'.1, h.2.1.trans h'.2.1, fun n => (h.2.2 n).trans (h'.2.2 n)⟩
  rw [C229_exact_partial cp cs x x hx hx, C229_exact_partial cp cs x y hx hy, C229_exact_partial cp cs y x hy hx, C229_exact_partial cp cs y z hy hz, C229_exact_partial cp cs x z hx hz]
  refine ⟨⟨rfl, fun _ => rfl, fun _ => rfl, fun p => refl _⟩, ?_, ?_⟩
  · rintro ⟨h1, h2, h3, h4⟩
    exact ⟨h1.symm, fun e => (h2 e).symm, fun e => (h3 e).symm, fun p => symm _ _ (h4 p)⟩
  · rintro ⟨h1, h2, h3, h4⟩ ⟨g1, g2, g3, g4⟩
    exact ⟨h1.trans g1, fun e => (h2 e).trans (g2 e), fun e => (h3 e).trans (g3 e), fun p => trans _ _ _ (h4 p) (g4 p)⟩

/-- datasets with different dtype, maxshape, chunks or labels are not distinguished -/
theorem C229_dtype_fails : passes true true ⟨[], .ds "d" none 1 [] 0⟩ ⟨[], .ds "d" none 1 [] 1⟩ = true := by decide +kernel

/-- the sources of sub-builders are not compared -/
theorem C229_source_fails : passes true true ⟨[], .group "g" none [] (.cons "d" (.ds "d" (some "a") 1 [] 0) .nil)⟩
    ⟨[], .group "g" none [] (.cons "d" (.ds "d" (some "b") 1 [] 0) .nil)⟩ = true := by decide +kernel

/-- links to different builders with equal content are not distinguished -/
theorem C229_link_fails : passes true true ⟨[], .link "l" none (.ds "x" (some "a.h5") 1 [] 0)⟩ ⟨[], .link "l" none (.ds "y" (some "b.h5") 1 [] 0)⟩ = true := by decide +kernel

end Verif.BuilderEq

import Verif.Model.ClassGen

/-! # Lemmas about generated classes -/

namespace Verif.ClassGen
open Verif

variable {V : Type}

/-! ## Arguments -/

theorem addArg_names (a : Arg V) (as : List (Arg V)) :
    (addArg a as).map (fun a => a.name) = if a.name ∈ as.map (fun a => a.name) then as.map (fun a => a.name) else as.map (fun a => a.name) ++ [a.name] := by
  unfold addArg
  by_cases h : a.name ∈ as.map (fun a => a.name)
  · rw [if_pos h, if_pos]
    · rw [List.map_map]
      apply List.map_congr_left
      intro b _
      simp only [Function.comp]
      split
      · rename_i e; exact e.symm
      · rfl
    · obtain ⟨b, hb, e⟩ := List.mem_map.1 h
      exact List.any_eq_true.2 ⟨b, hb, decide_eq_true e⟩
  · rw [if_neg h, if_neg]
    · simp
    · intro h'
      obtain ⟨b, hb, e⟩ := List.any_eq_true.1 h'
      exact h (List.mem_map.2 ⟨b, hb, of_decide_eq_true e⟩)

theorem addArg_nodup (a : Arg V) (as : List (Arg V)) (h : (as.map (fun a => a.name)).Nodup) : ((addArg a as).map (fun a => a.name)).Nodup := by
  rw [addArg_names]
  split
  · exact h
  · rename_i hn
    exact List.nodup_append.2 ⟨h, by simp, by
      intro x hx y hy e
      rw [List.mem_singleton] at hy
      rw [e, hy] at hx
      exact hn hx⟩

theorem addArg_self (a : Arg V) (as : List (Arg V)) : a ∈ addArg a as := by
  unfold addArg
  split
  · rename_i h
    obtain ⟨b, hb, e⟩ := List.any_eq_true.1 h
    exact List.mem_map.2 ⟨b, hb, by rw [if_pos (of_decide_eq_true e)]⟩
  · simp

theorem addArg_other {a b : Arg V} {as : List (Arg V)} (hb : b ∈ as) (hn : b.name ≠ a.name) : b ∈ addArg a as := by
  unfold addArg
  split
  · exact List.mem_map.2 ⟨b, hb, by rw [if_neg hn]⟩
  · exact List.mem_append.2 (.inl hb)

theorem addFields_names (fs : List (String × FSpec V)) (as : List (Arg V)) (x : String) :
    x ∈ (addFields fs as).map (fun a => a.name) ↔
      x ∈ as.map (fun a => a.name) ∨ ∃ f, (x, f) ∈ fs ∧ (f.many || f.value.isNone) = true := by
  induction fs generalizing as with
  | nil => simp [addFields]
  | cons p fs ih =>
    obtain ⟨y, f⟩ := p
    unfold addFields
    rw [ih]
    by_cases h : (f.many || f.value.isNone) = true
    · rw [if_pos h, addArg_names]
      constructor
      · rintro (h' | ⟨g, hg, e⟩)
        · split at h'
          · exact .inl h'
          · rcases List.mem_append.1 h' with h' | h'
            · exact .inl h'
            · rw [List.mem_singleton] at h'
              subst h'
              exact .inr ⟨f, by simp [fieldArg], h⟩
        · exact .inr ⟨g, List.mem_cons_of_mem _ hg, e⟩
      · rintro (h' | ⟨g, hg, e⟩)
        · left; split
          · exact h'
          · exact List.mem_append.2 (.inl h')
        · rcases List.mem_cons.1 hg with hg | hg
          · cases hg
            left; split
            · rename_i h'; exact h'
            · exact List.mem_append.2 (.inr (by simp [fieldArg]))
          · exact .inr ⟨g, hg, e⟩
    · rw [if_neg h]
      constructor
      · rintro (h' | ⟨g, hg, e⟩)
        · exact .inl h'
        · exact .inr ⟨g, List.mem_cons_of_mem _ hg, e⟩
      · rintro (h' | ⟨g, hg, e⟩)
        · exact .inl h'
        · rcases List.mem_cons.1 hg with hg | hg
          · cases hg; exact (h e).elim
          · exact .inr ⟨g, hg, e⟩

theorem addFields_nodup (fs : List (String × FSpec V)) (as : List (Arg V)) (h : (as.map (fun a => a.name)).Nodup) :
    ((addFields fs as).map (fun a => a.name)).Nodup := by
  induction fs generalizing as with
  | nil => exact h
  | cons p fs ih =>
    obtain ⟨y, f⟩ := p
    unfold addFields
    apply ih
    split
    · exact addArg_nodup _ _ h
    · exact h

theorem addFields_other {b : Arg V} {fs : List (String × FSpec V)} {as : List (Arg V)} (hb : b ∈ as)
    (hn : ∀ f, (b.name, f) ∈ fs → (f.many || f.value.isNone) = false) : b ∈ addFields fs as := by
  induction fs generalizing as with
  | nil => exact hb
  | cons p fs ih =>
    obtain ⟨y, f⟩ := p
    unfold addFields
    apply ih
    · split
      · rename_i h
        apply addArg_other hb
        intro e
        have := hn f (by rw [e]; simp [fieldArg])
        rw [h] at this
        cases this
      · exact hb
    · intro g hg
      exact hn g (List.mem_cons_of_mem _ hg)

theorem addFields_mem {x : String} {f : FSpec V} {fs : List (String × FSpec V)} (as : List (Arg V)) (hk : (fs.map (fun p => p.1)).Nodup)
    (hf : (x, f) ∈ fs) (hv : (f.many || f.value.isNone) = true) : fieldArg x f ∈ addFields fs as := by
  induction fs generalizing as with
  | nil => cases hf
  | cons p fs ih =>
    obtain ⟨y, g⟩ := p
    rw [List.map_cons, List.nodup_cons] at hk
    rcases List.mem_cons.1 hf with e | hf
    · cases e
      unfold addFields
      rw [if_pos hv]
      apply addFields_other (addArg_self _ _)
      intro g hg
      exact (hk.1 (List.mem_map.2 ⟨_, hg, rfl⟩)).elim
    · unfold addFields
      exact ih _ hk.2 hf

theorem fixName_names (n : Option V) (as : List (Arg V)) (x : String) :
    x ∈ (fixName n as).map (fun a => a.name) ↔ x ∈ as.map (fun a => a.name) ∧ (x = "name" → n = none) := by
  unfold fixName
  cases n with
  | none => simp
  | some v =>
    simp only [Option.isSome_some, if_true]
    constructor
    · intro h
      obtain ⟨a, ha, rfl⟩ := List.mem_map.1 h
      have := List.mem_filter.1 ha
      exact ⟨List.mem_map_of_mem this.1, fun e => ((of_decide_eq_true this.2) e).elim⟩
    · rintro ⟨h, h'⟩
      obtain ⟨a, ha, rfl⟩ := List.mem_map.1 h
      exact List.mem_map_of_mem (List.mem_filter.2 ⟨ha, decide_eq_true (fun e => by cases h' e)⟩)

theorem fixName_mem {n : Option V} {as : List (Arg V)} {a : Arg V} (h : a ∈ as) (hn : a.name = "name" → n = none) : a ∈ fixName n as := by
  unfold fixName
  split
  · rename_i hs
    exact List.mem_filter.2 ⟨h, decide_eq_true (fun e => by rw [hn e] at hs; cases hs)⟩
  · exact h

theorem fixName_nodup (n : Option V) {as : List (Arg V)} (h : (as.map (fun a => a.name)).Nodup) : ((fixName n as).map (fun a => a.name)).Nodup := by
  unfold fixName
  split
  · exact List.Pairwise.sublist (List.Sublist.map _ List.filter_sublist) h
  · exact h

theorem setDefaultName_names (d : Option V) (as : List (Arg V)) : (setDefaultName d as).map (fun a => a.name) = as.map (fun a => a.name) := by
  cases d with
  | none => rfl
  | some v =>
    unfold setDefaultName
    simp only
    rw [List.map_map]
    apply List.map_congr_left
    intro a _
    simp only [Function.comp]
    split <;> rfl

theorem setDefaultName_mem {d : Option V} {as : List (Arg V)} {a : Arg V} (h : a ∈ as) (hn : a.name = "name" → d = none) : a ∈ setDefaultName d as := by
  cases d with
  | none => exact h
  | some v =>
    refine List.mem_map.2 ⟨a, h, ?_⟩
    rw [if_neg]
    intro e
    cases hn e

theorem reorder_mem {as : List (Arg V)} {a : Arg V} : a ∈ reorder as ↔ a ∈ as := by
  unfold reorder
  rw [List.mem_append, List.mem_filter, List.mem_filter]
  cases a.dflt <;> simp

theorem reorder_nodup {as : List (Arg V)} (h : (as.map (fun a => a.name)).Nodup) : ((reorder as).map (fun a => a.name)).Nodup := by
  unfold reorder
  rw [List.map_append]
  refine List.nodup_append.2 ⟨List.Pairwise.sublist (List.Sublist.map _ List.filter_sublist) h,
    List.Pairwise.sublist (List.Sublist.map _ List.filter_sublist) h, ?_⟩
  intro x hx y hy e
  subst e
  obtain ⟨a, ha, ea⟩ := List.mem_map.1 hx
  obtain ⟨b, hb, eb⟩ := List.mem_map.1 hy
  obtain ⟨ha1, ha2⟩ := List.mem_filter.1 ha
  obtain ⟨hb1, hb2⟩ := List.mem_filter.1 hb
  have hab : a = b := by
    clear hx hy ha hb ha2 hb2
    induction as with
    | nil => cases ha1
    | cons c cs ih =>
      rw [List.map_cons, List.nodup_cons] at h
      rcases List.mem_cons.1 ha1 with h1 | h1
      · rcases List.mem_cons.1 hb1 with h2 | h2
        · rw [h1, h2]
        · exact (h.1 (by rw [← h1, ea, ← eb]; exact List.mem_map_of_mem h2)).elim
      · rcases List.mem_cons.1 hb1 with h2 | h2
        · exact (h.1 (by rw [← h2, eb, ← ea]; exact List.mem_map_of_mem h1)).elim
        · exact ih h.2 h1 h2
  subst hab
  cases hd : a.dflt with
  | none => rw [hd] at hb2; cases hb2
  | some d => rw [hd] at ha2; cases ha2

theorem args_nodup : ∀ (c : Cls V), (c.argNames).Nodup
  | .container => by simp [Cls.argNames, Cls.args, nameArg]
  | .gen p s => by
    unfold Cls.argNames Cls.args
    apply reorder_nodup
    rw [setDefaultName_names]
    exact fixName_nodup _ (addFields_nodup _ _ (args_nodup p))

theorem mem_argNames (p : Cls V) (s : TSpec V) (x : String) : x ∈ (Cls.gen p s).argNames ↔
    (x ∈ p.argNames ∨ ∃ f, (x, f) ∈ newFields s ∧ (f.many || f.value.isNone) = true) ∧ (x = "name" → s.name = none) := by
  unfold Cls.argNames
  rw [Cls.args]
  constructor
  · intro h
    obtain ⟨a, ha, rfl⟩ := List.mem_map.1 h
    have := List.mem_map_of_mem (f := fun a : Arg V => a.name) (reorder_mem.1 ha)
    rw [setDefaultName_names, fixName_names, addFields_names] at this
    exact this
  · intro h
    have : x ∈ (setDefaultName s.defaultName (fixName s.name (addFields (newFields s) p.args))).map (fun a => a.name) := by
      rw [setDefaultName_names, fixName_names, addFields_names]
      exact h
    obtain ⟨a, ha, rfl⟩ := List.mem_map.1 this
    exact List.mem_map_of_mem (reorder_mem.2 ha)

/-! ## Binding -/

theorem bindAll_get {kw : Dict String (Val V)} : ∀ {as : List (Arg V)} {b : Dict String (Val V)}, bindAll kw as = .ok b →
    (as.map (fun a => a.name)).Nodup → Dict.keys b = as.map (fun a => a.name) ∧
      ∀ a ∈ as, ∃ v, bindOne a (Dict.get? kw a.name) = .ok v ∧ Dict.get? b a.name = some v
  | [], b, h, _ => by cases h; exact ⟨rfl, by simp⟩
  | a :: as, b, h, hn => by
    rw [List.map_cons, List.nodup_cons] at hn
    unfold bindAll at h
    split at h
    · cases h
    · rename_i v hv
      split at h
      · cases h
      · rename_i d hd
        cases h
        obtain ⟨h1, h2⟩ := bindAll_get hd hn.2
        refine ⟨by simp [Dict.keys] at h1 ⊢; exact h1, ?_⟩
        intro a' ha'
        rcases List.mem_cons.1 ha' with rfl | ha'
        · exact ⟨v, hv, by simp [Dict.get?]⟩
        · obtain ⟨v', hv', hg⟩ := h2 a' ha'
          refine ⟨v', hv', ?_⟩
          have hne : a.name ≠ a'.name := fun e => hn.1 (by rw [e]; exact List.mem_map_of_mem ha')
          simp only [Dict.get?, hne, if_false]
          exact hg

theorem bindAll_ok {kw : Dict String (Val V)} : ∀ {as : List (Arg V)}, (∀ a ∈ as, ∃ v, bindOne a (Dict.get? kw a.name) = .ok v) →
    ∃ b, bindAll kw as = .ok b
  | [], _ => ⟨[], rfl⟩
  | a :: as, h => by
    obtain ⟨v, hv⟩ := h a (by simp)
    obtain ⟨b, hb⟩ := bindAll_ok (as := as) (fun a' ha' => h a' (List.mem_cons_of_mem _ ha'))
    exact ⟨(a.name, v) :: b, by unfold bindAll; rw [hv]; simp only [hb]⟩

theorem bind_get {kw : Dict String (Val V)} {as : List (Arg V)} {b : Dict String (Val V)} (h : bind as kw = .ok b)
    (hn : (as.map (fun a => a.name)).Nodup) : (∀ x ∈ Dict.keys kw, x ∈ as.map (fun a => a.name)) ∧ Dict.keys b = as.map (fun a => a.name) ∧
      ∀ a ∈ as, ∃ v, bindOne a (Dict.get? kw a.name) = .ok v ∧ Dict.get? b a.name = some v := by
  unfold bind at h
  split at h
  · cases h
  · rename_i hk
    refine ⟨?_, bindAll_get h hn⟩
    intro x hx
    obtain ⟨p, hp, rfl⟩ := List.mem_map.1 hx
    apply Classical.byContradiction
    intro hno
    apply hk
    apply List.any_eq_true.2
    refine ⟨p, hp, ?_⟩
    simp only [Bool.not_eq_true', List.contains_eq_mem, decide_eq_false_iff_not]
    exact hno

theorem bind_ok {kw : Dict String (Val V)} {as : List (Arg V)} (hk : ∀ x ∈ Dict.keys kw, x ∈ as.map (fun a => a.name))
    (h : ∀ a ∈ as, ∃ v, bindOne a (Dict.get? kw a.name) = .ok v) : ∃ b, bind as kw = .ok b := by
  unfold bind
  rw [if_neg]
  · exact bindAll_ok h
  · intro h'
    obtain ⟨p, hp, e⟩ := List.any_eq_true.1 h'
    simp only [Bool.not_eq_true', List.contains_eq_mem, decide_eq_false_iff_not] at e
    exact e (hk p.1 (List.mem_map_of_mem hp))

theorem get_filter {d : Dict String (Val V)} {q : String → Bool} (x : String) :
    Dict.get? (d.filter (fun p => q p.1)) x = if q x then Dict.get? d x else none := by
  induction d with
  | nil => simp
  | cons p d ih =>
    obtain ⟨y, v⟩ := p
    rw [List.filter_cons]
    by_cases hq : q y = true
    · simp only [hq, if_true]
      unfold Dict.get?
      by_cases hxy : y = x
      · subst hxy; simp [hq]
      · simp only [hxy, if_false]; exact ih
    · simp only [hq, Bool.false_eq_true, if_false]
      rw [ih]
      conv => rhs; unfold Dict.get?
      by_cases hxy : y = x
      · subst hxy; simp [hq]
      · simp [hxy]

theorem get_forceName {n : Option V} {kw : Dict String (Val V)} (x : String) : Dict.get? (forceName n kw) x =
    match n with
    | none => Dict.get? kw x
    | some v => if x = "name" then some (.one v none) else Dict.get? kw x := by
  cases n with
  | none => rfl
  | some v =>
    show Dict.get? (Dict.set kw "name" _) x = _
    rw [Dict.get?_set]

theorem get_emptied {ms : List String} {kw : Dict String (Val V)} (x : String) : Dict.get? (emptied ms kw) x =
    (Dict.get? kw x).map (fun v => if ms.contains x then (if v matches .none then .none else .many []) else v) := by
  induction kw with
  | nil => rfl
  | cons p d ih =>
    obtain ⟨y, v⟩ := p
    show Dict.get? ((if ms.contains y then (y, if v matches .none then .none else .many []) else (y, v)) :: emptied ms d) x = _
    by_cases hxy : y = x
    · subst hxy
      cases h : ms.contains y <;> simp [Dict.get?]
    · cases h : ms.contains y <;> simp only [Dict.get?, hxy, if_false, if_true, Bool.false_eq_true] <;> exact ih

theorem keys_emptied (ms : List String) (kw : Dict String (Val V)) : Dict.keys (emptied ms kw) = Dict.keys kw := by
  unfold Dict.keys emptied
  rw [List.map_map]
  apply List.map_congr_left
  intro p _
  simp only [Function.comp]
  split <;> rfl

end Verif.ClassGen

import Verif.Model.NsWrite

/-!
# Lemmas on writing namespaces
-/

namespace Verif.NsWrite
open Verif Verif.Namespace

/-! ## What has been taken -/

/-- what one operation adds to a source, if it does not raise -/
def takenOne (b : Builder) (o : Op) : List (String × Ty) := match (step b o).2 with
  | .error _ => []
  | .ok () => match o with
    | .spec s sp => [(s, .spec sp)]
    | .type t (some s) _ => [(s, .name t)]
    | _ => []

/-- the specs and names that have been added to sources without an error, in order -/
def taken : Builder → List Op → List (String × Ty)
  | _, [] => []
  | b, o :: os => takenOne b o ++ taken (step b o).1 os

/-- those of one source -/
def ofSource (s : String) (l : List (String × Ty)) : List Ty := (l.filter (fun x => decide (x.1 = s))).map Prod.snd

/-- what a builder has for a source -/
def typesOf (b : Builder) (s : String) : List Ty := match Dict.get? b.sources s with
  | none => []
  | some i => i.types.getD []

theorem types_put (d : Dict String Src) (s s' : String) (doc title : Option String) :
    (match Dict.get? (putSource d s doc title) s' with
      | none => []
      | some i => i.types.getD []) = match Dict.get? d s' with
      | none => []
      | some (i : Src) => i.types.getD [] := by
  unfold putSource
  rw [Dict.get?_set]
  by_cases h : s' = s
  · subst h
    rw [if_pos rfl]
    cases Dict.get? d s' <;> rfl
  · rw [if_neg h]

theorem types_append (d : Dict String Src) (s s' : String) (x : Ty) :
    (match Dict.get? (appendType d s x) s' with
      | none => []
      | some i => i.types.getD []) = (match Dict.get? d s' with
      | none => []
      | some (i : Src) => i.types.getD []) ++ if s = s' then [x] else [] := by
  unfold appendType
  rw [Dict.get?_set]
  by_cases h : s' = s
  · subst h
    rw [if_pos rfl, if_pos rfl]
    cases Dict.get? d s' <;> rfl
  · rw [if_neg h, if_neg (fun e => h e.symm), List.append_nil]

theorem ofSource_append (s : String) (l l' : List (String × Ty)) : ofSource s (l ++ l') = ofSource s l ++ ofSource s l' := by
  simp [ofSource]

theorem types_step (b : Builder) (o : Op) (s : String) : typesOf (step b o).1 s = typesOf b s ++ ofSource s (takenOne b o) := by
  unfold takenOne
  cases o with
  | spec s' sp =>
    unfold step addSpec
    simp only
    split
    · simp [ofSource, typesOf]
    · split
      · simp [ofSource, typesOf]
      · unfold typesOf
        simp only
        rw [types_append, types_put]
        by_cases h : s' = s <;> simp [ofSource, h]
  | source s' d t =>
    unfold step addSource
    simp only
    split
    · simp [ofSource]
    · unfold typesOf
      simp only
      rw [types_put]
      simp [ofSource]
  | type t src ns =>
    cases src with
    | some s' =>
      unfold step includeType
      simp only
      split
      · simp [ofSource]
      · unfold typesOf
        simp only
        rw [types_append, types_put]
        by_cases h : s' = s <;> simp [ofSource, h]
    | none =>
      cases ns with
      | some n => simp [step, includeType, ofSource, typesOf]
      | none => simp [step, includeType, ofSource, typesOf]
  | ns n => simp [step, includeNs, ofSource, typesOf]

theorem types_run (os : List Op) (b : Builder) (s : String) : typesOf (run b os) s = typesOf b s ++ ofSource s (taken b os) := by
  induction os generalizing b with
  | nil => simp [run, taken, ofSource]
  | cons o os ih =>
    unfold run taken
    rw [ih, types_step, ofSource_append, List.append_assoc]

/-! ## Registering -/

theorem reg_ok {c c' : Cat} {e : Entry} {s : Option String} (h : register c e s = .ok c') :
    c' = ⟨Dict.set c.specs e.dfn e, Dict.set c.sources e.dfn s⟩ ∧
    ∀ x, Dict.get? c.specs e.dfn = some x → x = e ∧ Dict.get? c.sources e.dfn = some s := by
  unfold register at h
  simp only at h
  split at h
  · rename_i h0
    cases h
    exact ⟨rfl, fun x hx => by rw [h0] at hx; cases hx⟩
  · rename_i old h0
    split at h
    · cases h
    · rename_i h1
      split at h
      · cases h
      · rename_i y h2
        split at h
        · cases h
        · rename_i h3
          cases h
          refine ⟨rfl, fun x hx => ?_⟩
          rw [h0] at hx
          cases hx
          have hy : y = s := Decidable.not_not.1 h3
          exact ⟨Decidable.not_not.1 h1, by rw [h2, hy]⟩

/-- a type is registered with a spec and a source -/
def Has (c : Cat) (e : Entry) (s : String) : Prop := Dict.get? c.specs e.dfn = some e ∧ Dict.get? c.sources e.dfn = some (some s)

theorem reg_has {c c' : Cat} {e : Entry} {s : String} (h : register c e (some s) = .ok c') : Has c' e s := by
  rw [(reg_ok h).1]
  exact ⟨Dict.get?_set_self, Dict.get?_set_self⟩

theorem reg_keeps {c c' : Cat} {e x : Entry} {s : Option String} {s' : String} (h : register c e s = .ok c') (hx : Has c x s') : Has c' x s' := by
  obtain ⟨h1, h2⟩ := reg_ok h
  subst h1
  unfold Has
  simp only
  rw [Dict.get?_set, Dict.get?_set]
  by_cases hd : x.dfn = e.dfn
  · rw [if_pos hd, if_pos hd]
    have hx' := hx
    unfold Has at hx'
    rw [hd] at hx'
    obtain ⟨e1, e2⟩ := h2 x hx'.1
    rw [e2] at hx'
    exact ⟨by rw [e1], hx'.2⟩
  · rw [if_neg hd, if_neg hd]
    exact hx

theorem autoReg_keeps {s : String} {x : Entry} {s' : String} : ∀ {es : List Entry} {c : Cat}, Has c x s' → Has (autoReg s c es).1 x s'
  | [], _, h => h
  | e :: es, c, h => by
    unfold autoReg
    split
    · exact h
    · rename_i hr
      exact autoReg_keeps (reg_keeps hr h)

theorem autoReg_has {s : String} : ∀ {es : List Entry} {c c' : Cat}, autoReg s c es = (c', .ok ()) → ∀ e ∈ es, Has c' e s
  | [], _, _, _, e, he => by cases he
  | e :: es, c, c', h, x, hx => by
    unfold autoReg at h
    split at h
    · cases h
    · rename_i c1 hr
      rcases List.mem_cons.1 hx with rfl | hx
      · have := autoReg_keeps (s := s) (es := es) (reg_has hr)
        rw [h] at this
        exact this
      · exact autoReg_has h x hx

theorem step_keeps {b : Builder} {o : Op} {x : Entry} {s : String} (h : Has b.cat x s) : Has (step b o).1.cat x s := by
  cases o with
  | spec s' sp =>
    unfold step addSpec
    have := autoReg_keeps (s := s') (es := sp.item.regs) h
    simp only
    split
    · rename_i he; rw [he] at this; exact this
    · rename_i he
      rw [he] at this
      split <;> exact this
  | source s' d t =>
    unfold step addSource
    simp only
    split <;> exact h
  | type t src ns =>
    cases src with
    | some s' =>
      unfold step includeType
      simp only
      split <;> exact h
    | none => cases ns <;> exact h
  | ns n => exact h

theorem run_keeps {x : Entry} {s : String} : ∀ {os : List Op} {b : Builder}, Has b.cat x s → Has (run b os).cat x s
  | [], _, h => h
  | o :: os, b, h => by
    unfold run
    exact run_keeps (step_keeps h)

/-- every spec that was taken is registered with its source -/
theorem taken_has {s : String} {sp : BSpec} {e : Entry} (he : e ∈ sp.item.regs) : ∀ {os : List Op} {b : Builder}, (s, Ty.spec sp) ∈ taken b os → Has (run b os).cat e s
  | [], _, h => by cases h
  | o :: os, b, h => by
    unfold run
    unfold taken at h
    rcases List.mem_append.1 h with h | h
    · apply run_keeps
      unfold takenOne at h
      split at h
      · cases h
      · rename_i hok
        cases o with
        | spec s' sp' =>
          simp only [List.mem_singleton, Prod.mk.injEq, Ty.spec.injEq] at h
          obtain ⟨rfl, rfl⟩ := h
          unfold step addSpec at hok ⊢
          simp only at hok ⊢
          split at hok
          · cases hok
          · rename_i c hc
            split at hok
            · cases hok
            · rename_i hs
              simp only [hc, hs]
              exact autoReg_has hc e he
        | source => simp at h
        | type t src ns => cases src <;> simp at h
        | ns => simp at h
    · exact taken_has he h

/-! ## Sources -/

theorem put_nodup {d : Dict String Src} (h : (Dict.keys d).Nodup) (s : String) (a t : Option String) : (Dict.keys (putSource d s a t)).Nodup := Dict.set_nodup h

theorem append_nodup {d : Dict String Src} (h : (Dict.keys d).Nodup) (s : String) (x : Ty) : (Dict.keys (appendType d s x)).Nodup := Dict.set_nodup h

theorem step_nodup {b : Builder} (o : Op) (h : (Dict.keys b.sources).Nodup) : (Dict.keys (step b o).1.sources).Nodup := by
  cases o with
  | spec s' sp =>
    unfold step addSpec
    simp only
    split
    · exact h
    · split
      · exact h
      · exact append_nodup (put_nodup h _ _ _) _ _
  | source s' d t =>
    unfold step addSource
    simp only
    split
    · exact h
    · exact put_nodup h _ _ _
  | type t src ns =>
    cases src with
    | some s' =>
      unfold step includeType
      simp only
      split
      · exact h
      · exact append_nodup (put_nodup h _ _ _) _ _
    | none => cases ns <;> exact h
  | ns n => exact h

theorem run_nodup : ∀ {os : List Op} {b : Builder}, (Dict.keys b.sources).Nodup → (Dict.keys (run b os).sources).Nodup
  | [], _, h => h
  | o :: os, b, h => by unfold run; exact run_nodup (step_nodup o h)

/-! ## Exporting -/

/-- there is a spec to write -/
def out (ts : List Ty) : Bool := !((specs true ts).isEmpty && (specs false ts).isEmpty)

/-- the entry for a source -/
def elOf (x : String × Src) : El :=
  ⟨⟨some x.1, none, if (names (x.2.types.getD [])).isEmpty then none else some (names (x.2.types.getD []))⟩, x.2.doc, x.2.title⟩

theorem exportSources_other {k : String} : ∀ {l : List (String × Src)} {fs : Dict String File}, k ∉ l.map Prod.fst → Dict.get? (exportSources fs l).1 k = Dict.get? fs k
  | [], _, _ => rfl
  | (p, i) :: l, fs, h => by
    rw [List.map_cons, List.mem_cons, not_or] at h
    unfold exportSources
    split
    · rfl
    · rename_i ts _
      simp only
      split
      · rfl
      · have ih := exportSources_other (l := l) (fs := if (!((specs true ts).isEmpty && (specs false ts).isEmpty)) = true then
          Dict.set fs p (.specs (specs true ts) (specs false ts)) else fs) h.2
        have hf : Dict.get? (if (!((specs true ts).isEmpty && (specs false ts).isEmpty)) = true then
          Dict.set fs p (.specs (specs true ts) (specs false ts)) else fs) k = Dict.get? fs k := by
          split
          · exact Dict.get?_set_ne h.1
          · rfl
        rw [hf] at ih
        split
        · rename_i he; rw [he] at ih; exact ih
        · rename_i he; rw [he] at ih; exact ih

theorem exportSources_ok : ∀ {l : List (String × Src)} {fs f : Dict String File} {els : List El}, (l.map Prod.fst).Nodup → exportSources fs l = (f, .ok els) →
    els = l.map elOf ∧ ∀ p i, (p, i) ∈ l → ∃ ts, i.types = some ts ∧
      (out ts = true → names ts = [] ∧ Dict.get? f p = some (.specs (specs true ts) (specs false ts))) ∧ (out ts = false → Dict.get? f p = Dict.get? fs p)
  | [], fs, f, els, _, h => by
    cases h
    exact ⟨rfl, fun p i hm => by cases hm⟩
  | (p, i) :: l, fs, f, els, hn, h => by
    rw [List.map_cons, List.nodup_cons] at hn
    unfold exportSources at h
    split at h
    · cases h
    · rename_i ts hts
      simp only at h
      split at h
      · cases h
      · rename_i hc
        split at h
        · cases h
        · rename_i f' els' he
          cases h
          obtain ⟨h1, h2⟩ := exportSources_ok hn.2 he
          have ho := exportSources_other (k := p) (fs := if (!((specs true ts).isEmpty && (specs false ts).isEmpty)) = true then
            Dict.set fs p (.specs (specs true ts) (specs false ts)) else fs) hn.1
          rw [he] at ho
          simp only at ho
          refine ⟨?_, ?_⟩
          · rw [h1, List.map_cons]
            congr 1
            unfold elOf
            simp only [hts, Option.getD_some]
          · intro q j hm
            rcases List.mem_cons.1 hm with e | hm
            · cases e
              refine ⟨ts, hts, fun hout => ⟨?_, ?_⟩, fun hout => ?_⟩
              · unfold out at hout
                simp only [hout, Bool.true_and, Bool.not_eq_true, Bool.not_eq_false'] at hc
                exact List.isEmpty_iff.1 hc
              · unfold out at hout
                rw [ho, if_pos hout, Dict.get?_set_self]
              · unfold out at hout
                rw [ho, if_neg (by rw [hout]; simp)]
            · obtain ⟨ts', e1, e2, e3⟩ := h2 q j hm
              refine ⟨ts', e1, e2, fun hout => ?_⟩
              rw [e3 hout]
              have hq : q ≠ p := fun e => hn.1 (e ▸ List.mem_map.2 ⟨(q, j), hm, rfl⟩)
              split
              · exact Dict.get?_set_ne hq
              · rfl

end Verif.NsWrite

import Verif.Model.Once
import Verif.Base.Tac

/-!
# Properties of attributes that can be set once
-/

namespace Verif.Once
open Verif

theorem adopt_fields : ∀ (es : List Elem) (s : St), (adopt s es).1.fields = s.fields ∧ (adopt s es).1.self = s.self := by
  intro es
  induction es with
  | nil => intro s; exact ⟨rfl, rfl⟩
  | cons e es ih =>
    intro s
    cases e with
    | atom x => exact ⟨rfl, rfl⟩
    | cont i n =>
      simp only [adopt]
      split <;> exact ih _

/-- an assignment changes at most its own field, from unset to the wrapped value -/
theorem fieldSet_fields (wrap : String → Val → Except Err Val) (c : Conf) (s : St) (v : Val) :
    (fieldSet wrap c s v).1.fields = s.fields ∨
      (Dict.has s.fields c.name = false ∧ v ≠ .none ∧ c.settable = true ∧
        ∃ w, wrap c.name v = .ok w ∧ (fieldSet wrap c s v).1.fields = s.fields.set c.name w) := by
  have hb : (baseSet wrap c s v).1.fields = s.fields ∨
      (Dict.has s.fields c.name = false ∧ v ≠ .none ∧
        ∃ w, wrap c.name v = .ok w ∧ (baseSet wrap c s v).1.fields = s.fields.set c.name w) := by
    unfold baseSet
    split
    · exact .inl rfl
    · split
      · exact .inl rfl
      · rename_i h1 h2
        cases hw : wrap c.name v with
        | error e => exact .inl rfl
        | ok w => exact .inr ⟨by simpa using h2, h1, w, rfl, rfl⟩
  have hn : (namedSet wrap c s v).1.fields = s.fields ∨
      (Dict.has s.fields c.name = false ∧ v ≠ .none ∧ c.settable = true ∧
        ∃ w, wrap c.name v = .ok w ∧ (namedSet wrap c s v).1.fields = s.fields.set c.name w) := by
    unfold namedSet
    split
    · split
      · split
        · rename_i hs
          rcases hb with h | ⟨h1, h2, h3⟩
          · exact .inl h
          · exact .inr ⟨h1, h2, hs, h3⟩
        · exact .inl rfl
      · exact .inl rfl
    · split
      · rename_i hs
        rcases hb with h | ⟨h1, h2, h3⟩
        · exact .inl h
        · exact .inr ⟨h1, h2, hs, h3⟩
      · exact .inl rfl
  unfold fieldSet
  cases hc : namedSet wrap c s v with
  | mk s1 r =>
    rw [hc] at hn
    cases r with
    | error e => exact hn
    | ok u =>
      simp only
      split
      · rw [(adopt_fields _ _).1]; exact hn
      · exact hn

/-- **C28 (fields, one assignment).** Assigning to a field that has a value changes nothing at all — the value, the other
fields, parents or the modified flag — and raises unless the value is None and the field settable. -/
theorem C28_field_fixed (wrap : String → Val → Except Err Val) (c : Conf) (s : St) (v w : Val)
    (hset : Dict.get? s.fields c.name = some w) :
    (fieldSet wrap c s v).1.fields = s.fields ∧ (v ≠ .none → fieldSet wrap c s v = (s, (fieldSet wrap c s v).2) ∧
      ∃ e, (fieldSet wrap c s v).2 = .error e) ∧
    (v = .none → c.settable = true → fieldSet wrap c s v = (s, .ok ())) := by
  have hhas : Dict.has s.fields c.name = true := by
    rw [Dict.has_iff]
    by_contra h
    rw [← Dict.get?_eq_none_iff] at h
    rw [h] at hset; simp at hset
  refine ⟨?_, ?_, ?_⟩
  · rcases fieldSet_fields wrap c s v with h | ⟨h, -⟩
    · exact h
    · rw [hhas] at h; simp at h
  · intro hv
    have hn : ∃ e, namedSet wrap c s v = (s, .error e) := by
      unfold namedSet baseSet
      split
      · split
        · split
          · exact ⟨_, rfl⟩
          · exact ⟨_, rfl⟩
        · exact ⟨_, rfl⟩
      · split
        · exact ⟨_, rfl⟩
        · exact ⟨_, rfl⟩
    obtain ⟨e, he⟩ := hn
    have : fieldSet wrap c s v = (s, .error e) := by unfold fieldSet; rw [he]
    rw [this]
    exact ⟨rfl, e, rfl⟩
  · intro hv hs
    subst hv
    have hn : namedSet wrap c s .none = (s, .ok ()) := by
      unfold namedSet baseSet nameOk
      split <;> simp [hs]
    unfold fieldSet
    rw [hn]
    simp [Val.elems, adopt]

/-- **C28 (fields, histories).** Whatever assignments, accepted or rejected, follow, a field that has a value keeps it. -/
theorem C28_field_history (wrap : String → Val → Except Err Val) (l : List (Conf × Val)) (s : St) (name : String) (w : Val)
    (hset : Dict.get? s.fields name = some w) : fieldGet (runFields wrap s l) name = w := by
  have : Dict.get? (runFields wrap s l).fields name = some w := by
    induction l generalizing s with
    | nil => exact hset
    | cons cv l ih =>
      obtain ⟨c, v⟩ := cv
      refine ih _ ?_
      rcases fieldSet_fields wrap c s v with h | ⟨h, -, -, w', -, h2⟩
      · rw [h]; exact hset
      · rw [h2, Dict.get?_set_ne]
        · exact hset
        · rintro rfl
          rw [Dict.has_false_iff, ← Dict.get?_eq_none_iff] at h
          rw [h] at hset; simp at hset
  simp [fieldGet, this]

/-- **C28 (fields, first value).** The value a field ends with is the wrapped form of a value assigned to it; a field that is
not settable, or to which nothing is assigned, stays None. -/
theorem C28_field_origin (wrap : String → Val → Except Err Val) (l : List (Conf × Val)) (s : St) (name : String) (w : Val)
    (h0 : Dict.get? s.fields name = none) (hset : Dict.get? (runFields wrap s l).fields name = some w) :
    ∃ c v, (c, v) ∈ l ∧ c.name = name ∧ c.settable = true ∧ v ≠ .none ∧ wrap name v = .ok w := by
  induction l generalizing s with
  | nil => rw [runFields, h0] at hset; simp at hset
  | cons cv l ih =>
    obtain ⟨c, v⟩ := cv
    rw [runFields] at hset
    rcases fieldSet_fields wrap c s v with h | ⟨h, hv, hs, w', hw, h2⟩
    · obtain ⟨c', v', h1, h3⟩ := ih _ (by rw [h]; exact h0) hset
      exact ⟨c', v', by simp [h1], h3⟩
    · by_cases hn : c.name = name
      · have hget : Dict.get? (fieldSet wrap c s v).1.fields name = some w' := by
          rw [h2, hn, Dict.get?_set_self]
        have := C28_field_history wrap l _ name w' hget
        simp only [fieldGet, hset, Option.getD_some] at this
        subst this
        exact ⟨c, v, by simp, hn, hs, hv, by rw [← hn]; exact hw⟩
      · obtain ⟨c', v', h1, h3⟩ := ih _ (by rw [h2, Dict.get?_set_ne (fun e => hn e.symm)]; exact h0) hset
        exact ⟨c', v', by simp [h1], h3⟩

/-- non-vacuity: a value is taken, a second one and one for a field with the wrong name refused, None ignored -/
example :
    let wrap := fun (_ : String) (v : Val) => (.ok v : Except Err Val)
    let c : Conf := { name := "x" }
    let d : Conf := { name := "y", requiredName := some "t", child := true }
    let s := runFields wrap {} [(c, .one (.atom 1)), (c, .one (.atom 2)), (c, .none), (d, .one (.cont 5 "u")), (d, .one (.cont 6 "t"))]
    fieldGet s "x" = .one (.atom 1) ∧ fieldGet s "y" = .one (.cont 6 "t") ∧ s.parent 6 = some 0 ∧ s.parent 5 = none := by
  decide

/-- **C74 (children).** When an assignment of a non-None value to a child field is accepted, every container in the value has a
parent: its previous one if it had one, else the container assigned to; the latter is marked modified if there is any. -/
theorem C74_children_adopted (wrap : String → Val → Except Err Val) (c : Conf) (s s' : St) (v : Val) (hc : c.child = true)
    (hok : fieldSet wrap c s v = (s', .ok ())) :
    (∀ i n, .cont i n ∈ v.elems → s'.parent i = some ((s.parent i).getD s.self)) ∧
    (∀ i, (∀ n, .cont i n ∉ v.elems) → s'.parent i = s.parent i) ∧
    (∀ x, .atom x ∉ v.elems) ∧ (v.elems ≠ [] → s'.modified = true) := by
  have key : ∀ (es : List Elem) (s s' : St), adopt s es = (s', .ok ()) →
      (∀ i n, .cont i n ∈ es → s'.parent i = some ((s.parent i).getD s.self)) ∧
      (∀ i, (∀ n, .cont i n ∉ es) → s'.parent i = s.parent i) ∧
      (∀ x, .atom x ∉ es) ∧ (es ≠ [] ∨ s.modified = true → s'.modified = true) := by
    intro es
    induction es with
    | nil =>
      intro s s' h
      simp only [adopt, Prod.mk.injEq, and_true] at h
      subst h
      simp
    | cons e es ih =>
      intro s s' h
      cases e with
      | atom x => simp [adopt] at h
      | cont i n =>
        simp only [adopt] at h
        cases hp : s.parent i with
        | some p =>
          rw [hp] at h
          obtain ⟨h1, h2, h3, h4⟩ := ih _ _ h
          refine ⟨?_, ?_, ?_, fun _ => h4 (.inr rfl)⟩
          · intro j m hj
            by_cases hje : ∃ m', Elem.cont j m' ∈ es
            · obtain ⟨m', hm'⟩ := hje; exact h1 j m' hm'
            · simp only [List.mem_cons, Elem.cont.injEq] at hj
              rcases hj with ⟨rfl, rfl⟩ | hj
              · rw [h2 j (fun m hm => hje ⟨m, hm⟩), hp]; rfl
              · exact absurd ⟨m, hj⟩ hje
          · intro j hj
            exact h2 j (fun m hm => hj m (by simp [hm]))
          · intro x hx; simp only [List.mem_cons, reduceCtorEq, false_or] at hx; exact h3 x hx
        | none =>
          rw [hp] at h
          obtain ⟨h1, h2, h3, h4⟩ := ih _ _ h
          refine ⟨?_, ?_, ?_, fun _ => h4 (.inr rfl)⟩
          · intro j m hj
            by_cases hje : ∃ m', Elem.cont j m' ∈ es
            · obtain ⟨m', hm'⟩ := hje
              have := h1 j m' hm'
              simp only at this
              rw [this]
              by_cases hij : j = i
              · subst hij; simp [hp]
              · simp [hij]
            · simp only [List.mem_cons, Elem.cont.injEq] at hj
              rcases hj with ⟨rfl, rfl⟩ | hj
              · rw [h2 j (fun m hm => hje ⟨m, hm⟩), hp]; simp
              · exact absurd ⟨m, hj⟩ hje
          · intro j hj
            rw [h2 j (fun m hm => hj m (by simp [hm]))]
            have : j ≠ i := by rintro rfl; exact hj n (by simp)
            simp [this]
          · intro x hx; simp only [List.mem_cons, reduceCtorEq, false_or] at hx; exact h3 x hx
  unfold fieldSet at hok
  cases hn : namedSet wrap c s v with
  | mk s1 r =>
    rw [hn] at hok
    cases r with
    | error e => simp at hok
    | ok u =>
      simp only [hc, if_true] at hok
      have hs1 : s1.parent = s.parent ∧ s1.self = s.self := by
        have hb : (baseSet wrap c s v).1.parent = s.parent ∧ (baseSet wrap c s v).1.self = s.self := by
          unfold baseSet
          split
          · exact ⟨rfl, rfl⟩
          · split
            · exact ⟨rfl, rfl⟩
            · split <;> exact ⟨rfl, rfl⟩
        have : s1 = (namedSet wrap c s v).1 := by rw [hn]
        rw [this]
        unfold namedSet
        split
        · split
          · split
            · exact hb
            · exact ⟨rfl, rfl⟩
          · exact ⟨rfl, rfl⟩
        · split
          · exact hb
          · exact ⟨rfl, rfl⟩
      obtain ⟨h1, h2, h3, h4⟩ := key _ _ _ hok
      rw [hs1.1, hs1.2] at h1
      rw [hs1.1] at h2
      exact ⟨h1, h2, h3, fun h => h4 (.inl h)⟩

/-- **C74 (names).** A field with a required name only ever holds the wrapped form of a container of that name. -/
theorem C74_required_name (wrap : String → Val → Except Err Val) (c : Conf) (s s' : St) (v : Val) (r : String)
    (hr : c.requiredName = some r) (hok : fieldSet wrap c s v = (s', .ok ())) : v = .none ∨ ∃ i, v = .one (.cont i r) := by
  unfold fieldSet namedSet at hok
  rw [hr] at hok
  simp only at hok
  by_cases hn : nameOk r v = true
  · cases v with
    | none => exact .inl rfl
    | one e =>
      cases e with
      | atom x => simp [nameOk] at hn
      | cont i n => simp only [nameOk, beq_iff_eq] at hn; subst hn; exact .inr ⟨i, rfl⟩
    | many es => simp [nameOk] at hn
    | wrapped w => simp [nameOk] at hn
  · rw [if_neg hn] at hok; simp at hok

/-- **C74 fails** for values that are not containers: the assignment to a child field raises but the value has been stored (and
can never be replaced). -/
theorem C74_rejected_fails : ∃ (c : Conf) (v : Val) (s' : St) (e : Err),
    fieldSet (fun _ v => .ok v) c {} v = (s', .error e) ∧ fieldGet s' c.name = v ∧ v ≠ .none :=
  ⟨{ name := "x", child := true }, .one (.atom 3), _, _, rfl, by decide, by decide⟩

/-- **C28 (single attributes).** However many assignments follow, `container_source`, `Spec.parent`, the data and dtype of a
dataset builder and the data of a DataIO keep the first value that is not None; assigning again raises. -/
theorem C28_single (v0 : Nat) (vs : List (Option Nat)) :
    runSets setContainerSource (some v0) vs = some v0 ∧ runSets setSpecParent (some v0) vs = some v0 ∧
    (∀ v, (setContainerSource (some v0) v).2 = .error .runtimeError) ∧
    (∀ v, (setSpecParent (some v0) v).2 = .error .attributeError) := by
  refine ⟨?_, ?_, fun v => rfl, fun v => rfl⟩
  · induction vs with
    | nil => rfl
    | cons v vs ih => exact ih
  · induction vs with
    | nil => rfl
    | cons v vs ih => exact ih

/-- one assignment to a dataset builder: its data or its dtype -/
def DBuilder.set (b : DBuilder) : Option (Bool × Nat) ⊕ Option String → DBuilder × Except Err Unit
  | .inl v => b.setData v
  | .inr v => b.setDtype v

/-- **C28 (dataset builders).** Under every mixed history of assignments to data and dtype, each keeps its first value that is
not None. -/
theorem C28_dataset_builder (b : DBuilder) (vs : List (Option (Bool × Nat) ⊕ Option String)) :
    (∀ d, b.data = some d → (runSets DBuilder.set b vs).data = some d ∧ ∀ v, b.setData v = (b, .error .attributeError)) ∧
    (∀ t, b.dtype = some t → (runSets DBuilder.set b vs).dtype = some t ∧ ∀ v, b.setDtype v = (b, .error .attributeError)) := by
  refine ⟨fun d hd => ⟨?_, fun v => by simp [DBuilder.setData, hd]⟩, fun t ht => ⟨?_, fun v => by simp [DBuilder.setDtype, ht]⟩⟩
  · induction vs generalizing b with
    | nil => exact hd
    | cons v vs ih =>
      refine ih _ ?_
      cases v with
      | inl v => simp [DBuilder.set, DBuilder.setData, hd]
      | inr v => simp only [DBuilder.set, DBuilder.setDtype]; split <;> exact hd
  · induction vs generalizing b with
    | nil => exact ht
    | cons v vs ih =>
      refine ih _ ?_
      cases v with
      | inl v => simp only [DBuilder.set, DBuilder.setData]; split <;> exact ht
      | inr v => simp [DBuilder.set, DBuilder.setDtype, ht]

/-- **C28 (DataIO).** The data of a DataIO keep their first value that is not None; a DataIO created with a dtype and shape never
gets data. -/
theorem C28_dataio (data dtype shape : Option Nat) (b : DataIO) (hb : newDataIO data dtype shape = .ok b)
    (vs : List (Option Nat)) :
    (∀ d, data = some d → (runSets DataIO.setData b vs) = b ∧ b.data = some d) ∧
    (data = none → dtype ≠ none → runSets DataIO.setData b vs = b ∧ b.data = none ∧ b.dtype = dtype ∧ b.shape = shape ∧ shape ≠ none) ∧
    (∀ us v d, us = List.replicate us.length none → data = none → dtype = none → shape = none →
      v = some d → (runSets DataIO.setData b (us ++ v :: vs)).data = some d) := by
  have fix : ∀ (vs : List (Option Nat)) (b : DataIO), (∀ v, (b.setData v).1 = b) → runSets DataIO.setData b vs = b := by
    intro vs
    induction vs with
    | nil => intro b _; rfl
    | cons v vs ih => intro b h; rw [runSets, h]; exact ih b h
  cases data with
  | some d =>
    simp only [newDataIO, Except.ok.injEq] at hb
    subst hb
    refine ⟨?_, by simp, by simp⟩
    intro d' hd
    refine ⟨fix _ _ (fun v => ?_), hd⟩
    simp [DataIO.setData]
  | none =>
    simp only [newDataIO] at hb
    split at hb
    · simp at hb
    · rename_i hne
      simp only [ne_eq, eq_iff_iff, not_not] at hne
      simp only [Except.ok.injEq] at hb
      subst hb
      refine ⟨by simp, ?_, ?_⟩
      · intro _ hd
        refine ⟨fix _ _ (fun v => ?_), rfl, rfl, rfl, fun h => hd (hne.2 h)⟩
        simp only [DataIO.setData]
        rw [if_neg (by simp), if_pos (fun h => hd h.1)]
      · intro us v d hus _ hd hs hv
        subst hd; subst hs; subst hv
        rw [hus]
        clear hus
        generalize us.length = m
        induction m with
        | zero =>
          show (runSets DataIO.setData ⟨some d, none, none⟩ vs).data = _
          rw [fix _ _ (fun v => by simp [DataIO.setData])]
        | succ m ih => exact ih

/-- non-vacuity -/
example : (newDataIO none none none).map (fun b => (runSets DataIO.setData b [none, some 3, some 4]).data) = .ok (some 3) ∧
    newDataIO none (some 1) none = .error .valueError ∧
    (runSets DBuilder.set (newDBuilder none none) [.inl (some (false, 2)), .inr (some "int"), .inl none]).data = some (false, 2) ∧
    (newDBuilder (some (true, 1)) none).dtype = some "object" := by decide +kernel

end Verif.Once

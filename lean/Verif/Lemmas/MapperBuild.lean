import Verif.Lemmas.MapperFaithful

/-! What holds of every build that succeeds. -/

namespace Verif.Mapper

open Verif

/-- The parts of a builder that adding members leaves alone. -/
def Keeps (b b' : Bld) : Prop := b'.name = b.name ∧ b'.isData = b.isData ∧ b'.data = b.data ∧ b'.attrs = b.attrs

theorem Keeps.refl (b : Bld) : Keeps b b := ⟨rfl, rfl, rfl, rfl⟩
theorem Keeps.trans {a b c : Bld} (h : Keeps a b) (h' : Keeps b c) : Keeps a c :=
  ⟨h'.1.trans h.1, h'.2.1.trans h.2.1, h'.2.2.1.trans h.2.2.1, h'.2.2.2.trans h.2.2.2⟩

/-- `x` may be stored for `p`: it has a parent or is known from elsewhere, and it is to be written or has been written. -/
def Admitted (E : Env) (p x : Oid) : Prop :=
  ((E.heap x).parent ≠ none ∨ ((E.heap x).source ≠ (E.heap p).source ∧ E.built x = true)) ∧
  ((E.heap x).modified = true ∨ E.export_ = true ∨ (E.heap x).source ≠ none)

/-- If `x` is to be written as a part of `p`, it was built. -/
def BuiltIf (E : Env) (rec : Oid → List ASpec → Except BErr Bld) (p : Oid) (k : Kind) (s : TSpec) (x : Oid) : Prop :=
  k ≠ .link → (E.heap x).parent = some p → ((E.heap x).modified = true ∨ E.export_ = true) →
    ∃ b, rec x s.attrs = .ok b

section
variable {E : Env} {rec : Oid → List ASpec → Except BErr Bld} {td : TypeDef} {p : Oid}

theorem addContainer_ok {k : Kind} {s : TSpec} {x : Oid} {b b' : Bld} (h : addContainer E rec p k s x b = .ok b') :
    Keeps b b' ∧ Admitted E p x ∧ BuiltIf E rec p k s x := by
  unfold addContainer at h
  split at h
  · cases h
  · rename_i h0
    have hp : (E.heap x).parent ≠ none ∨ ((E.heap x).source ≠ (E.heap p).source ∧ E.built x = true) := by
      by_cases hpar : (E.heap x).parent = none
      · refine Or.inr ⟨fun e => h0 ⟨hpar, Or.inl e⟩, ?_⟩
        cases hbu : E.built x with
        | true => rfl
        | false => exact absurd ⟨hpar, Or.inr hbu⟩ h0
      · exact Or.inl hpar
    split at h
    · rename_i hm
      have hm' : (E.heap x).modified = true ∨ E.export_ = true := by simpa using hm
      have ha : Admitted E p x := ⟨hp, hm'.elim Or.inl (fun e => Or.inr (Or.inl e))⟩
      split at h
      · rename_i hl
        rw [setLink_ok h]
        refine ⟨⟨rfl, rfl, rfl, rfl⟩, ha, fun hk hpp _ => ?_⟩
        rcases hl with hl | hl
        · exact absurd hl hk
        · exact absurd hpp hl
      · obtain ⟨nb, hnb, h2⟩ := bind_ok h
        refine ⟨?_, ha, fun _ _ _ => ⟨nb, hnb⟩⟩
        split at h2
        · rw [(setDset_ok h2).2]; exact ⟨rfl, rfl, rfl, rfl⟩
        · rw [(setGroup_ok h2).2]; exact ⟨rfl, rfl, rfl, rfl⟩
    · rename_i hm
      have hb : BuiltIf E rec p k s x := fun _ _ hmm => absurd (by simpa using hmm) hm
      split at h
      · rename_i hs
        have ha : Admitted E p x := ⟨hp, Or.inr (Or.inr (fun e => by rw [e] at hs; cases hs))⟩
        split at h
        · rw [setLink_ok h]; exact ⟨⟨rfl, rfl, rfl, rfl⟩, ha, hb⟩
        · rw [← Except.ok.inj h]; exact ⟨Keeps.refl _, ha, hb⟩
      · cases h

theorem addList_ok {k : Kind} {s : TSpec} : ∀ (l : List Oid) (b b' : Bld), addList E rec p k s l b = .ok b' →
    Keeps b b' ∧ ∀ x ∈ l, Admitted E p x ∧ BuiltIf E rec p k s x
  | [], b, b', h => by
    simp only [addList] at h
    rw [← Except.ok.inj h]
    exact ⟨Keeps.refl _, by simp⟩
  | x :: l, b, b', h => by
    simp only [addList] at h
    obtain ⟨b1, h1, h2⟩ := bind_ok h
    obtain ⟨k1, a1⟩ := addContainer_ok h1
    obtain ⟨k2, a2⟩ := addList_ok l b1 b' h2
    refine ⟨k1.trans k2, fun y hy => ?_⟩
    rcases List.mem_cons.1 hy with rfl | hy
    · exact a1
    · exact a2 y hy

theorem addTyped_ok {k : Kind} {s : TSpec} {b b' : Bld} (h : addTyped E rec td p k s b = .ok b') :
    Keeps b b' ∧ ∀ x ∈ vals E td p s, Admitted E p x ∧ BuiltIf E rec p k s x := by
  unfold addTyped at h
  obtain ⟨v, hv, h2⟩ := bind_ok h
  cases v with
  | none =>
    have : vals E td p s = [] := by simp [vals, hv]
    rw [← Except.ok.inj (show Except.ok b = _ from h2), this]
    exact ⟨Keeps.refl _, by simp⟩
  | data d => cases h2
  | one x =>
    have : vals E td p s = [x] := by simp [vals, hv]
    obtain ⟨k1, a1⟩ := addContainer_ok h2
    rw [this]
    exact ⟨k1, fun y hy => by rw [List.mem_singleton.1 hy]; exact a1⟩
  | many l =>
    have : vals E td p s = l := by simp [vals, hv]
    rw [this]
    exact addList_ok l b b' h2

theorem addUntyped_ok {uid : Nat} {name : String} {attrs : List ASpec} {b b' : Bld}
    (h : addUntyped E td p uid name attrs b = .ok b') : Keeps b b' := by
  unfold addUntyped at h
  obtain ⟨v, hv, h2⟩ := bind_ok h
  cases v with
  | none =>
    rw [← Except.ok.inj (show Except.ok b = _ from h2)]
    exact Keeps.refl _
  | one x => cases h2
  | many l => cases h2
  | data d =>
    simp only at h2
    split at h2
    · obtain ⟨sb, _, h3⟩ := bind_ok h2
      rw [← Except.ok.inj h3]
      exact ⟨rfl, rfl, rfl, rfl⟩
    · obtain ⟨d', _, h3⟩ := bind_ok h2
      obtain ⟨b1, h4, h5⟩ := bind_ok h3
      obtain ⟨sb, _, h6⟩ := bind_ok h5
      rw [← Except.ok.inj h6, (setDset_ok h4).2]
      exact ⟨rfl, rfl, rfl, rfl⟩

theorem addDsets_ok : ∀ (l : List DS) (b b' : Bld), addDsets E rec td p l b = .ok b' → Keeps b b' ∧
    ∀ k s, Leaf.typed k s ∈ dsLeaves l → ∀ x ∈ vals E td p s, Admitted E p x ∧ BuiltIf E rec p k s x
  | [], b, b', h => by
    simp only [addDsets] at h
    rw [← Except.ok.inj h]
    exact ⟨Keeps.refl _, by simp [dsLeaves]⟩
  | .untyped u n r as :: l, b, b', h => by
    simp only [addDsets] at h
    obtain ⟨b1, h1, h2⟩ := bind_ok h
    obtain ⟨k2, a2⟩ := addDsets_ok l b1 b' h2
    refine ⟨(addUntyped_ok h1).trans k2, fun k s hs => a2 k s ?_⟩
    simpa [dsLeaves] using hs
  | .typed t :: l, b, b', h => by
    simp only [addDsets] at h
    obtain ⟨b1, h1, h2⟩ := bind_ok h
    obtain ⟨k1, a1⟩ := addTyped_ok h1
    obtain ⟨k2, a2⟩ := addDsets_ok l b1 b' h2
    refine ⟨k1.trans k2, fun k s hs => ?_⟩
    simp only [dsLeaves, List.mem_cons, Leaf.typed.injEq] at hs
    rcases hs with ⟨rfl, rfl⟩ | hs
    · exact a1
    · exact a2 k s hs

theorem addLinks_ok : ∀ (l : List TSpec) (b b' : Bld), addLinks E rec td p l b = .ok b' → Keeps b b' ∧
    ∀ s ∈ l, ∀ x ∈ vals E td p s, Admitted E p x
  | [], b, b', h => by
    simp only [addLinks] at h
    rw [← Except.ok.inj h]
    exact ⟨Keeps.refl _, by simp⟩
  | t :: l, b, b', h => by
    simp only [addLinks] at h
    obtain ⟨b1, h1, h2⟩ := bind_ok h
    obtain ⟨k1, a1⟩ := addTyped_ok h1
    obtain ⟨k2, a2⟩ := addLinks_ok l b1 b' h2
    refine ⟨k1.trans k2, fun s hs => ?_⟩
    rcases List.mem_cons.1 hs with rfl | hs
    · exact fun x hx => (a1 x hx).1
    · exact a2 s hs

theorem placeGroup_ok {r : Bool} {sb b b' : Bld} (h : placeGroup r sb b = .ok b') : Keeps b b' := by
  unfold placeGroup at h
  split at h
  · split at h
    · rw [← Except.ok.inj h]; exact ⟨rfl, rfl, rfl, rfl⟩
    · rw [(setGroup_ok h).2]; exact ⟨rfl, rfl, rfl, rfl⟩
  · rw [← Except.ok.inj h]; exact Keeps.refl _

theorem builtIf_link {s : TSpec} {x : Oid} : BuiltIf E rec p .link s x := fun h => absurd rfl h

mutual
theorem addGroups_ok : ∀ (l : GList) (b b' : Bld), addGroups E rec td p l b = .ok b' → Keeps b b' ∧
    ∀ k s, Leaf.typed k s ∈ gLeaves l → ∀ x ∈ vals E td p s, Admitted E p x ∧ BuiltIf E rec p k s x
  | .nil, b, b', h => by
    simp only [addGroups] at h
    rw [← Except.ok.inj h]
    exact ⟨Keeps.refl _, by simp [gLeaves]⟩
  | .typed t l, b, b', h => by
    simp only [addGroups] at h
    obtain ⟨b1, h1, h2⟩ := bind_ok h
    obtain ⟨k1, a1⟩ := addTyped_ok h1
    obtain ⟨k2, a2⟩ := addGroups_ok l b1 b' h2
    refine ⟨k1.trans k2, fun k s hs => ?_⟩
    simp only [gLeaves, List.mem_cons, Leaf.typed.injEq] at hs
    rcases hs with ⟨rfl, rfl⟩ | hs
    · exact a1
    · exact a2 k s hs
  | .untyped g l, b, b', h => by
    simp only [addGroups] at h
    obtain ⟨sb, h1, h2⟩ := bind_ok h
    obtain ⟨b1, h3, h4⟩ := bind_ok h2
    have a1 := addInner_ok g _ sb h1
    obtain ⟨k2, a2⟩ := addGroups_ok l b1 b' h4
    refine ⟨(placeGroup_ok h3).trans k2, fun k s hs => ?_⟩
    simp only [gLeaves, List.mem_append] at hs
    rcases hs with hs | hs
    · exact a1 k s hs
    · exact a2 k s hs
theorem addInner_ok : ∀ (g : GSpec) (b b' : Bld), addInner E rec td p g b = .ok b' →
    ∀ k s, Leaf.typed k s ∈ sLeaves g → ∀ x ∈ vals E td p s, Admitted E p x ∧ BuiltIf E rec p k s x
  | .mk uid name req attrs dsets groups links, b, b', h => by
    simp only [addInner] at h
    obtain ⟨b1, h1, h2⟩ := bind_ok h
    obtain ⟨b2, h3, h4⟩ := bind_ok h2
    obtain ⟨b3, h5, h6⟩ := bind_ok h4
    intro k s hs
    simp only [sLeaves, List.mem_append, List.mem_map, reduceCtorEq, and_false, exists_false, false_or,
      Leaf.typed.injEq] at hs
    rcases hs with ⟨t, ht, rfl, rfl⟩ | hs | hs
    · exact fun x hx => ⟨(addLinks_ok links b2 b3 h5).2 t ht x hx, builtIf_link⟩
    · exact (addGroups_ok groups b3 b' h6).2 k s hs
    · exact (addDsets_ok dsets b1 b2 h3).2 k s hs
end

theorem addAttrs_keep : ∀ (l : List ASpec) (b b' : Bld), addAttrs E td p l b = .ok b' →
    b'.name = b.name ∧ b'.isData = b.isData ∧ b'.data = b.data
  | [], b, b', h => by
    simp only [addAttrs] at h
    rw [← Except.ok.inj h]
    exact ⟨rfl, rfl, rfl⟩
  | s :: l, b, b', h => by
    simp only [addAttrs] at h
    obtain ⟨v, _, h2⟩ := bind_ok h
    obtain ⟨b1, h3, h4⟩ := bind_ok h2
    obtain ⟨q1, q2, q3⟩ := addAttrs_keep l b1 b' h4
    have : b1.name = b.name ∧ b1.isData = b.isData ∧ b1.data = b.data := by
      cases v with
      | none => rw [← Except.ok.inj (show Except.ok b = _ from h3)]; exact ⟨rfl, rfl, rfl⟩
      | some v => rw [setAttr_ok h3]; exact ⟨rfl, rfl, rfl⟩
    exact ⟨q1.trans this.1, q2.trans this.2.1, q3.trans this.2.2⟩

theorem addAttrs_each : ∀ (l : List ASpec) (b b' : Bld), addAttrs E td p l b = .ok b' →
    ∀ s ∈ l, ∃ v, attrOut E td p s = .ok v
  | [], _, _, _, s, hs => by cases hs
  | t :: l, b, b', h, s, hs => by
    simp only [addAttrs] at h
    obtain ⟨v, h1, h2⟩ := bind_ok h
    obtain ⟨b1, _, h4⟩ := bind_ok h2
    rcases List.mem_cons.1 hs with rfl | hs
    · exact ⟨v, h1⟩
    · exact addAttrs_each l b1 b' h4 s hs

/-- What every successful build satisfies. -/
structure BuildOK (E : Env) (n : Nat) (o : Oid) (ext : List ASpec) (td : TypeDef) (b : Bld) : Prop where
  name : b.name = td.fixedName.getD (E.heap o).name
  sort : b.isData = td.isData
  ns : textAttr b "namespace" = some "core"
  dt : textAttr b "data_type" = some (E.heap o).dt
  oid : textAttr b "object_id" = some o
  each : ∀ s ∈ allAttrs td.body.attrs ext, ∃ v, attrOut E td o s = .ok v
  attrs : ∀ s ∈ allAttrs td.body.attrs ext, s.name ∉ reserved → b.attrs.get? s.name = attrRes E td o s
  data : td.isData = true → ∃ d d', (E.heap o).fields.get? "data" = some (.data d) ∧
    E.conv td.body.uid d = .ok d' ∧ b.data = some d'
  parts : td.isData = false → ∀ k s, Leaf.typed k s ∈ sLeaves td.body → ∀ x ∈ vals E td o s,
    Admitted E o x ∧ BuiltIf E (buildObj E n) o k s x

theorem build_ok {n : Nat} {o : Oid} {ext : List ASpec} {b : Bld} (h : buildObj E (n + 1) o ext = .ok b) :
    ∃ td, E.types (E.heap o).dt = some td ∧ BuildOK E n o ext td b := by
  obtain ⟨td, b1, b2, ht, h1, h2, rfl⟩ := buildObj_succ h
  refine ⟨td, ht, ?_⟩
  have hbn : bname E o = td.fixedName.getD (E.heap o).name := by simp [bname, ht]
  have core : b1.attrs = [] → b1.name = bname E o → b1.isData = td.isData →
      (td.isData = true → ∃ d d', (E.heap o).fields.get? "data" = some (.data d) ∧
        E.conv td.body.uid d = .ok d' ∧ b1.data = some d') →
      (td.isData = false → ∀ k s, Leaf.typed k s ∈ sLeaves td.body → ∀ x ∈ vals E td o s,
        Admitted E o x ∧ BuiltIf E (buildObj E n) o k s x) →
      BuildOK E n o ext td { b2 with attrs := stamp b2.attrs (E.heap o).dt o } := by
    intro ha hnm hso hda hpa
    have hnn := allAttrs_names td.body.attrs ext
    have e2 := addAttrs_img E td o _ b1 b2 h2 (by rw [ha]; simpa [Dict.keys] using hnn.sublist (attrImg_keys _))
    obtain ⟨q1, q2, q3⟩ := addAttrs_keep _ _ _ h2
    refine ⟨?_, q2.trans hso, ?_, ?_, ?_, addAttrs_each _ _ _ h2, ?_, ?_, hpa⟩
    · rw [← hbn]; exact q1.trans hnm
    · simp only [textAttr, stamp]
      rw [Dict.get?_set_ne (by decide), Dict.get?_set_ne (by decide), Dict.get?_set_self]
    · simp only [textAttr, stamp]
      rw [Dict.get?_set_ne (by decide), Dict.get?_set_self]
    · simp only [textAttr, stamp]
      rw [Dict.get?_set_self]
    · intro s hs hr
      simp only
      rw [root_attrs _ hr, e2, ha]
      simp only [List.nil_append]
      exact get?_attrImg hnn hs
    · intro hd
      obtain ⟨d, d', w1, w2, w3⟩ := hda hd
      exact ⟨d, d', w1, w2, q3.trans w3⟩
  by_cases hd : td.isData = true
  · rw [if_pos hd] at h1
    obtain ⟨d', hd', h3⟩ := bind_ok h1
    have hb := (Except.ok.inj h3).symm
    obtain ⟨d, q1, q2⟩ := dataOf_ok hd'
    subst hb
    exact core rfl rfl hd.symm (fun _ => ⟨d, d', q1, q2, rfl⟩) (fun hf => by rw [hd] at hf; cases hf)
  · have hf : td.isData = false := by simpa using hd
    rw [if_neg hd] at h1
    obtain ⟨ba, ha, h3⟩ := bind_ok h1
    obtain ⟨bb, hb, h4⟩ := bind_ok h3
    obtain ⟨k1, a1⟩ := addDsets_ok _ _ _ ha
    obtain ⟨k2, a2⟩ := addGroups_ok _ _ _ hb
    obtain ⟨k3, a3⟩ := addLinks_ok _ _ _ h4
    obtain ⟨q1, q2, q3, q4⟩ := (k1.trans k2).trans k3
    refine core q4 q1 (q2.trans hf.symm) (fun h => by rw [hf] at h; cases h) (fun _ k s hs => ?_)
    cases hg : td.body with
    | mk uid name req attrs dsets groups links =>
      rw [hg] at hs a1 a2 a3
      simp only [GSpec.dsets, GSpec.groups, GSpec.links] at a1 a2 a3
      simp only [sLeaves, List.mem_append, List.mem_map, reduceCtorEq, and_false, exists_false, false_or,
        Leaf.typed.injEq] at hs
      rcases hs with ⟨t, htt, rfl, rfl⟩ | hs | hs
      · exact fun x hx => ⟨a3 t htt x hx, builtIf_link⟩
      · exact a2 k s hs
      · exact a1 k s hs

/-! ### Empty groups -/

theorem attrImg_nil {l : List ASpec} (h : evA E td p l = []) : attrImg E td p l = [] := by
  induction l with
  | nil => rfl
  | cons s l ih =>
    unfold attrImg evA at *
    rw [List.filterMap_cons] at h ⊢
    cases hr : attrRes E td p s with
    | some v => simp [hr] at h
    | none =>
      simp only [hr, Option.map_none] at h
      split
      · exact ih h
      · rename_i q hq
        split at hq
        · rename_i v hv
          rw [attrRes, hv] at hr
          cases hr
        · cases hq

theorem vals_of_evT {k : Kind} {s : TSpec} (h : evT E td p k s = []) : vals E td p s = [] := by
  unfold evT at h
  split at h
  · rename_i he; simpa using he
  · cases h

theorem dsImg_nil : ∀ l : List DS, evD E td p l = [] → dsImg E rec td p l = [] ∧ dsLnk E td p l = []
  | [], _ => ⟨rfl, rfl⟩
  | .untyped u n _ as :: l, h => by
    simp only [evD, List.append_eq_nil_iff] at h
    obtain ⟨q1, q2⟩ := dsImg_nil l h.2
    have : uImg E td p u n as = [] := by
      rcases uImg_cases (E := E) (td := td) (p := p) u n as with h' | ⟨d, h'⟩
      · exact h'
      · simp [evU, h', Bld.dataset] at h
    exact ⟨by simp [dsImg, this, q1], by simpa [dsLnk] using q2⟩
  | .typed s :: l, h => by
    simp only [evD, List.append_eq_nil_iff] at h
    obtain ⟨q1, q2⟩ := dsImg_nil l h.2
    have hv := vals_of_evT h.1
    exact ⟨by simp [dsImg, tOwn, hv, q1], by simp [dsLnk, tLnk, hv, q2]⟩

theorem lLnk_nil : ∀ l : List TSpec, l.flatMap (evT E td p .link) = [] → lLnk E td p l = []
  | [], _ => rfl
  | s :: l, h => by
    simp only [List.flatMap_cons, List.append_eq_nil_iff] at h
    have hv := vals_of_evT h.1
    have := lLnk_nil l h.2
    unfold lLnk at this ⊢
    simp [tLnk, hv, this]

mutual
theorem gImg_nil : ∀ l : GList, ev0G E td p l = [] → allEmpty (gImg E rec td p l) = true ∧ gLnk E rec td p l = []
  | .nil, _ => by simp [gImg, gLnk, allEmpty]
  | .typed s l, h => by
    simp only [ev0G, List.append_eq_nil_iff] at h
    obtain ⟨q1, q2⟩ := gImg_nil l h.2
    have hv := vals_of_evT h.1
    exact ⟨by simp [gImg, tOwn, hv, q1], by simp [gLnk, tLnk, hv, q2]⟩
  | .untyped g l, h => by
    simp only [ev0G, List.append_eq_nil_iff] at h
    obtain ⟨q1, q2⟩ := gImg_nil l h.2
    have := inner_nil g h.1
    refine ⟨?_, by simpa [gLnk] using q2⟩
    simp only [gImg, allEmpty_append, q1, Bool.and_true]
    split <;> simp [allEmpty, this]
theorem inner_nil : ∀ g : GSpec, ev0S E td p g = [] → isEmpty (inner E rec td p g) = true
  | .mk uid name req attrs dsets groups links, h => by
    simp only [ev0S, List.append_eq_nil_iff] at h
    obtain ⟨h1, h2, h3, h4⟩ := h
    obtain ⟨q1, q2⟩ := dsImg_nil (rec := rec) dsets h4
    obtain ⟨q3, q4⟩ := gImg_nil groups h3
    simp [inner, isEmpty, q1, q2, q3, q4, attrImg_nil h1, lLnk_nil links h2]
end

theorem ev0S_eq_nil {g : GSpec} : ev0S E td p g = [] ↔ ∀ l ∈ sLeaves g, leafVal E td p l = none := by
  rw [ev0S_leaf, List.filterMap_eq_nil_iff]
  refine forall_congr' (fun l => imp_congr_right (fun _ => ?_))
  simp [entry]

end

end Verif.Mapper

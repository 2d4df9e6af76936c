import Verif.Model.SpecDict
import Verif.Props.Vtypes
import Verif.Base.Tac

/-! # Properties of the constructors of specs and of `build_spec` (C241-C246) -/

namespace Verif.SpecDict
open Verif

/-! ## lists -/

theorem mapE_ok {α β : Type} {f : α → Except Err β} : ∀ {xs : List α} {ys : List β},
    mapE f xs = .ok ys ↔ List.Forall₂ (fun x y => f x = .ok y) xs ys
  | [], ys => by cases ys <;> simp [mapE]
  | x :: xs, ys => by
    simp only [mapE]
    cases hx : f x with
    | error e => cases ys <;> simp [hx]
    | ok y =>
      cases hm : mapE f xs with
      | error e =>
        cases ys with
        | nil => simp
        | cons z zs =>
          simp only [List.forall₂_cons, reduceCtorEq, false_iff, not_and]
          intro _ h2
          have := mapE_ok.mpr h2
          simp [hm] at this
      | ok zs =>
        cases ys with
        | nil => simp
        | cons w ws =>
          simp only [List.forall₂_cons, Except.ok.injEq, List.cons.injEq, hx]
          have := @mapE_ok α β f xs ws
          rw [hm] at this
          simp only [Except.ok.injEq] at this
          rw [this]

theorem forall₂_fix {α : Type} {f : α → Except Err α} (hf : ∀ x y, f x = .ok y → f y = .ok y) :
    ∀ {xs ys : List α}, List.Forall₂ (fun x y => f x = .ok y) xs ys → ∀ y ∈ ys, f y = .ok y
  | _, _, .nil, y, hy => by simp at hy
  | _, _, .cons h hs, y, hy => by
    rcases List.mem_cons.mp hy with rfl | hy
    · exact hf _ _ h
    · exact forall₂_fix hf hs y hy

theorem mapE_fix {α : Type} {f : α → Except Err α} : ∀ {ys : List α}, (∀ y ∈ ys, f y = .ok y) → mapE f ys = .ok ys
  | [], _ => rfl
  | y :: ys, h => by
    simp only [mapE, h y (by simp), mapE_fix (fun z hz => h z (List.mem_cons_of_mem _ hz))]

/-! ## attributes added one after the other -/

theorem setAttr_mem {xs : List AttrD} {a y : AttrD} (h : y ∈ setAttr xs a) : y = a ∨ y ∈ xs := by
  induction xs with
  | nil => simp [setAttr] at h; exact .inl h
  | cons x xs ih =>
    simp only [setAttr] at h
    split at h
    · rcases List.mem_cons.mp h with h | h
      · exact .inl h
      · exact .inr (List.mem_cons_of_mem _ h)
    · rcases List.mem_cons.mp h with h | h
      · exact .inr (h ▸ List.mem_cons_self ..)
      · rcases ih h with h | h
        · exact .inl h
        · exact .inr (List.mem_cons_of_mem _ h)

theorem setAttr_names {xs : List AttrD} {a : AttrD} :
    (setAttr xs a).map (·.name) = if a.name ∈ xs.map (·.name) then xs.map (·.name) else xs.map (·.name) ++ [a.name] := by
  induction xs with
  | nil => simp [setAttr]
  | cons x xs ih =>
    simp only [setAttr]
    split
    · rename_i h; simp [h]
    · rename_i h
      simp only [List.map_cons, ih, List.mem_cons]
      have : ¬ a.name = x.name := fun e => h e.symm
      simp only [this, false_or]
      split <;> simp

theorem setAttr_nodup {xs : List AttrD} {a : AttrD} (h : (xs.map (·.name)).Nodup) : ((setAttr xs a).map (·.name)).Nodup := by
  rw [setAttr_names]
  split
  · exact h
  · rename_i hn
    exact List.nodup_append.mpr ⟨h, by simp, by intro x hx y hy; simp at hy; subst hy; rintro rfl; exact hn hx⟩

theorem setAttr_new {xs : List AttrD} {a : AttrD} (h : a.name ∉ xs.map (·.name)) : setAttr xs a = xs ++ [a] := by
  induction xs with
  | nil => rfl
  | cons x xs ih =>
    simp only [List.map_cons, List.mem_cons, not_or] at h
    simp only [setAttr, if_neg (fun e => h.1 (Eq.symm e)), ih h.2, List.cons_append]

theorem setAttrs_nodup : ∀ {as xs : List AttrD}, (xs.map (·.name)).Nodup → ((as.foldl setAttr xs).map (·.name)).Nodup
  | [], _, h => h
  | a :: as, xs, h => by
    rw [List.foldl_cons]
    exact setAttrs_nodup (as := as) (setAttr_nodup h)

theorem setAttrs_mem : ∀ {as xs : List AttrD} {y : AttrD}, y ∈ as.foldl setAttr xs → y ∈ as ∨ y ∈ xs
  | [], _, _, h => .inr h
  | a :: as, xs, y, h => by
    rcases setAttrs_mem (as := as) h with h | h
    · exact .inl (List.mem_cons_of_mem _ h)
    · rcases setAttr_mem h with h | h
      · exact .inl (h ▸ List.mem_cons_self ..)
      · exact .inr h

theorem setAttrs_fresh : ∀ {as xs : List AttrD}, ((xs ++ as).map (·.name)).Nodup → as.foldl setAttr xs = xs ++ as
  | [], xs, _ => by simp
  | a :: as, xs, h => by
    have hn : a.name ∉ xs.map (·.name) := by
      rw [List.map_append, List.nodup_append] at h
      intro hm
      exact h.2.2 _ hm _ (by simp) rfl
    rw [List.foldl_cons, setAttr_new hn, setAttrs_fresh (by simpa using h)]
    simp

theorem setAttrs_idem {as : List AttrD} : (as.foldl setAttr []).foldl setAttr [] = as.foldl setAttr [] := by
  have := setAttrs_fresh (as := as.foldl setAttr []) (xs := []) (by simpa using setAttrs_nodup (as := as) (xs := []) (by simp))
  simpa using this

/-- the attribute of a name in a list, the last one given -/
def lastAttr (as : List AttrD) (n : String) : Option AttrD := as.reverse.find? (·.name = n)

theorem setAttr_find {xs : List AttrD} {a : AttrD} {n : String} :
    (setAttr xs a).find? (·.name = n) = if a.name = n then some a else xs.find? (·.name = n) := by
  induction xs with
  | nil => simp only [setAttr, List.find?_cons, List.find?_nil]; by_cases h : a.name = n <;> simp [h]
  | cons x xs ih =>
    simp only [setAttr]
    by_cases hx : x.name = a.name
    · rw [if_pos hx]
      by_cases h : a.name = n
      · simp [h]
      · simp [h, hx]
    · rw [if_neg hx]
      simp only [List.find?_cons]
      by_cases h : x.name = n
      · have : ¬ a.name = n := fun e => hx (h.trans e.symm)
        simp [h, this]
      · simp only [h, decide_false]
        exact ih

theorem setAttrs_find : ∀ {as xs : List AttrD} {n : String},
    (as.foldl setAttr xs).find? (·.name = n) = (lastAttr as n).or (xs.find? (·.name = n))
  | [], xs, n => by simp [lastAttr]
  | a :: as, xs, n => by
    rw [List.foldl_cons, setAttrs_find, setAttr_find]
    simp only [lastAttr, List.reverse_cons, List.find?_append]
    by_cases h : a.name = n
    · simp [h]
    · simp [h]

/-! ## one spec built twice -/

theorem checkShape_fix {sh dims sh'} (h : checkShape sh dims = .ok sh') : checkShape sh' dims = .ok sh' := by
  cases dims with
  | none => rfl
  | some ds =>
    cases sh with
    | none =>
      simp [checkShape] at h
      subst h
      simp [checkShape]
    | some x =>
      simp only [checkShape] at h
      split at h
      · simp at h
      · rename_i hl
        simp only [Except.ok.injEq] at h
        subst h
        simp only [checkShape, if_neg hl]

theorem buildAttr_ok {d s : AttrD} : buildAttr d = .ok s ↔ ∃ ty sh, d.dtype = some ty ∧ checkTy ty = .ok () ∧
    ¬ (d.default.isSome = true ∧ d.value.isSome = true) ∧ checkShape d.shape d.dims = .ok sh ∧
    s = { d with required := if d.default.isSome then some false else if d.value.isSome then none
      else if d.required = some false then some false else none, shape := sh } := by
  simp only [buildAttr]
  cases hty : d.dtype with
  | none => simp
  | some ty =>
    cases hc : checkTy ty with
    | error e => simp [hc]
    | ok u =>
      cases u
      by_cases hb : (d.default.isSome && d.value.isSome) = true
      · simp only [hc, if_pos hb, reduceCtorEq, false_iff, not_exists]
        rintro ty' sh ⟨_, _, h, _⟩
        exact h (by simpa using hb)
      · simp only [hc, if_neg hb]
        cases hs : checkShape d.shape d.dims with
        | error e => simp
        | ok sh =>
          have hb' : ¬ (d.default.isSome = true ∧ d.value.isSome = true) := by simpa using hb
          constructor
          · intro h
            simp only [Except.ok.injEq] at h
            exact ⟨ty, sh, rfl, hc, hb', rfl, h.symm⟩
          · rintro ⟨ty', sh', h1, h2, h3, h4, h5⟩
            simp only [Except.ok.injEq] at h4
            subst h4
            rw [h5]

theorem buildAttr_fix (d s : AttrD) (h : buildAttr d = .ok s) : buildAttr s = .ok s := by
  obtain ⟨ty, sh, h1, h2, h3, h4, rfl⟩ := buildAttr_ok.mp h
  refine buildAttr_ok.mpr ⟨ty, sh, h1, h2, h3, checkShape_fix h4, ?_⟩
  simp only [AttrD.mk.injEq, true_and, and_true]
  cases d.default <;> cases d.value <;> simp

theorem keepQty_fix (q : Option Qty) : keepQty (keepQty q) = keepQty q := by
  simp only [keepQty]; split <;> simp_all

theorem newBase_ok {b c : Base} : newBase b = .ok c ↔ ¬ (b.name = none ∧ b.tdef = none ∧ b.tinc = none) ∧
    ¬ ((b.quantity = some (.str "+") ∨ b.quantity = some (.str "*")) ∧ b.name ≠ none) ∧
    c = { b with
      defaultName := if b.defaultName = some "" ∨ b.name ≠ none then none else b.defaultName
      quantity := keepQty b.quantity
      linkable := if b.linkable = some false then some false else none
      attributes := b.attributes.foldl setAttr [] } := by
  simp only [newBase]
  split
  · rename_i h; simp [h]
  · rename_i h
    split
    · rename_i h2
      simp only [reduceCtorEq, false_iff]
      rintro ⟨_, h3, _⟩
      exact h3 h2
    · rename_i h2
      constructor
      · intro h3; exact ⟨h, h2, (Except.ok.inj h3).symm⟩
      · rintro ⟨_, _, rfl⟩; rfl

theorem newBase_fix {b c : Base} (h : newBase b = .ok c) : newBase c = .ok c := by
  obtain ⟨h1, h2, rfl⟩ := newBase_ok.mp h
  refine newBase_ok.mpr ⟨h1, ?_, ?_⟩
  · rintro ⟨hq, hn⟩
    refine h2 ⟨?_, hn⟩
    simp only [keepQty] at hq
    split at hq
    · simp at hq
    · exact hq
  · simp only [Base.mk.injEq, true_and, and_true, keepQty_fix, setAttrs_idem]
    refine ⟨?_, ?_⟩
    · by_cases hx : b.defaultName = some "" ∨ b.name ≠ none
      · simp [hx]
      · rw [if_neg hx, if_neg hx]
    · split <;> simp_all

theorem newBase_attrs {b c : Base} (h : newBase b = .ok c) (hb : ∀ a ∈ b.attributes, buildAttr a = .ok a) :
    mapE buildAttr c.attributes = .ok c.attributes := by
  obtain ⟨_, _, rfl⟩ := newBase_ok.mp h
  refine mapE_fix fun y hy => ?_
  rcases setAttrs_mem hy with hy | hy
  · exact hb y hy
  · simp at hy

theorem buildCol_fix (c s : ColD) (h : buildCol c = .ok s) : buildCol s = .ok s := by
  simp only [buildCol] at h
  split at h
  · simp at h
  · simp at h
  · rename_i ty hty
    split at h
    · simp at h
    · rename_i hc
      simp only [Except.ok.injEq] at h
      subst h
      simp [buildCol, hty, hc]

theorem buildDsTy_fix {ty ty' : Option DsTy} (h : buildDsTy ty = .ok ty') : buildDsTy ty' = .ok ty' := by
  match ty with
  | none => simp [buildDsTy] at h; subst h; rfl
  | some (.one (.name s)) => simp [buildDsTy] at h; subst h; rfl
  | some (.one (.ref t r)) =>
    simp only [buildDsTy] at h
    split at h
    · simp at h
    · rename_i hc
      simp only [Except.ok.injEq] at h
      subst h
      simp [buildDsTy, hc]
  | some (.cols cs) =>
    simp only [buildDsTy] at h
    split at h
    · simp at h
    · rename_i cs' hc
      simp only [Except.ok.injEq] at h
      subst h
      simp [buildDsTy, mapE_fix (forall₂_fix buildCol_fix (mapE_ok.mp hc))]

theorem newDs_ok {d s : DsD} : newDs d = .ok s ↔ ∃ sh b, checkShape d.shape d.dims = .ok sh ∧ checkDsTy d.dtype = .ok () ∧
    newBase d.base = .ok b ∧ (b.name ≠ none → b.quantity = none ∨ b.quantity = some (.int 1) ∨
      b.quantity = some (.str "zero_or_one") ∨ b.quantity = some (.str "?")) ∧ s = { d with base := b, shape := sh } := by
  simp only [newDs]
  cases h1 : checkShape d.shape d.dims with
  | error e => simp
  | ok sh => cases h2 : checkDsTy d.dtype with
    | error e => simp
    | ok u => cases h3 : newBase d.base with
      | error e => simp
      | ok b =>
        simp only
        split
        · rename_i h4
          simp only [reduceCtorEq, false_iff, not_exists]
          rintro sh' b' ⟨_, _, hb, hq, _⟩
          simp only [Except.ok.injEq] at hb
          subst hb
          exact h4.2 (hq h4.1)
        · rename_i h4
          constructor
          · intro h; exact ⟨sh, b, rfl, trivial, rfl, fun hn => by by_contra hq; exact h4 ⟨hn, hq⟩, (Except.ok.inj h).symm⟩
          · rintro ⟨sh', b', e1, _, e3, _, rfl⟩
            simp only [Except.ok.injEq] at e1 e3
            subst e1 e3; rfl

theorem buildDs_ok {d s : DsD} : buildDs d = .ok s ↔ ∃ as ty, mapE buildAttr d.base.attributes = .ok as ∧ buildDsTy d.dtype = .ok ty ∧
    newDs { d with base := { d.base with attributes := as }, dtype := ty } = .ok s := by
  simp only [buildDs]
  cases h1 : mapE buildAttr d.base.attributes with
  | error e => simp
  | ok as => cases h2 : buildDsTy d.dtype with
    | error e => simp
    | ok ty => simp

theorem buildDs_fix (d s : DsD) (h : buildDs d = .ok s) : buildDs s = .ok s := by
  obtain ⟨as, ty, h1, h2, h3⟩ := buildDs_ok.mp h
  obtain ⟨sh, b, e1, e2, e3, e4, rfl⟩ := newDs_ok.mp h3
  have ha := newBase_attrs e3 (forall₂_fix buildAttr_fix (mapE_ok.mp h1))
  exact buildDs_ok.mpr ⟨b.attributes, ty, ha, buildDsTy_fix h2,
    newDs_ok.mpr ⟨sh, b, checkShape_fix e1, e2, newBase_fix e3, e4, rfl⟩⟩

theorem buildLink_fix (l : LinkD) : buildLink (buildLink l) = buildLink l := by
  simp [buildLink, keepQty_fix]

theorem newGroup_ok {b gs ds ls s} : newGroup b gs ds ls = .ok s ↔ ∃ t t' t'' b', addSubs [] (gs.map GroupD.base) = .ok t ∧
    addSubs t (ds.map DsD.base) = .ok t' ∧ addLinks [] ls = .ok t'' ∧ newBase b = .ok b' ∧ s = .mk b' gs ds ls := by
  simp only [newGroup]
  cases h1 : addSubs [] (gs.map GroupD.base) with
  | error e => simp
  | ok t => cases h2 : addSubs t (ds.map DsD.base) with
    | error e => simp [h2]
    | ok t' =>
     simp only [h2]
     cases h3 : addLinks [] ls with
      | error e => simp
      | ok t'' =>
       cases h4 : newBase b with
        | error e => simp
        | ok b' =>
          constructor
          · intro h; exact ⟨t, t', t'', b', rfl, h2, rfl, rfl, (Except.ok.inj h).symm⟩
          · rintro ⟨_, _, _, b2, _, _, _, e, rfl⟩
            simp only [Except.ok.injEq] at e
            subst e; rfl

theorem buildGroup_ok {b gs ds ls s} : buildGroup (.mk b gs ds ls) = .ok s ↔ ∃ as ds' gs', mapE buildAttr b.attributes = .ok as ∧
    mapE buildDs ds = .ok ds' ∧ buildGroups gs = .ok gs' ∧ newGroup { b with attributes := as } gs' ds' (ls.map buildLink) = .ok s := by
  simp only [buildGroup]
  cases h1 : mapE buildAttr b.attributes with
  | error e => simp
  | ok as => cases h2 : mapE buildDs ds with
    | error e => simp
    | ok ds' => cases h3 : buildGroups gs with
      | error e => simp
      | ok gs' => simp

mutual
theorem buildGroup_fix : ∀ (g s : GroupD), buildGroup g = .ok s → buildGroup s = .ok s
  | .mk b gs ds ls, s, h => by
    obtain ⟨as, ds', gs', h1, h2, h3, h4⟩ := buildGroup_ok.mp h
    obtain ⟨t, t', t'', b', e1, e2, e3, e4, rfl⟩ := newGroup_ok.mp h4
    have ha := newBase_attrs e4 (forall₂_fix buildAttr_fix (mapE_ok.mp h1))
    have hl : (ls.map buildLink).map buildLink = ls.map buildLink := by
      simp [List.map_map, Function.comp_def, buildLink_fix]
    refine buildGroup_ok.mpr ⟨b'.attributes, ds', gs', ha, mapE_fix (forall₂_fix buildDs_fix (mapE_ok.mp h2)),
      buildGroups_fix gs gs' h3, ?_⟩
    rw [hl]
    exact newGroup_ok.mpr ⟨t, t', t'', b', e1, e2, e3, newBase_fix e4, rfl⟩
theorem buildGroups_fix : ∀ (gs ss : List GroupD), buildGroups gs = .ok ss → buildGroups ss = .ok ss
  | [], ss, h => by simp [buildGroups] at h; subst h; rfl
  | g :: gs, ss, h => by
    simp only [buildGroups] at h
    split at h
    · simp at h
    · rename_i g' hg
      split at h
      · simp at h
      · rename_i gs' hgs
        simp only [Except.ok.injEq] at h
        subst h
        simp only [buildGroups, buildGroup_fix g g' hg, buildGroups_fix gs gs' hgs]
end

theorem buildGroups_forall : ∀ {gs ss : List GroupD}, buildGroups gs = .ok ss → List.Forall₂ (fun g s => buildGroup g = .ok s) gs ss
  | [], ss, h => by simp [buildGroups] at h; subst h; exact .nil
  | g :: gs, ss, h => by
    simp only [buildGroups] at h
    split at h
    · simp at h
    · rename_i g' hg
      split at h
      · simp at h
      · rename_i gs' hgs
        simp only [Except.ok.injEq] at h
        subst h
        exact .cons hg (buildGroups_forall hgs)

/-! ## C241: a spec built from a spec -/

/-- C241: building a spec once more from the spec that was built gives the same spec, for attributes, links, datasets and groups of
whatever nesting. -/
theorem C241_rebuild :
    (∀ d s : AttrD, buildAttr d = .ok s → buildAttr s = .ok s) ∧ (∀ l : LinkD, buildLink (buildLink l) = buildLink l) ∧
    (∀ d s : DsD, buildDs d = .ok s → buildDs s = .ok s) ∧ (∀ g s : GroupD, buildGroup g = .ok s → buildGroup s = .ok s) :=
  ⟨buildAttr_fix, buildLink_fix, buildDs_fix, buildGroup_fix⟩

/-- a group with a dataset with an attribute, given with keys that have the default value, and a subgroup -/
def sample : GroupD :=
  .mk { doc := "d", tdef := some "T", quantity := some (.int 1), linkable := some true,
        attributes := [{ name := "a", doc := "d", dtype := some (.name "text"), default := some "v" }] }
    [.mk { doc := "d", tinc := some "U", quantity := some (.str "*") } [] [] []]
    [{ base := { doc := "d", name := some "x", defaultName := some "y" }, dtype := some (.one (.ref "T" "object")),
       dims := some [.one "i", .one "j"] }]
    [{ doc := "d", target := "U", quantity := some (.int 1) }]

/-- the spec of the sample -/
def sampleSpec : GroupD :=
  .mk { doc := "d", tdef := some "T",
        attributes := [{ name := "a", doc := "d", dtype := some (.name "text"), default := some "v", required := some false }] }
    [.mk { doc := "d", tinc := some "U", quantity := some (.str "*") } [] [] []]
    [{ base := { doc := "d", name := some "x" }, dtype := some (.one (.ref "T" "object")),
       dims := some [.one "i", .one "j"], shape := some [.one none, .one none] }]
    [{ doc := "d", target := "U" }]

example : buildGroup sample = .ok sampleSpec := by rfl

/-- two quantities with the same meaning: 1 is the default -/
def sameQty (p q : Option Qty) : Prop := p.getD (.int 1) = q.getD (.int 1)

theorem keepQty_same (q : Option Qty) : sameQty (keepQty q) q := by
  simp only [keepQty, sameQty]; split <;> simp_all

/-- C241: an attribute spec says what its dict says: each key has the value given, except `required` (C243) and the shape made from
`dims`; a link spec as well. -/
theorem C241_attribute (d s : AttrD) (h : buildAttr d = .ok s) :
    s.name = d.name ∧ s.doc = d.doc ∧ s.dtype = d.dtype ∧ s.dims = d.dims ∧ s.value = d.value ∧ s.default = d.default ∧
    (d.shape.isSome ∨ d.dims = none → s.shape = d.shape) := by
  obtain ⟨ty, sh, _, _, _, h4, rfl⟩ := buildAttr_ok.mp h
  refine ⟨rfl, rfl, rfl, rfl, rfl, rfl, fun hs => ?_⟩
  simp only [checkShape] at h4
  cases hd : d.dims with
  | none => simp [hd] at h4; exact h4.symm
  | some ds =>
    cases hsh : d.shape with
    | none => simp [hd, hsh] at hs
    | some x =>
      simp only [hd, hsh] at h4
      split at h4
      · simp at h4
      · simpa using h4.symm

example : ∃ s, buildAttr { name := "a", doc := "d", dtype := some (.name "int"), required := some true, shape := some [.one (some 3)] } =
    .ok s ∧ s.shape = some [.one (some 3)] := ⟨_, rfl, rfl⟩

theorem C241_link (l : LinkD) : (buildLink l).doc = l.doc ∧ (buildLink l).target = l.target ∧ (buildLink l).name = l.name ∧
    sameQty (buildLink l).quantity l.quantity := ⟨rfl, rfl, rfl, keepQty_same _⟩

example : (buildLink { doc := "d", target := "U", quantity := some (.str "?") }).quantity = some (.str "?") := rfl

/-- what the spec of a group or dataset says of the keys given -/
def SameBase (b c : Base) : Prop :=
  c.doc = b.doc ∧ c.name = b.name ∧ c.tdef = b.tdef ∧ c.tinc = b.tinc ∧ sameQty c.quantity b.quantity ∧
  c.linkable.getD true = b.linkable.getD true ∧
  c.defaultName = (if b.name = none ∧ b.defaultName ≠ some "" then b.defaultName else none) ∧
  (c.attributes.map (·.name)).Nodup ∧
  ∀ n, (∀ a, lastAttr b.attributes n = some a → ∃ a', buildAttr a = .ok a' ∧ a' ∈ c.attributes) ∧
    (lastAttr b.attributes n = none → ∀ a' ∈ c.attributes, a'.name ≠ n)

theorem lastAttr_built : ∀ {as bs : List AttrD}, List.Forall₂ (fun a b => buildAttr a = .ok b) as bs → ∀ n,
    Option.Rel (fun a b => buildAttr a = .ok b) (lastAttr as n) (lastAttr bs n) := by
  intro as bs h n
  have hr : List.Forall₂ (fun a b => buildAttr a = .ok b) as.reverse bs.reverse := List.forall₂_reverse_iff.mpr h
  simp only [lastAttr]
  generalize as.reverse = xs at hr
  generalize bs.reverse = ys at hr
  induction hr with
  | nil => exact .none
  | @cons a b xs ys hab _ ih =>
    have hn : b.name = a.name := (C241_attribute a b hab).1
    simp only [List.find?_cons, hn]
    by_cases hx : a.name = n
    · simp only [hx, decide_true]; exact .some hab
    · simp only [hx, decide_false]; exact ih

theorem sameBase {b c : Base} {as : List AttrD} (h1 : mapE buildAttr b.attributes = .ok as)
    (h : newBase { b with attributes := as } = .ok c) : SameBase b c := by
  obtain ⟨_, _, rfl⟩ := newBase_ok.mp h
  have hf := @setAttrs_find as []
  have hnd := setAttrs_nodup (as := as) (xs := []) (by simp)
  refine ⟨rfl, rfl, rfl, rfl, keepQty_same _, ?_, ?_, hnd, fun n => ?_⟩
  · simp only; rcases b.linkable with _ | _ | _ <;> simp
  · simp only
    by_cases hn : b.name = none <;> by_cases hd : b.defaultName = some "" <;> simp [hn, hd]
  · have hb := lastAttr_built (mapE_ok.mp h1) n
    have hfn := hf (n := n)
    simp only [List.find?_nil, Option.or_none] at hfn
    constructor
    · intro a ha
      rw [ha] at hb
      cases hl : lastAttr as n with
      | none => rw [hl] at hb; cases hb
      | some a' =>
        rw [hl] at hb hfn
        cases hb with
        | some hab => exact ⟨a', hab, List.mem_of_find?_eq_some hfn⟩
    · intro ha a' ha' hne
      rw [ha] at hb
      cases hl : lastAttr as n with
      | some a' => rw [hl] at hb; cases hb
      | none =>
        rw [hl] at hfn
        have := List.find?_eq_none.mp hfn a' ha'
        simp [hne] at this

/-- C241: a dataset spec says what its dict says; of attributes with the same name the last one is kept, and names are unique. -/
theorem C241_dataset (d s : DsD) (h : buildDs d = .ok s) :
    SameBase d.base s.base ∧ s.dtype = d.dtype ∧ s.dims = d.dims ∧ s.value = d.value ∧ s.default = d.default ∧
    (d.shape.isSome ∨ d.dims = none → s.shape = d.shape) := by
  obtain ⟨as, ty, h1, h2, h3⟩ := buildDs_ok.mp h
  obtain ⟨sh, b, e1, e2, e3, e4, rfl⟩ := newDs_ok.mp h3
  refine ⟨sameBase h1 e3, ?_, rfl, rfl, rfl, fun hs => ?_⟩
  · simp only
    match hty : d.dtype with
    | none => rw [hty] at h2; simp [buildDsTy] at h2; exact h2.symm
    | some (.one (.name s)) => rw [hty] at h2; simp [buildDsTy] at h2; exact h2.symm
    | some (.one (.ref t r)) =>
      rw [hty] at h2
      simp only [buildDsTy] at h2
      split at h2
      · simp at h2
      · simpa using h2.symm
    | some (.cols cs) =>
      rw [hty] at h2
      simp only [buildDsTy] at h2
      split at h2
      · simp at h2
      · rename_i cs' hc
        simp only [Except.ok.injEq] at h2
        subst h2
        have hf := mapE_ok.mp hc
        clear hc hty e1 e2 e3 e4 h3 h
        have : cs' = cs := by
          induction hf with
          | nil => rfl
          | @cons c c' _ _ h _ ih =>
            rw [ih]
            congr 1
            simp only [buildCol] at h
            split at h
            · simp at h
            · simp at h
            · split at h
              · simp at h
              · simpa using h.symm
        rw [this]
  · simp only at e1 ⊢
    simp only [checkShape] at e1
    cases hd : d.dims with
    | none => simp [hd] at e1; exact e1.symm
    | some ds =>
      cases hsh : d.shape with
      | none => simp [hd, hsh] at hs
      | some x =>
        simp only [hd, hsh] at e1
        split at e1
        · simp at e1
        · simpa using e1.symm

example : ∃ s, buildDs { base := { doc := "d", name := some "x", attributes :=
    [{ name := "a", doc := "1", dtype := some (.name "int") }, { name := "a", doc := "2", dtype := some (.name "int") }] } } = .ok s ∧
    s.base.attributes.map (·.doc) = ["2"] := ⟨_, rfl, rfl⟩

/-- C241: a group spec says what its dict says: its keys, and the specs built from the dicts of its subgroups, datasets and links, in
the same order. -/
theorem C241_group (b : Base) (gs : List GroupD) (ds : List DsD) (ls : List LinkD) (s : GroupD) (h : buildGroup (.mk b gs ds ls) = .ok s) :
    ∃ b' gs' ds', s = .mk b' gs' ds' (ls.map buildLink) ∧ SameBase b b' ∧ List.Forall₂ (fun g g' => buildGroup g = .ok g') gs gs' ∧
      List.Forall₂ (fun d d' => buildDs d = .ok d') ds ds' := by
  obtain ⟨as, ds', gs', h1, h2, h3, h4⟩ := buildGroup_ok.mp h
  obtain ⟨t, t', t'', b', e1, e2, e3, e4, rfl⟩ := newGroup_ok.mp h4
  exact ⟨b', gs', ds', rfl, sameBase h1 e4, buildGroups_forall h3, mapE_ok.mp h2⟩

example : ∃ s, buildGroup sample = .ok s ∧ s.base.tdef = some "T" := ⟨sampleSpec, rfl, rfl⟩

/-! ## C242: a named spec occurs at most once -/

/-- the quantity allows more than one instance -/
def allowsMany : Option Qty → Bool
  | none => false
  | some (.int n) => decide (n > 1)
  | some (.str s) => s != "?" && s != "zero_or_one"

/-- C242, for datasets; a group with a name is refused only for `+` and `*`, a link with a name for none (`_fails`). -/
theorem C242_once_partial (d s : DsD) (h : buildDs d = .ok s) (hn : s.base.name ≠ none) : allowsMany s.base.quantity = false := by
  obtain ⟨as, ty, _, _, h3⟩ := buildDs_ok.mp h
  obtain ⟨sh, b, _, _, _, e4, rfl⟩ := newDs_ok.mp h3
  rcases e4 hn with h | h | h | h <;> rw [h] <;> decide +kernel

example : ∃ s, buildDs { base := { doc := "d", name := some "x", quantity := some (.str "?") } } = .ok s ∧ s.base.name ≠ none :=
  ⟨_, rfl, by decide⟩

example : buildDs { base := { doc := "d", name := some "x", quantity := some (.int 2) } } = .error .valueError := by rfl

/-- C242, for groups: `+` and `*` with a name are refused. -/
theorem C242_group_partial (g s : GroupD) (h : buildGroup g = .ok s) (hn : s.base.name ≠ none) :
    s.base.quantity ≠ some (.str "+") ∧ s.base.quantity ≠ some (.str "*") := by
  cases g with
  | mk b gs ds ls =>
    obtain ⟨as, ds', gs', h1, h2, h3, h4⟩ := buildGroup_ok.mp h
    obtain ⟨t, t', t'', b', e1, e2, e3, e4, rfl⟩ := newGroup_ok.mp h4
    obtain ⟨_, h5, _⟩ := newBase_ok.mp (newBase_fix e4)
    simp only [GroupD.base] at hn ⊢
    constructor
    · intro hq; exact h5 ⟨.inl hq, hn⟩
    · intro hq; exact h5 ⟨.inr hq, hn⟩

example : ∃ s, buildGroup (.mk { doc := "d", name := some "x", quantity := some (.str "?") } [] [] []) = .ok s ∧ s.base.name ≠ none :=
  ⟨_, rfl, by decide⟩

/-- C242 fails for groups, whose documentation says that an integer greater than 1 is not allowed with a name, and for links. -/
theorem C242_once_fails :
    (∃ g s : GroupD, buildGroup g = .ok s ∧ s.base.name = some "x" ∧ s.base.quantity = some (.int 3) ∧ allowsMany s.base.quantity = true) ∧
    (∃ g s : GroupD, buildGroup g = .ok s ∧ s.base.name = some "x" ∧ s.base.quantity = some (.str "zero_or_many")) ∧
    (∃ l : LinkD, (buildLink l).name = some "x" ∧ (buildLink l).quantity = some (.str "*")) :=
  ⟨⟨.mk { doc := "d", name := some "x", quantity := some (.int 3) } [] [] [], _, rfl, rfl, rfl, by decide +kernel⟩,
   ⟨.mk { doc := "d", name := some "x", quantity := some (.str "zero_or_many") } [] [] [], _, rfl, rfl, rfl⟩,
   ⟨{ doc := "d", target := "T", name := some "x", quantity := some (.str "*") }, rfl, rfl⟩⟩

/-! ## C243: constant and default values -/

/-- `AttributeSpec.required` -/
def isRequired (d : AttrD) : Bool := d.required.getD true

/-- C243, for attributes: never both a constant and a default value; an attribute with a constant is required, one with a default value
is not, and otherwise it is as given. -/
theorem C243_values_partial (d s : AttrD) (h : buildAttr d = .ok s) :
    (s.value = none ∨ s.default = none) ∧ (s.value.isSome → isRequired s = true) ∧ (s.default.isSome → isRequired s = false) ∧
    (s.value = none → s.default = none → isRequired s = isRequired d) := by
  obtain ⟨ty, sh, _, _, h3, _, rfl⟩ := buildAttr_ok.mp h
  simp only [isRequired]
  cases hv : d.value <;> cases hd : d.default <;> simp [hv, hd] at h3 ⊢
  rcases d.required with _ | _ | _ <;> simp

example : ∃ s, buildAttr { name := "a", doc := "d", dtype := some (.name "int"), required := some false, value := some "1" } = .ok s ∧
    isRequired s = true := ⟨_, rfl, rfl⟩

/-- C243: an attribute with both is refused, whatever the rest. -/
theorem C243_refused (d : AttrD) (hv : d.value.isSome) (hd : d.default.isSome) (s : AttrD) : buildAttr d ≠ .ok s := by
  intro h
  obtain ⟨ty, sh, _, _, h3, _⟩ := buildAttr_ok.mp h
  exact h3 ⟨hd, hv⟩

example : buildAttr { name := "a", doc := "d", dtype := some (.name "int"), value := some "1", default := some "2" } =
    .error .valueError := by rfl

/-- C243 fails for datasets: both values are accepted and kept. -/
theorem C243_values_fails : ∃ d s : DsD, buildDs d = .ok s ∧ s.value = some "1" ∧ s.default = some "2" :=
  ⟨{ base := { doc := "d", name := some "x" }, value := some "1", default := some "2" }, _, rfl, rfl, rfl⟩

/-! ## C244: names and lengths of dimensions -/

/-- the numbers of dimensions that a list of entries allows: one per alternative, or its length if it has no alternatives -/
def ranks {α : Type} (es : List (Ent α)) : List Nat :=
  if es.all (fun e => match e with | .one _ => true | .alt _ => false) then [es.length]
  else es.map (fun e => match e with | .one _ => 1 | .alt xs => xs.length)

theorem checkShape_len {sh ds sh'} (h : checkShape sh (some ds) = .ok sh') :
    ∃ s, sh' = some s ∧ s.length = ds.length ∧ (sh = none → ∀ e ∈ s, e = .one none) := by
  cases sh with
  | none =>
    simp [checkShape] at h
    exact ⟨_, h.symm, by simp, fun _ e he => (List.mem_replicate.mp he).2⟩
  | some x =>
    simp only [checkShape] at h
    split at h
    · simp at h
    · rename_i hl
      simp only [Except.ok.injEq] at h
      exact ⟨x, h.symm, Eq.symm (not_not.mp hl), fun hn => by simp at hn⟩

theorem ranks_flat {α : Type} {es : List (Ent α)} (h : ∀ e ∈ es, ∃ x, e = .one x) : ranks es = [es.length] := by
  simp only [ranks]
  rw [if_pos]
  rw [List.all_eq_true]
  intro e he
  obtain ⟨x, rfl⟩ := h e he
  rfl

/-- C244, if neither has alternatives (or no shape is given): a spec with `dims` has a shape with the same number of dimensions, with
no limit on the lengths if none was given.  In general only the outer lengths agree. -/
theorem C244_dims_partial (shape : Option (List (Ent (Option Nat)))) (dims : List (Ent String)) :
    (∀ name doc ty req v df s, buildAttr ⟨name, doc, ty, shape, some dims, req, v, df⟩ = .ok s → ∃ sh, s.shape = some sh ∧ s.dims = some dims ∧
      sh.length = dims.length ∧ (shape = none → ∀ e ∈ sh, e = .one none) ∧
      ((∀ e ∈ dims, ∃ x, e = .one x) → (∀ e ∈ sh, ∃ x, e = .one x) → ranks sh = ranks dims)) ∧
    (∀ b ty v df s, buildDs ⟨b, ty, shape, some dims, df, v⟩ = .ok s → ∃ sh, s.shape = some sh ∧ s.dims = some dims ∧
      sh.length = dims.length ∧ (shape = none → ∀ e ∈ sh, e = .one none) ∧
      ((∀ e ∈ dims, ∃ x, e = .one x) → (∀ e ∈ sh, ∃ x, e = .one x) → ranks sh = ranks dims)) := by
  constructor
  · intro name doc ty req v df s h
    obtain ⟨_, sh, _, _, _, h4, rfl⟩ := buildAttr_ok.mp h
    obtain ⟨s, rfl, hl, hn⟩ := checkShape_len h4
    exact ⟨s, rfl, rfl, hl, hn, fun h1 h2 => by rw [ranks_flat h1, ranks_flat h2, hl]⟩
  · intro b ty v df s h
    obtain ⟨as, ty, _, _, h3⟩ := buildDs_ok.mp h
    obtain ⟨sh, b, e1, _, _, _, rfl⟩ := newDs_ok.mp h3
    obtain ⟨s, rfl, hl, hn⟩ := checkShape_len e1
    exact ⟨s, rfl, rfl, hl, hn, fun h1 h2 => by rw [ranks_flat h1, ranks_flat h2, hl]⟩

example : ∃ s, buildDs { base := { doc := "d", name := some "x" }, dims := some [.one "i", .one "j"] } = .ok s ∧
    s.shape = some [.one none, .one none] := ⟨_, rfl, rfl⟩

example : buildDs { base := { doc := "d", name := some "x" }, dims := some [.one "i", .one "j"], shape := some [.one (some 3)] } =
    .error .valueError := by rfl

/-- C244 fails for alternatives: names for one or two dimensions and no shape give a shape with two dimensions, so that data with one
dimension does not fit; names of two dimensions are accepted with a shape of one or three; alternatives are not compared. -/
theorem C244_dims_fails :
    (∃ d s : DsD, buildDs d = .ok s ∧ d.shape = none ∧ s.dims.map ranks = some [1, 2] ∧ s.shape.map ranks = some [2]) ∧
    (∃ d s : DsD, buildDs d = .ok s ∧ s.dims.map ranks = some [2] ∧ s.shape.map ranks = some [1, 3]) ∧
    (∃ d s : AttrD, buildAttr d = .ok s ∧ s.dims.map ranks = some [1, 2] ∧ s.shape.map ranks = some [3, 4]) :=
  ⟨⟨{ base := { doc := "d", name := some "x" }, dims := some [.alt ["i"], .alt ["i", "j"]] }, _, rfl, rfl, rfl, rfl⟩,
   ⟨{ base := { doc := "d", name := some "x" }, dims := some [.one "i", .one "j"],
      shape := some [.alt [none], .alt [none, none, none]] }, _, rfl, rfl, rfl⟩,
   ⟨{ name := "a", doc := "d", dtype := some (.name "int"), dims := some [.alt ["i"], .alt ["i", "j"]],
      shape := some [.alt [none, none, none], .alt [none, none, none, none]] }, _, rfl, rfl, rfl⟩⟩

/-! ## C245: types of data in specs -/

/-- a type of data that the schema language has -/
def GoodTy : Ty → Prop
  | .name s => s ∈ Vtypes.specNames
  | .ref _ r => r = "object" ∨ r = "region"

theorem valid_iff (s : String) : s ∈ valid ↔ s ∈ Vtypes.specNames := by
  have h1 : ∀ x ∈ valid, x ∈ Vtypes.specNames := by decide +kernel
  have h2 : ∀ x ∈ Vtypes.specNames, x ∈ valid := by decide +kernel
  exact ⟨h1 s, h2 s⟩

theorem checkTy_iff (ty : Ty) : checkTy ty = .ok () ↔ GoodTy ty := by
  cases ty with
  | name s => simp only [checkTy, GoodTy, ← valid_iff]; split <;> simp_all
  | ref t r => simp only [checkTy, GoodTy]; split <;> simp_all

/-- C245, except for lists in columns: an attribute spec is built only with one of the types that the validator knows or a reference to
an object or region; so are the columns and the type of a dataset spec.  Conversely each of these is accepted. -/
theorem C245_types_partial :
    (∀ d s : AttrD, buildAttr d = .ok s → ∃ ty, s.dtype = some ty ∧ GoodTy ty) ∧
    (∀ d s : DsD, buildDs d = .ok s → match s.dtype with
      | none => True
      | some (.one ty) => GoodTy ty
      | some (.cols cs) => ∀ c ∈ cs, ∃ ty, c.dtype = some (.one ty) ∧ GoodTy ty) ∧
    (∀ ty, GoodTy ty → ∀ name doc, (∃ s, buildAttr { name := name, doc := doc, dtype := some ty } = .ok s) ∧
      (∃ s, buildDs { base := { doc := doc, name := some name }, dtype := some (.one ty) } = .ok s) ∧
      (∃ s, buildDs { base := { doc := doc, name := some name }, dtype := some (.cols [⟨name, doc, some (.one ty)⟩]) } = .ok s)) := by
  refine ⟨?_, ?_, ?_⟩
  · intro d s h
    obtain ⟨ty, sh, h1, h2, _, _, rfl⟩ := buildAttr_ok.mp h
    exact ⟨ty, h1, (checkTy_iff ty).mp h2⟩
  · intro d s h
    obtain ⟨as, ty, h1, h2, h3⟩ := buildDs_ok.mp h
    obtain ⟨sh, b, e1, e2, e3, e4, rfl⟩ := newDs_ok.mp h3
    have hfix := buildDsTy_fix h2
    simp only at e2 ⊢
    match ty with
    | none => trivial
    | some (.one ty) => exact (checkTy_iff ty).mp e2
    | some (.cols cs) =>
      simp only
      intro c hc
      simp only [buildDsTy] at hfix
      split at hfix
      · simp at hfix
      · rename_i cs' hm
        simp only [Except.ok.injEq, Option.some.injEq, DsTy.cols.injEq] at hfix
        subst hfix
        have hb := forall₂_fix buildCol_fix (mapE_ok.mp hm) c hc
        simp only [buildCol] at hb
        split at hb
        · simp at hb
        · simp at hb
        · rename_i ty hty
          split at hb
          · simp at hb
          · rename_i hk
            exact ⟨ty, hty, (checkTy_iff ty).mp hk⟩
  · intro ty hty name doc
    have hc := (checkTy_iff ty).mpr hty
    refine ⟨⟨_, buildAttr_ok.mpr ⟨ty, none, rfl, hc, by simp, rfl, rfl⟩⟩, ?_, ?_⟩
    · refine ⟨_, buildDs_ok.mpr ⟨[], some (.one ty), rfl, ?_, newDs_ok.mpr ⟨none, _, rfl, hc, newBase_ok.mpr ⟨by simp, by simp, rfl⟩,
        by simp [keepQty], rfl⟩⟩⟩
      cases ty with
      | name s => rfl
      | ref t r => simp only [buildDsTy, hc]
    · refine ⟨_, buildDs_ok.mpr ⟨[], some (.cols [⟨name, doc, some (.one ty)⟩]), rfl, ?_, newDs_ok.mpr ⟨none, _, rfl, rfl,
        newBase_ok.mpr ⟨by simp, by simp, rfl⟩, by simp [keepQty], rfl⟩⟩⟩
      simp [buildDsTy, mapE, buildCol, hc]

example : GoodTy (.name "utf-8") ∧ GoodTy (.ref "T" "region") := ⟨by unfold GoodTy; decide +kernel, .inr rfl⟩

example : buildAttr { name := "a", doc := "d", dtype := some (.name "complex") } = .error .valueError := by rfl

/-- C245 fails for a compound type in a compound type, which the documentation of `DtypeSpec` allows: every spec with one is refused, by
a TypeError if the other columns are good. -/
theorem C245_types_fails :
    (∀ (d s : DsD) (cs : List ColD), d.dtype = some (.cols cs) → (∃ c ∈ cs, c.dtype = some .list) → buildDs d ≠ .ok s) ∧
    buildDs ⟨{ doc := "d", name := some "x" }, some (.cols [⟨"a", "d", some (.one (.name "int"))⟩, ⟨"b", "d", some .list⟩]),
      none, none, none, none⟩ = .error .typeError := by
  refine ⟨?_, by rfl⟩
  rintro d s cs hd ⟨c, hc, hl⟩ h
  have h1 := (C245_types_partial.2.1 d s h)
  rw [(C241_dataset d s h).2.1, hd] at h1
  obtain ⟨ty, hty, _⟩ := h1 c hc
  rw [hl] at hty
  simp at hty

/-! ## C246: what is accepted -/

/-- the type of a group or dataset spec: the one it defines, or else the one it includes -/
def typeOf (b : Base) : Option String := b.tdef.or b.tinc

/-- the types of the specs without a name -/
def unnamed (bs : List Base) : List String := bs.filterMap fun b => if b.name = none then typeOf b else none

/-- the targets of the links without a name -/
def unnamedLinks (ls : List LinkD) : List String := ls.filterMap fun l => if l.name = none then some l.target else none

/-- the table has a spec without a name for the type -/
def Unn (t : Spec.Tab) (x : String) : Prop := Dict.get? t x = some (.one none)

theorem unn_set (t : Spec.Tab) (dt : String) (e : Spec.Entry) (x : String) :
    Unn (Dict.set t dt e) x ↔ if x = dt then e = .one none else Unn t x := by
  unfold Unn
  rw [Dict.get?_set]
  split <;> simp

theorem addType_ok (t : Spec.Tab) (dt : String) (n : Option String) :
    (n = none ∧ Unn t dt → Spec.addType t dt n = .error .valueError) ∧
    (¬ (n = none ∧ Unn t dt) → ∃ t', Spec.addType t dt n = .ok t' ∧ ∀ x, Unn t' x ↔ Unn t x ∨ (x = dt ∧ n = none)) := by
  constructor
  · rintro ⟨rfl, h⟩
    unfold Unn at h
    simp only [Spec.addType, h]
  · intro h
    simp only [Spec.addType]
    cases hg : Dict.get? t dt with
    | none =>
      refine ⟨_, rfl, fun x => ?_⟩
      rw [unn_set]
      by_cases hx : x = dt
      · subst hx; simp [Unn, hg]
      · simp [hx]
    | some c =>
      match n, c with
      | none, .one none => exact absurd ⟨rfl, hg⟩ h
      | none, .many | none, .one (some _) | some _, .one (some _) =>
        refine ⟨_, rfl, fun x => ?_⟩
        rw [unn_set]
        by_cases hx : x = dt
        · subst hx; simp [Unn, hg]
        · simp [hx]
      | some _, .many | some _, .one none => exact ⟨t, rfl, fun x => by simp⟩

/-- whether a sub-spec can be in the table at all: it has a name or a type, and the type is no empty text -/
def Placed (b : Base) : Prop := typeOf b ≠ some "" ∧ (typeOf b = none → b.name ≠ none)

theorem addSub_none (t : Spec.Tab) {b : Base} (h : typeOf b = none) :
    addSub t b = if b.name = none then .error .typeError else .ok t := by
  unfold typeOf at h
  unfold addSub
  cases h1 : b.tdef with
  | some x => simp [h1] at h
  | none =>
    simp [h1] at h
    simp only [h]

theorem addSub_some (t : Spec.Tab) {b : Base} {dt : String} (h : typeOf b = some dt) :
    addSub t b = if dt = "" then .error .typeError else Spec.addType t dt b.name := by
  unfold typeOf at h
  unfold addSub
  cases h1 : b.tdef with
  | some x => simp [h1] at h; simp [h]
  | none =>
    simp [h1] at h
    simp only [h]

theorem addSubs_ok : ∀ (bs : List Base) (t : Spec.Tab),
    ((∃ t', addSubs t bs = .ok t') ↔ (∀ b ∈ bs, Placed b) ∧ (unnamed bs).Nodup ∧ ∀ x ∈ unnamed bs, ¬ Unn t x) ∧
    (∀ t', addSubs t bs = .ok t' → ∀ x, Unn t' x ↔ Unn t x ∨ x ∈ unnamed bs)
  | [], t => by simp [addSubs, unnamed]
  | b :: bs, t => by
    have hun : unnamed (b :: bs) = (if b.name = none then (typeOf b).toList else []) ++ unnamed bs := by
      unfold unnamed
      rw [List.filterMap_cons]
      by_cases hn : b.name = none
      · simp only [hn, if_true]; cases typeOf b <;> simp
      · simp [hn]
    -- nothing is entered in the table for this spec
    have skip : ∀ t1, addSub t b = .ok t1 → (∀ x, Unn t1 x ↔ Unn t x ∨ x ∈ (if b.name = none then (typeOf b).toList else [])) →
        Placed b → ((if b.name = none then (typeOf b).toList else []).Nodup ∧ ∀ x ∈ (if b.name = none then (typeOf b).toList else []), ¬ Unn t x) →
        ((∃ t', addSubs t (b :: bs) = .ok t') ↔
          (∀ c ∈ b :: bs, Placed c) ∧ (unnamed (b :: bs)).Nodup ∧ ∀ x ∈ unnamed (b :: bs), ¬ Unn t x) ∧
        (∀ t', addSubs t (b :: bs) = .ok t' → ∀ x, Unn t' x ↔ Unn t x ∨ x ∈ unnamed (b :: bs)) := by
      intro t1 h1 h2 h3 h4
      obtain ⟨ih1, ih2⟩ := addSubs_ok bs t1
      have he : addSubs t (b :: bs) = addSubs t1 bs := by simp only [addSubs, h1]
      rw [he, hun]
      constructor
      · rw [ih1]
        simp only [List.mem_cons, forall_eq_or_imp, h3, true_and, List.nodup_append, List.mem_append, h2, not_or]
        constructor
        · rintro ⟨a1, a2, a3⟩
          exact ⟨a1, ⟨h4.1, a2, fun x hx y hy e => (a3 y hy).2 (e ▸ hx)⟩, fun x hx => hx.elim (h4.2 x) fun hx => (a3 x hx).1⟩
        · rintro ⟨a1, ⟨_, a2, a3⟩, a4⟩
          exact ⟨a1, a2, fun x hx => ⟨a4 x (.inr hx), fun hy => a3 x hy x hx rfl⟩⟩
      · intro t' h x
        rw [ih2 t' h x, h2, List.mem_append, or_assoc]
    -- the spec is refused
    have fail : ∀ e, addSub t b = .error e →
        (¬ ((∀ c ∈ b :: bs, Placed c) ∧ (unnamed (b :: bs)).Nodup ∧ ∀ x ∈ unnamed (b :: bs), ¬ Unn t x)) →
        ((∃ t', addSubs t (b :: bs) = .ok t') ↔
          (∀ c ∈ b :: bs, Placed c) ∧ (unnamed (b :: bs)).Nodup ∧ ∀ x ∈ unnamed (b :: bs), ¬ Unn t x) ∧
        (∀ t', addSubs t (b :: bs) = .ok t' → ∀ x, Unn t' x ↔ Unn t x ∨ x ∈ unnamed (b :: bs)) := by
      intro e he hn
      have he : addSubs t (b :: bs) = .error e := by simp only [addSubs, he]
      rw [he]
      refine ⟨⟨fun ⟨_, h⟩ => by simp at h, fun h => absurd h hn⟩, fun t' h => by simp at h⟩
    cases hty : typeOf b with
    | none =>
      by_cases hn : b.name = none
      · refine fail .typeError (by simp [addSub_none t hty, hn]) ?_
        rintro ⟨h, _⟩
        exact (h b (by simp)).2 hty hn
      · exact skip t (by simp [addSub_none t hty, hn]) (by simp [hn]) ⟨by simp [hty], fun _ => hn⟩ (by simp [hn])
    | some dt =>
      by_cases hdt : dt = ""
      · refine fail .typeError (by simp [addSub_some t hty, hdt]) ?_
        rintro ⟨h, _⟩
        exact (h b (by simp)).1 (by rw [hty, hdt])
      · have hadd : addSub t b = Spec.addType t dt b.name := by simp [addSub_some t hty, hdt]
        have hp : Placed b := ⟨by simp [hty, hdt], by simp [hty]⟩
        by_cases hc : b.name = none ∧ Unn t dt
        · refine fail .valueError (hadd.trans ((addType_ok t dt b.name).1 hc)) ?_
          rintro ⟨_, _, h⟩
          exact h dt (by simp [hun, hc.1, hty]) hc.2
        · obtain ⟨t1, h1, h2⟩ := (addType_ok t dt b.name).2 hc
          refine skip t1 (hadd.trans h1) (fun x => ?_) hp ?_
          · rw [h2]
            by_cases hn : b.name = none <;> simp [hn, hty]
          · by_cases hn : b.name = none
            · simp only [hn, hty, if_true, Option.toList_some, List.mem_singleton, forall_eq]
              exact ⟨by simp, fun hu => hc ⟨hn, hu⟩⟩
            · simp [hn]

theorem addLinks_ok : ∀ (ls : List LinkD) (t : Spec.Tab),
    (∃ t', addLinks t ls = .ok t') ↔ (unnamedLinks ls).Nodup ∧ ∀ x ∈ unnamedLinks ls, ¬ Unn t x
  | [], t => by simp [addLinks, unnamedLinks]
  | l :: ls, t => by
    have hun : unnamedLinks (l :: ls) = (if l.name = none then [l.target] else []) ++ unnamedLinks ls := by
      unfold unnamedLinks
      rw [List.filterMap_cons]
      by_cases hn : l.name = none <;> simp [hn]
    by_cases hc : l.name = none ∧ Unn t l.target
    · have he : addLinks t (l :: ls) = .error .valueError := by simp only [addLinks, (addType_ok t l.target l.name).1 hc]
      rw [he]
      constructor
      · rintro ⟨_, h⟩; simp at h
      · rintro ⟨_, h⟩
        exact absurd hc.2 (h l.target (by simp [hun, hc.1]))
    · obtain ⟨t1, h1, h2⟩ := (addType_ok t l.target l.name).2 hc
      have he : addLinks t (l :: ls) = addLinks t1 ls := by simp only [addLinks, h1]
      rw [he, addLinks_ok ls t1, hun]
      by_cases hn : l.name = none
      · have hu : ¬ Unn t l.target := fun hu => hc ⟨hn, hu⟩
        simp only [hn, if_true, List.cons_append, List.nil_append, List.nodup_cons, List.mem_cons, forall_eq_or_imp, h2, and_true,
          not_or]
        constructor
        · rintro ⟨a1, a2⟩
          exact ⟨⟨fun h => (a2 _ h).2 rfl, a1⟩, hu, fun x hx => (a2 x hx).1⟩
        · rintro ⟨⟨a1, a2⟩, _, a3⟩
          exact ⟨a2, fun x hx => ⟨a3 x hx, fun e => a1 (e ▸ hx)⟩⟩
      · simp [hn, h2]

theorem checkShape_iff (sh : Option (List (Ent (Option Nat)))) (dims : Option (List (Ent String))) :
    (∃ s, checkShape sh dims = .ok s) ↔ ∀ a, sh = some a → ∀ b, dims = some b → a.length = b.length := by
  cases dims with
  | none => simp [checkShape]
  | some ds =>
    cases sh with
    | none => simp [checkShape]
    | some x =>
      simp only [checkShape, Option.some.injEq, forall_eq']
      split
      · rename_i h; simp; exact fun e => h e.symm
      · rename_i h; simp; exact (not_not.mp h).symm

/-- C246: exactly these attribute specs are accepted: those with a type of the schema language, not both values, and as many names of
dimensions as lengths. -/
theorem C246_attribute (d : AttrD) : (∃ s, buildAttr d = .ok s) ↔ (∃ ty, d.dtype = some ty ∧ GoodTy ty) ∧
    (d.value = none ∨ d.default = none) ∧ (∀ a, d.shape = some a → ∀ b, d.dims = some b → a.length = b.length) := by
  rw [← checkShape_iff]
  constructor
  · rintro ⟨s, h⟩
    obtain ⟨ty, sh, h1, h2, h3, h4, _⟩ := buildAttr_ok.mp h
    refine ⟨⟨ty, h1, (checkTy_iff ty).mp h2⟩, ?_, sh, h4⟩
    cases hv : d.value <;> cases hd : d.default <;> simp [hv, hd] at h3 ⊢
  · rintro ⟨⟨ty, h1, h2⟩, h3, sh, h4⟩
    refine ⟨_, buildAttr_ok.mpr ⟨ty, sh, h1, (checkTy_iff ty).mpr h2, ?_, h4, rfl⟩⟩
    rintro ⟨hd, hv⟩
    rcases h3 with h | h <;> simp [h] at hd hv

example : ∃ s, buildAttr { name := "a", doc := "d", dtype := some (.name "int"), shape := some [.one none], dims := some [.one "i"] } =
    .ok s := ⟨_, rfl⟩

/-- what is demanded of the keys that groups and datasets have: a name or a type, and no name where `+` or `*` is the quantity -/
def GoodBase (b : Base) : Prop :=
  (b.name ≠ none ∨ typeOf b ≠ none) ∧ (b.name ≠ none → b.quantity ≠ some (.str "+") ∧ b.quantity ≠ some (.str "*")) ∧
  ∀ a ∈ b.attributes, ∃ a', buildAttr a = .ok a'

theorem newBase_iff (b : Base) : (∃ c, newBase b = .ok c) ↔
    (b.name ≠ none ∨ typeOf b ≠ none) ∧ (b.name ≠ none → b.quantity ≠ some (.str "+") ∧ b.quantity ≠ some (.str "*")) := by
  have ht : typeOf b = none ↔ b.tdef = none ∧ b.tinc = none := by
    unfold typeOf; cases b.tdef <;> simp
  constructor
  · rintro ⟨c, h⟩
    obtain ⟨h1, h2, _⟩ := newBase_ok.mp h
    refine ⟨?_, fun hn => ⟨fun hq => h2 ⟨.inl hq, hn⟩, fun hq => h2 ⟨.inr hq, hn⟩⟩⟩
    by_contra hc
    rw [not_or, not_not, not_not, ht] at hc
    exact h1 hc
  · rintro ⟨h1, h2⟩
    refine ⟨_, newBase_ok.mpr ⟨fun h => ?_, fun h => ?_, rfl⟩⟩
    · rcases h1 with h1 | h1
      · exact h1 h.1
      · exact h1 (ht.mpr h.2)
    · rcases h.1 with hq | hq
      · exact (h2 h.2).1 hq
      · exact (h2 h.2).2 hq

theorem mapE_iff {α β : Type} {f : α → Except Err β} : ∀ {xs : List α}, (∃ ys, mapE f xs = .ok ys) ↔ ∀ x ∈ xs, ∃ y, f x = .ok y
  | [] => by simp [mapE]
  | x :: xs => by
    have ih := @mapE_iff α β f xs
    simp only [List.mem_cons, forall_eq_or_imp, ← ih, mapE]
    cases f x with
    | error e => simp
    | ok y => cases mapE f xs <;> simp

theorem buildGroups_iff : ∀ {gs : List GroupD}, (∃ ss, buildGroups gs = .ok ss) ↔ ∀ g ∈ gs, ∃ s, buildGroup g = .ok s
  | [] => by simp [buildGroups]
  | g :: gs => by
    have ih := @buildGroups_iff gs
    simp only [List.mem_cons, forall_eq_or_imp, ← ih, buildGroups]
    cases buildGroup g with
    | error e => simp
    | ok y => cases buildGroups gs <;> simp

theorem unnamed_same {α β : Type} {R : α → β → Prop} {f : α → Base} {g : β → Base} (hR : ∀ a b, R a b → SameBase (f a) (g b)) :
    ∀ {xs : List α} {ys : List β}, List.Forall₂ R xs ys →
      unnamed (ys.map g) = unnamed (xs.map f) ∧ ((∀ y ∈ ys.map g, Placed y) ↔ ∀ x ∈ xs.map f, Placed x)
  | _, _, .nil => by simp [unnamed]
  | _, _, .cons (a := a) (b := b) h hs => by
    obtain ⟨ih1, ih2⟩ := unnamed_same hR hs
    obtain ⟨_, hn, h1, h2, _⟩ := hR a b h
    have ht : typeOf (g b) = typeOf (f a) := by simp only [typeOf, h1, h2]
    refine ⟨?_, ?_⟩
    · unfold unnamed at ih1 ⊢
      simp only [List.map_cons, List.filterMap_cons, hn, ht, ih1]
    · rw [List.map_cons, List.map_cons, List.forall_mem_cons, List.forall_mem_cons, ih2]
      have : Placed (g b) ↔ Placed (f a) := by simp only [Placed, ht, hn]
      rw [this]

theorem unnamed_append (xs ys : List Base) : unnamed (xs ++ ys) = unnamed xs ++ unnamed ys := by simp [unnamed]

theorem unnamedLinks_build (ls : List LinkD) : unnamedLinks (ls.map buildLink) = unnamedLinks ls := by
  simp only [unnamedLinks, List.filterMap_map]
  rfl

/-- C246: exactly these group specs are accepted: its keys and each part are accepted, no two parts without a name (groups and datasets
together) have the same type, no two links without a name have the same target, and no type of a part is the empty text. -/
theorem C246_group (b : Base) (gs : List GroupD) (ds : List DsD) (ls : List LinkD) :
    (∃ s, buildGroup (.mk b gs ds ls) = .ok s) ↔ GoodBase b ∧ (∀ g ∈ gs, ∃ s, buildGroup g = .ok s) ∧ (∀ d ∈ ds, ∃ s, buildDs d = .ok s) ∧
      (unnamed (gs.map GroupD.base ++ ds.map DsD.base)).Nodup ∧ (unnamedLinks ls).Nodup ∧
      ∀ c ∈ gs.map GroupD.base ++ ds.map DsD.base, typeOf c ≠ some "" := by
  have hg : ∀ g g', buildGroup g = .ok g' → SameBase g.base g'.base := by
    intro g g' h
    cases g with
    | mk b gs ds ls =>
      obtain ⟨b', gs', ds', rfl, h, _⟩ := C241_group b gs ds ls g' h
      exact h
  have hds : ∀ d d', buildDs d = .ok d' → SameBase d.base d'.base := fun d d' h => (C241_dataset d d' h).1
  have hbase : ∀ as, (∃ c, newBase { b with attributes := as } = .ok c) ↔ ∃ c, newBase b = .ok c := by
    intro as; rw [newBase_iff, newBase_iff]; rfl
  have hnil : ∀ x, ¬ Unn [] x := by intro x; simp [Unn, Dict.get?]
  constructor
  · rintro ⟨s, h⟩
    obtain ⟨as, ds', gs', h1, h2, h3, h4⟩ := buildGroup_ok.mp h
    obtain ⟨t, t', t'', b', e1, e2, e3, e4, rfl⟩ := newGroup_ok.mp h4
    obtain ⟨u1, p1⟩ := unnamed_same hg (buildGroups_forall h3)
    obtain ⟨u2, p2⟩ := unnamed_same hds (mapE_ok.mp h2)
    obtain ⟨q1, q2⟩ := addSubs_ok (gs'.map GroupD.base) []
    obtain ⟨r1, _⟩ := addSubs_ok (ds'.map DsD.base) t
    obtain ⟨a1, a2, _⟩ := q1.mp ⟨t, e1⟩
    obtain ⟨c1, c2, c3⟩ := r1.mp ⟨t', e2⟩
    obtain ⟨l1, _⟩ := (addLinks_ok _ []).mp ⟨t'', e3⟩
    rw [unnamedLinks_build] at l1
    have hb := (newBase_iff b).mp ((hbase as).mp ⟨b', e4⟩)
    refine ⟨⟨hb.1, hb.2, mapE_iff.mp ⟨as, h1⟩⟩, buildGroups_iff.mp ⟨gs', h3⟩, mapE_iff.mp ⟨ds', h2⟩, ?_, l1, ?_⟩
    · rw [unnamed_append, List.nodup_append, ← u1, ← u2]
      exact ⟨a2, c2, fun x hx y hy e => c3 y hy ((q2 t e1 y).mpr (.inr (e ▸ hx)))⟩
    · intro c hc
      rcases List.mem_append.mp hc with hc | hc
      · exact (p1.mp a1 c hc).1
      · exact (p2.mp c1 c hc).1
  · rintro ⟨⟨hb1, hb2, hb3⟩, h2, h3, h4, h5, h6⟩
    obtain ⟨as, ha⟩ := mapE_iff.mpr hb3
    obtain ⟨gs', hgs⟩ := buildGroups_iff.mpr h2
    obtain ⟨ds', hds'⟩ := mapE_iff.mpr h3
    obtain ⟨u1, p1⟩ := unnamed_same hg (buildGroups_forall hgs)
    obtain ⟨u2, p2⟩ := unnamed_same hds (mapE_ok.mp hds')
    obtain ⟨q1, q2⟩ := addSubs_ok (gs'.map GroupD.base) []
    rw [unnamed_append, List.nodup_append, ← u1, ← u2] at h4
    have named : ∀ c : Base, (∃ c', newBase c = .ok c') → typeOf c = none → c.name ≠ none := by
      intro c hc ht
      rcases ((newBase_iff c).mp hc).1 with h | h
      · exact h
      · exact absurd ht h
    have pg : ∀ c ∈ gs.map GroupD.base, Placed c := by
      intro c hc
      refine ⟨h6 c (List.mem_append_left _ hc), ?_⟩
      obtain ⟨g, hgm, rfl⟩ := List.mem_map.mp hc
      obtain ⟨s, hs⟩ := h2 g hgm
      cases g with
      | mk b gs ds ls =>
        obtain ⟨as, ds', gs', _, _, _, h4⟩ := buildGroup_ok.mp hs
        obtain ⟨_, _, _, b', _, _, _, e4, _⟩ := newGroup_ok.mp h4
        exact named { b with attributes := as } ⟨b', e4⟩
    have pd : ∀ c ∈ ds.map DsD.base, Placed c := by
      intro c hc
      refine ⟨h6 c (List.mem_append_right _ hc), ?_⟩
      obtain ⟨d, hdm, rfl⟩ := List.mem_map.mp hc
      obtain ⟨s, hs⟩ := h3 d hdm
      obtain ⟨as, ty, _, _, h3⟩ := buildDs_ok.mp hs
      obtain ⟨sh, b, _, _, e3, _, _⟩ := newDs_ok.mp h3
      exact named { d.base with attributes := as } ⟨b, e3⟩
    obtain ⟨t, ht⟩ := q1.mpr ⟨p1.mpr pg, h4.1, fun x _ => hnil x⟩
    obtain ⟨r1, _⟩ := addSubs_ok (ds'.map DsD.base) t
    obtain ⟨t', ht'⟩ := r1.mpr ⟨p2.mpr pd, h4.2.1, fun x hx hu =>
      ((q2 t ht x).mp hu).elim (hnil x) fun hx' => h4.2.2 x hx' x hx rfl⟩
    obtain ⟨t'', ht''⟩ := (addLinks_ok (ls.map buildLink) []).mpr ⟨by rw [unnamedLinks_build]; exact h5, fun x _ => hnil x⟩
    obtain ⟨b', hb'⟩ := (hbase as).mpr ((newBase_iff b).mpr ⟨hb1, hb2⟩)
    exact ⟨_, buildGroup_ok.mpr ⟨as, ds', gs', ha, hds', hgs, newGroup_ok.mpr ⟨t, t', t'', b', ht, ht', ht'', hb', rfl⟩⟩⟩

example : ∃ s, buildGroup sample = .ok s := ⟨sampleSpec, rfl⟩

example : buildGroup (.mk { doc := "d", tdef := some "T" } [.mk { doc := "d", tinc := some "U" } [] [] []]
    [{ base := { doc := "d", tinc := some "U" } }] []) = .error .valueError := by rfl

/-- C246: exactly these dataset specs are accepted. -/
theorem C246_dataset (d : DsD) : (∃ s, buildDs d = .ok s) ↔ GoodBase d.base ∧
    (d.base.name ≠ none → d.base.quantity ∈ [none, some (.int 1), some (.str "zero_or_one"), some (.str "?")]) ∧
    (match d.dtype with
      | none => True
      | some (.one ty) => GoodTy ty
      | some (.cols cs) => ∀ c ∈ cs, ∃ ty, c.dtype = some (.one ty) ∧ GoodTy ty) ∧
    (∀ a, d.shape = some a → ∀ b, d.dims = some b → a.length = b.length) := by
  rw [← checkShape_iff]
  have hbase : ∀ as, (∃ c, newBase { d.base with attributes := as } = .ok c) ↔ ∃ c, newBase d.base = .ok c := by
    intro as; rw [newBase_iff, newBase_iff]; rfl
  have hq : ∀ q : Option Qty, (keepQty q = none ∨ keepQty q = some (.int 1) ∨ keepQty q = some (.str "zero_or_one") ∨
      keepQty q = some (.str "?")) ↔ q ∈ [none, some (.int 1), some (.str "zero_or_one"), some (.str "?")] := by
    intro q
    simp only [keepQty, List.mem_cons, List.not_mem_nil, or_false]
    split
    · rename_i h; simp [h]
    · rfl
  have hcol : ∀ c : ColD, (∃ c', buildCol c = .ok c') ↔ ∃ ty, c.dtype = some (.one ty) ∧ GoodTy ty := by
    intro c
    simp only [buildCol]
    match hc : c.dtype with
    | none => simp
    | some .list => simp
    | some (.one ty) =>
      simp only [Option.some.injEq, ColTy.one.injEq, exists_eq_left', ← checkTy_iff]
      cases checkTy ty with
      | error e => simp
      | ok u => simp
  constructor
  · rintro ⟨s, h⟩
    have hty := C245_types_partial.2.1 d s h
    rw [(C241_dataset d s h).2.1] at hty
    obtain ⟨as, ty, h1, h2, h3⟩ := buildDs_ok.mp h
    obtain ⟨sh, b, e1, e2, e3, e4, rfl⟩ := newDs_ok.mp h3
    have hb := (newBase_iff d.base).mp ((hbase as).mp ⟨b, e3⟩)
    obtain ⟨_, _, rfl⟩ := newBase_ok.mp e3
    exact ⟨⟨hb.1, hb.2, mapE_iff.mp ⟨as, h1⟩⟩, fun hn => (hq _).mp (e4 hn), hty, sh, e1⟩
  · rintro ⟨⟨hb1, hb2, hb3⟩, hqty, hty, sh, hsh⟩
    obtain ⟨as, ha⟩ := mapE_iff.mpr hb3
    obtain ⟨b, hb⟩ := (hbase as).mpr ((newBase_iff d.base).mpr ⟨hb1, hb2⟩)
    have hq' : b.name ≠ none → b.quantity = none ∨ b.quantity = some (.int 1) ∨ b.quantity = some (.str "zero_or_one") ∨
        b.quantity = some (.str "?") := by
      obtain ⟨_, _, rfl⟩ := newBase_ok.mp hb
      exact fun hn => (hq _).mpr (hqty hn)
    have key : ∃ ty, buildDsTy d.dtype = .ok ty ∧ checkDsTy ty = .ok () := by
      match hd : d.dtype with
      | none => exact ⟨none, rfl, rfl⟩
      | some (.one (.name s)) => rw [hd] at hty; exact ⟨_, rfl, (checkTy_iff _).mpr hty⟩
      | some (.one (.ref t r)) =>
        rw [hd] at hty
        have := (checkTy_iff _).mpr hty
        exact ⟨some (.one (.ref t r)), by simp only [buildDsTy, this], this⟩
      | some (.cols cs) =>
        rw [hd] at hty
        obtain ⟨cs', hcs⟩ := (mapE_iff (f := buildCol)).mpr fun c hc => (hcol c).mpr (hty c hc)
        exact ⟨some (.cols cs'), by simp only [buildDsTy, hcs], rfl⟩
    obtain ⟨ty, k1, k2⟩ := key
    exact ⟨_, buildDs_ok.mpr ⟨as, ty, ha, k1, newDs_ok.mpr ⟨sh, b, hsh, k2, hb, hq', rfl⟩⟩⟩

example : ∃ s, buildDs { base := { doc := "d", tinc := some "U", quantity := some (.str "*") }, dtype := some (.one (.name "int")) } =
    .ok s := ⟨_, rfl⟩

end Verif.SpecDict

import Verif.Lemmas.Spec

/-!
# C37, C56, C85: inheritance of specifications
-/

namespace Verif.Spec
open Verif

/-- the copy made of an inherited dataset spec has the same contents -/
def SameDs (a b : Ds) : Prop := a.name = b.name ∧ a.dt = b.dt ∧ a.body = b.body ∧ a.dtype = b.dtype ∧ a.attrs.items = b.attrs.items

/-- no name is listed twice -/
def Uniq (g : Grp) : Prop :=
  (∀ n, (g.datasets.filter (fun d => d.name == some n)).length ≤ 1) ∧
  (∀ n, (g.groups.filter (fun d => d.name == some n)).length ≤ 1) ∧
  (∀ n, (g.links.filter (fun d => d.name == some n)).length ≤ 1)

/-- the unnamed datasets, groups and links of a type -/
def dsOf (g : Grp) (dt : String) : List Ds := g.datasets.filter (fun d => d.name.isNone && d.dt == some dt)
def grOf (g : Grp) (dt : String) : List Grp := g.groups.filter (fun d => d.name.isNone && d.dt == some dt)
def lnOf (g : Grp) (dt : String) : List Lnk := g.links.filter (fun d => d.name.isNone && some d.target == some dt)

/-- the specs that can be made: by the constructor from sub-specs of different names, and by resolving -/
inductive Made : Grp → Prop
  | mk {name dt : Option String} {body : Nat} {as : List Attr} {gs : List Grp} {ds : List Ds} {ls : List Lnk} {g : Grp}
      (h : mkGrp name dt body as gs ds ls = .ok g) (hu : Uniq g) : Made g
  | resolve {f : Nat} {g inc g' : Grp} (hg : Made g) (hi : Made inc) (h : Spec.resolve f g inc = .ok g') : Made g'

/-- what holds of all specs -/
structure Wf (g : Grp) : Prop where
  uniq : Uniq g
  attrs : (g.attrs.items.map Attr.name).Nodup
  un : ∀ dt, hasUn g.dts dt ↔ (dsOf g dt ≠ [] ∨ grOf g dt ≠ [])
  one : ∀ dt, (dsOf g dt).length + (grOf g dt).length ≤ 1
  lnk : ∀ dt, hasUn g.tts dt ↔ lnOf g dt ≠ []
  lone : ∀ dt, (lnOf g dt).length ≤ 1

theorem mk_wf {name dt : Option String} {body : Nat} {as : List Attr} {gs : List Grp} {ds : List Ds} {ls : List Lnk} {g : Grp}
    (h : mkGrp name dt body as gs ds ls = .ok g) (hu : Uniq g) : Wf g := by
  simp only [mkGrp] at h
  cases h1 : addItems (grpKind (fun _ _ => .error .runtimeError)) [] [] gs with
  | error e => rw [h1] at h; simp at h
  | ok r1 =>
    obtain ⟨gs1, t1⟩ := r1
    rw [h1] at h
    simp only at h
    cases h2 : addItems dsKind [] t1 ds with
    | error e => rw [h2] at h; simp at h
    | ok r2 =>
      obtain ⟨ds1, t2⟩ := r2
      rw [h2] at h
      simp only at h
      cases h3 : addItems lnkKind [] [] ls with
      | error e => rw [h3] at h; simp at h
      | ok r3 =>
        obtain ⟨ls1, u⟩ := r3
        rw [h3] at h
        simp only [Except.ok.injEq] at h
        obtain ⟨a1, a2, a3⟩ := addItems_ok _ _ _ _ _ h1
        obtain ⟨b1, b2, b3⟩ := addItems_ok _ _ _ _ _ h2
        obtain ⟨c1, c2, c3⟩ := addItems_ok _ _ _ _ _ h3
        simp only [List.nil_append] at a1 b1 c1
        subst a1; subst b1; subst c1
        have e0 : ∀ dt, ¬ hasUn ([] : Tab) dt := by intro dt; simp [hasUn, Dict.get?]
        subst h
        refine ⟨hu, nodup_mkAttrs as, ?_, ?_, ?_, ?_⟩
        · intro dt
          rw [b2, a2]
          simp only [e0, false_or]
          exact Or.comm
        · intro dt
          have ha := (a3 dt).1
          obtain ⟨hb1, hb2⟩ := b3 dt
          show (ds1.filter (isU dsKind dt)).length + (gs1.filter (isU (grpKind (fun _ _ => .error .runtimeError)) dt)).length ≤ 1
          by_cases he : gs1.filter (isU (grpKind (fun _ _ => .error .runtimeError)) dt) = []
          · rw [he]; simpa using hb1
          · rw [hb2 ((a2 dt).2 (Or.inr he))]; simpa using ha
        · intro dt
          rw [c2]
          simp only [e0, false_or]
          exact Iff.rfl
        · intro dt
          exact (c3 dt).1

/-- everything about one resolution -/
theorem resolve_spec {f : Nat} {g inc g' : Grp} (hg : Wf g) (hi : Wf inc) (h : resolve (f + 1) g inc = .ok g') :
    ((∀ n, Comb dsKind (g.datasets.filter (isN dsKind n)) (inc.datasets.filter (isN dsKind n)) (g'.datasets.filter (isN dsKind n))) ∧
     (∀ n, Comb (grpKind (resolve f)) (g.groups.filter (isN (grpKind (resolve f)) n)) (inc.groups.filter (isN (grpKind (resolve f)) n))
        (g'.groups.filter (isN (grpKind (resolve f)) n))) ∧
     (∀ n, Comb lnkKind (g.links.filter (isN lnkKind n)) (inc.links.filter (isN lnkKind n)) (g'.links.filter (isN lnkKind n)))) ∧
    ((∀ dt, dsOf g dt ≠ [] ∨ grOf g dt ≠ [] → dsOf g' dt = dsOf g dt ∧ grOf g' dt = grOf g dt) ∧
     (∀ dt, dsOf g dt = [] → grOf g dt = [] → dsOf g' dt = (dsOf inc dt).map dsKind.copy ∧ grOf g' dt = (grOf inc dt).map Grp.copy) ∧
     (∀ dt, lnOf g' dt = if lnOf g dt ≠ [] then lnOf g dt else lnOf inc dt)) ∧
    ((∀ n, n ∈ g'.newDs ↔ n ∈ g.newDs ∧ n ∉ names dsKind inc.datasets) ∧
     (∀ n, n ∈ g'.overDs ↔ n ∈ g.overDs ∨ (n ∈ names dsKind g.datasets ∧ n ∈ names dsKind inc.datasets)) ∧
     (∀ n, n ∈ g'.newGr ↔ n ∈ g.newGr ∧ n ∉ inc.groups.filterMap Grp.name) ∧
     (∀ n, n ∈ g'.overGr ↔ n ∈ g.overGr ∨ (n ∈ g.groups.filterMap Grp.name ∧ n ∈ inc.groups.filterMap Grp.name)) ∧
     (∀ n, n ∈ g'.newLn ↔ n ∈ g.newLn ∧ n ∉ names lnkKind inc.links) ∧
     (∀ n, n ∈ g'.overLn ↔ n ∈ g.overLn ∨ (n ∈ names lnkKind g.links ∧ n ∈ names lnkKind inc.links))) ∧
    ((∀ dt, hasUn g'.dts dt ↔ (hasUn g.dts dt ∨ dsOf inc dt ≠ [] ∨ grOf inc dt ≠ [])) ∧
     (∀ dt, hasUn g'.tts dt ↔ (hasUn g.tts dt ∨ lnOf inc dt ≠ [])) ∧
     (∀ dt, dt ∈ g'.newDt ↔ dt ∈ g.newDt ∧ dsOf inc dt = [] ∧ grOf inc dt = [])) ∧
    g'.attrs = resolveAttrs g.attrs inc.attrs.items := by
  simp only [resolve] at h
  cases h1 : resNamed dsKind ⟨g.datasets, g.newDs, g.overDs⟩ g.dts inc.datasets with
  | error e => rw [h1] at h; simp at h
  | ok r1 =>
  obtain ⟨ds, t1⟩ := r1
  rw [h1] at h; simp only at h
  cases h2 : resNamed (grpKind (resolve f)) ⟨g.groups, g.newGr, g.overGr⟩ t1 inc.groups with
  | error e => rw [h2] at h; simp at h
  | ok r2 =>
  obtain ⟨gs, t2⟩ := r2
  rw [h2] at h; simp only at h
  cases h3 : resNamed lnkKind ⟨g.links, g.newLn, g.overLn⟩ g.tts inc.links with
  | error e => rw [h3] at h; simp at h
  | ok r3 =>
  obtain ⟨ls, u1⟩ := r3
  rw [h3] at h; simp only at h
  cases h4 : resTyped dsKind ds.items t2 g.newDt inc.datasets with
  | error e => rw [h4] at h; simp at h
  | ok r4 =>
  obtain ⟨ds', t3, nd⟩ := r4
  rw [h4] at h; simp only at h
  cases h5 : resTyped (grpKind (resolve f)) gs.items t3 nd inc.groups with
  | error e => rw [h5] at h; simp at h
  | ok r5 =>
  obtain ⟨gs', t4, nd'⟩ := r5
  rw [h5] at h; simp only at h
  cases h6 : resTyped lnkKind ls.items u1 g.newTt inc.links with
  | error e => rw [h6] at h; simp at h
  | ok r6 =>
  obtain ⟨ls', u2, nt⟩ := r6
  rw [h6] at h
  simp only [Except.ok.injEq] at h
  obtain ⟨a1, a2, a3, a4, a5⟩ := resNamed_spec dsKind_ok _ ⟨g.datasets, g.newDs, g.overDs⟩ _ _ _ hi.uniq.1 hg.uniq.1 h1
  obtain ⟨b1, b2, b3, b4, b5⟩ := resNamed_spec (grpKind_ok f) _ ⟨g.groups, g.newGr, g.overGr⟩ _ _ _ hi.uniq.2.1 hg.uniq.2.1 h2
  obtain ⟨c1, c2, c3, c4, c5⟩ := resNamed_spec lnkKind_ok _ ⟨g.links, g.newLn, g.overLn⟩ _ _ _ hi.uniq.2.2 hg.uniq.2.2 h3
  have hone1 : ∀ dt, (inc.datasets.filter (isU dsKind dt)).length ≤ 1 := fun dt => Nat.le_trans (Nat.le_add_right _ _) (hi.one dt)
  have hone2 : ∀ dt, (inc.groups.filter (isU (grpKind (resolve f)) dt)).length ≤ 1 := fun dt => Nat.le_trans (Nat.le_add_left _ _) (hi.one dt)
  obtain ⟨d1, d2, d3, d4⟩ := resTyped_spec dsKind_ok _ _ _ _ _ _ _ hone1 h4
  obtain ⟨e1, e2, e3, e4⟩ := resTyped_spec (grpKind_ok f) _ _ _ _ _ _ _ hone2 h5
  obtain ⟨f1, f2, f3, f4⟩ := resTyped_spec lnkKind_ok _ _ _ _ _ _ _ hi.lone h6
  have ht2 : ∀ dt, hasUn t2 dt ↔ hasUn g.dts dt := fun dt => (b3 dt).trans (a3 dt)
  subst h
  refine ⟨⟨?_, ?_, ?_⟩, ⟨?_, ?_, ?_⟩, ⟨a4, a5, b4, b5, c4, c5⟩, ⟨?_, ?_, ?_⟩, rfl⟩
  · intro n
    have := a1 n
    simp only at this ⊢
    rw [d1]; exact this
  · intro n
    have := b1 n
    simp only at this ⊢
    rw [e1]; exact this
  · intro n
    have := c1 n
    simp only at this ⊢
    rw [f1]; exact this
  · intro dt hne
    have hu : hasUn t2 dt := (ht2 dt).2 ((hg.un dt).2 hne)
    have hu3 : hasUn t3 dt := (d3 dt).2 (Or.inl hu)
    exact ⟨((d2 dt).1 hu).trans (a2 dt), ((e2 dt).1 hu3).trans (b2 dt)⟩
  · intro dt hn1 hn2
    have hu : ¬ hasUn t2 dt := by rw [ht2, hg.un]; simp [hn1, hn2]
    have hds : ds'.filter (isU dsKind dt) = (dsOf inc dt).map dsKind.copy := by
      refine ((d2 dt).2 hu).trans ?_
      rw [a2 dt]
      have : List.filter (isU dsKind dt) g.datasets = [] := hn1
      rw [show (List.filter (isU dsKind dt) ({ items := g.datasets, new := g.newDs, over := g.overDs } : Sub Ds).items) = [] from hn1]
      rfl
    refine ⟨hds, ?_⟩
    by_cases hu3 : hasUn t3 dt
    · have hne : dsOf inc dt ≠ [] := by
        rcases (d3 dt).1 hu3 with h | h
        · exact absurd h hu
        · exact h
      have hz : grOf inc dt = [] := by
        have := hi.one dt
        have h1 : 0 < (dsOf inc dt).length := List.length_pos_of_ne_nil hne
        exact List.eq_nil_of_length_eq_zero (by omega)
      rw [hz]
      refine ((e2 dt).1 hu3).trans ?_
      rw [b2 dt]; exact hn2
    · refine ((e2 dt).2 hu3).trans ?_
      rw [b2 dt]
      rw [show (List.filter (isU (grpKind (resolve f)) dt) ({ items := g.groups, new := g.newGr, over := g.overGr } : Sub Grp).items) = [] from hn2]
      rfl
  · intro dt
    have hu : hasUn u1 dt ↔ lnOf g dt ≠ [] := (c3 dt).trans (hg.lnk dt)
    split
    · rename_i hne
      exact ((f2 dt).1 (hu.2 hne)).trans (c2 dt)
    · rename_i hne
      refine ((f2 dt).2 (fun h => hne (hu.1 h))).trans ?_
      rw [c2 dt]
      have hz : lnOf g dt = [] := by
        by_contra hc; exact hne hc
      rw [show (List.filter (isU lnkKind dt) ({ items := g.links, new := g.newLn, over := g.overLn } : Sub Lnk).items) = [] from hz]
      simp only [lnkKind, List.map_id, List.nil_append]
      rfl
  · intro dt
    refine (e3 dt).trans ?_
    rw [d3, ht2, or_assoc]
    exact Iff.rfl
  · intro dt
    refine (f3 dt).trans ?_
    rw [c3]; exact Iff.rfl
  · intro dt
    refine (e4 dt).trans ?_
    rw [d4, and_assoc]; exact Iff.rfl

theorem comb_len {α : Type} {k : Kind α} {a b c : List α} (h : Comb k a b c) : c.length ≤ 1 := by
  rcases h with ⟨_, _, _, _, _, _, rfl⟩ | ⟨_, _, _, rfl⟩ | ⟨_, _, _, rfl⟩ | ⟨_, _, rfl⟩ <;> simp

theorem resolve_wf {f : Nat} {g inc g' : Grp} (hg : Wf g) (hi : Wf inc) (h : resolve f g inc = .ok g') : Wf g' := by
  cases f with
  | zero => simp [resolve] at h
  | succ f =>
    obtain ⟨⟨n1, n2, n3⟩, ⟨t1, t2, t3⟩, -, ⟨u1, u2, -⟩, ha⟩ := resolve_spec hg hi h
    refine ⟨⟨fun n => comb_len (n1 n), fun n => comb_len (n2 n), fun n => comb_len (n3 n)⟩, ?_, ?_, ?_, ?_, ?_⟩
    · rw [ha]; exact (resolveAttrs_spec _ _ hi.attrs hg.attrs).1
    · intro dt
      rw [u1, hg.un]
      by_cases hc : dsOf g dt ≠ [] ∨ grOf g dt ≠ []
      · obtain ⟨e1, e2⟩ := t1 dt hc
        rw [e1, e2]
        exact ⟨fun _ => hc, fun _ => Or.inl hc⟩
      · simp only [ne_eq, not_or, not_not] at hc
        obtain ⟨e1, e2⟩ := t2 dt hc.1 hc.2
        rw [e1, e2, hc.1, hc.2]
        simp
    · intro dt
      by_cases hc : dsOf g dt ≠ [] ∨ grOf g dt ≠ []
      · obtain ⟨e1, e2⟩ := t1 dt hc
        rw [e1, e2]; exact hg.one dt
      · simp only [ne_eq, not_or, not_not] at hc
        obtain ⟨e1, e2⟩ := t2 dt hc.1 hc.2
        rw [e1, e2, List.length_map, List.length_map]; exact hi.one dt
    · intro dt
      rw [u2, hg.lnk, t3]
      split
      · rename_i hc; simp [hc]
      · rename_i hc; simp only [hc, false_or]
    · intro dt
      rw [t3]
      split
      · exact hg.lone dt
      · exact hi.lone dt

theorem Made.wf {g : Grp} (h : Made g) : Wf g := by
  induction h with
  | mk h hu => exact mk_wf h hu
  | resolve _ _ h ih1 ih2 => exact resolve_wf ih1 ih2 h

/-! ## An example: a child with an override, a new entry and a typed entry, and its parent -/

def exDs (name dt : Option String) (body : Nat) : Ds := ⟨name, dt, body, .any, mkAttrs []⟩

def exSub (body : Nat) (as : List Attr) : Grp :=
  { name := some "sub", dt := none, body := body, attrs := mkAttrs as, datasets := [], groups := [], links := [], dts := [], tts := [],
    newDs := [], overDs := [], newGr := [], overGr := [], newLn := [], overLn := [], newDt := [], newTt := [] }

def exChild : Except Err Grp :=
  mkGrp none (some "Child") 1 [⟨"a", 1⟩, ⟨"c", 1⟩] [exSub 1 [⟨"p", 1⟩]] [exDs (some "x") none 1, exDs (some "z") none 1, exDs none (some "T") 1] [⟨some "l", "T", 1⟩]

def exParent : Except Err Grp :=
  mkGrp none (some "Parent") 2 [⟨"a", 2⟩, ⟨"b", 2⟩] [exSub 2 [⟨"p", 2⟩, ⟨"q", 2⟩]]
    [exDs (some "x") none 2, exDs (some "y") none 2, exDs none (some "T") 2, exDs none (some "U") 2] [⟨some "l", "T", 2⟩, ⟨none, "U", 2⟩]

/-- a child resolved against a parent -/
def both (c p : Except Err Grp) : Except Err Grp := match c, p with
  | .ok c, .ok p => resolve 9 c p
  | _, _ => .error .runtimeError

def exResolved : Except Err Grp := both exChild exParent

/-- nothing was raised and the result passes a test -/
def onOk (g : Except Err Grp) (test : Grp → Bool) : Bool := match g with
  | .ok g => test g
  | .error _ => false

def obs (g : Except Err Grp) : List (Option String × Option String × Nat) × List (String × Nat) × List (Option String × Nat) :=
  match g with
  | .error _ => ([], [], [])
  | .ok g => (g.datasets.map fun d => (d.name, d.dt, d.body), g.attrs.items.map fun a => (a.name, a.body), g.links.map fun l => (l.name, l.body))

/-- the resolution of the example: child's entries first, then the parent's that the child lacks -/
example : obs exResolved =
    ([(some "x", none, 1), (some "z", none, 1), (none, some "T", 1), (some "y", none, 2), (none, some "U", 2)],
     [("a", 1), ("c", 1), ("b", 2)], [(some "l", 1), (none, 2)]) := by decide +kernel

theorem uniq_of_nodup {α : Type} (name : α → Option String) (l : List α) (h : (l.filterMap name).Nodup) (n : String) :
    (l.filter (fun d => name d == some n)).length ≤ 1 := by
  induction l with
  | nil => simp
  | cons x xs ih =>
    cases hx : name x with
    | none =>
      rw [List.filterMap_cons_none hx] at h
      rw [List.filter_cons_of_neg (by simp [hx])]
      exact ih h
    | some m =>
      rw [List.filterMap_cons_some hx, List.nodup_cons] at h
      by_cases hm : m = n
      · subst hm
        rw [List.filter_cons_of_pos (by simp [hx])]
        have : xs.filter (fun d => name d == some m) = [] := by
          rw [List.filter_eq_nil_iff]
          intro y hy hc
          exact h.1 (List.mem_filterMap.2 ⟨y, hy, by simpa using hc⟩)
        rw [this]; simp
      · rw [List.filter_cons_of_neg (by simp [hx, hm])]
        exact ih h.2

theorem made_of_test {c : Except Err Grp} (name dt : Option String) (body : Nat) (as : List Attr) (gs : List Grp) (ds : List Ds) (ls : List Lnk)
    (hc : c = mkGrp name dt body as gs ds ls)
    (ht : onOk c (fun g => decide ((g.datasets.filterMap Ds.name).Nodup ∧ (g.groups.filterMap Grp.name).Nodup ∧ (g.links.filterMap Lnk.name).Nodup)) = true) :
    ∃ g, c = .ok g ∧ Made g := by
  cases h : c with
  | error e => rw [h] at ht; simp [onOk] at ht
  | ok g =>
    rw [h] at ht
    simp only [onOk, decide_eq_true_eq] at ht
    exact ⟨g, rfl, .mk (hc ▸ h) ⟨uniq_of_nodup _ _ ht.1, uniq_of_nodup _ _ ht.2.1, uniq_of_nodup _ _ ht.2.2⟩⟩

/-- child, parent and resolved child of the example are specs of the theorems below -/
example : ∃ c p g, exChild = .ok c ∧ exParent = .ok p ∧ Made c ∧ Made p ∧ resolve 9 c p = .ok g := by
  obtain ⟨c, hc, mc⟩ := made_of_test (c := exChild) _ _ _ _ _ _ _ rfl (by decide +kernel)
  obtain ⟨p, hp, mp⟩ := made_of_test (c := exParent) _ _ _ _ _ _ _ rfl (by decide +kernel)
  have h : onOk (both exChild exParent) (fun _ => true) = true := by decide +kernel
  rw [hc, hp] at h
  simp only [both] at h
  cases hr : resolve 9 c p with
  | error e => rw [hr] at h; simp [onOk] at h
  | ok g => exact ⟨c, p, g, hc, hp, mc, mp, hr⟩

/-- **C37 (attributes).** After resolving a spec against its parent there is one attribute per name; the attribute of a name is the
child's if it has one and the parent's otherwise; the child's attributes come first, in their order; an attribute is reported as
inherited iff the parent has it and as overridden iff both have it. -/
theorem C37_attributes (own inc : List Attr) (hi : (inc.map Attr.name).Nodup) :
    let s := resolveAttrs (mkAttrs own) inc
    (s.items.map Attr.name).Nodup ∧
    (∀ n, getAttr s n = (getAttr (mkAttrs own) n).or (inc.find? (fun a => a.name = n))) ∧
    (mkAttrs own).items <+: s.items ∧
    (∀ n, isInheritedAttr s n =
      if n ∈ own.map Attr.name ∨ n ∈ inc.map Attr.name then .ok (decide (n ∈ inc.map Attr.name)) else .error .valueError) ∧
    (∀ n, isOverriddenAttr s n =
      if n ∈ own.map Attr.name ∨ n ∈ inc.map Attr.name then .ok (decide (n ∈ own.map Attr.name ∧ n ∈ inc.map Attr.name)) else .error .valueError) := by
  have hm : ∀ n, n ∈ (mkAttrs own).items.map Attr.name ↔ n ∈ own.map Attr.name := by
    have : ∀ (l : List Attr) n, n ∈ (own.foldl setAttr l).map Attr.name ↔ n ∈ l.map Attr.name ∨ n ∈ own.map Attr.name := by
      induction own with
      | nil => intro l n; simp
      | cons a as ih =>
        intro l n
        rw [List.foldl_cons, ih, map_setAttr]
        split
        · rename_i h
          simp only [List.map_cons, List.mem_cons]
          constructor
          · rintro (h | h)
            · exact Or.inl h
            · exact Or.inr (Or.inr h)
          · rintro (h1 | rfl | h1)
            · exact Or.inl h1
            · exact Or.inl h
            · exact Or.inr h1
        · simp only [List.mem_append, List.mem_cons, List.not_mem_nil, or_false, List.map_cons]
          tauto
    intro n
    have := this [] n
    simpa [mkAttrs] using this
  obtain ⟨r1, r2, r3, r4, r5, r6⟩ := resolveAttrs_spec inc (mkAttrs own) hi (nodup_mkAttrs own)
  refine ⟨r1, r2, r6, ?_, ?_⟩
  · intro n
    simp only [isInheritedAttr, r3, hm]
    split
    · rename_i h
      have e : n ∉ (resolveAttrs (mkAttrs own) inc).new ↔ n ∈ inc.map Attr.name := by
        rw [r4]
        have : n ∈ (mkAttrs own).new ↔ n ∈ own.map Attr.name := hm n
        rw [this]
        tauto
      rw [decide_eq_decide.2 e]
    · rfl
  · intro n
    simp only [isOverriddenAttr, r3, hm]
    split
    · have e : n ∈ (resolveAttrs (mkAttrs own) inc).over ↔ n ∈ own.map Attr.name ∧ n ∈ inc.map Attr.name := by
        rw [r5, hm]
        have : n ∉ (mkAttrs own).over := by simp [mkAttrs]
        tauto
      rw [decide_eq_decide.2 e]
    · rfl

example : (resolveAttrs (mkAttrs [⟨"a", 1⟩, ⟨"b", 1⟩]) [⟨"b", 2⟩, ⟨"c", 2⟩]).items = [⟨"a", 1⟩, ⟨"b", 1⟩, ⟨"c", 2⟩] := by decide

/-- **C37 (named sub-specs).** For every name, after resolving: if both child and parent have a dataset of that name there is exactly
one, the child's resolved against the parent's; if only the child has one, exactly that; if only the parent has one, exactly a copy
of it; else none.  The same holds for subgroups and for links (where the child's link stays as it is).
The attribute of a name is the child's or else the parent's. -/
theorem C37_named_partial (f : Nat) (g inc g' : Grp) (hg : Made g) (hi : Made inc) (h : resolve (f + 1) g inc = .ok g') (n : String) :
    Comb dsKind (g.datasets.filter (fun d => d.name == some n)) (inc.datasets.filter (fun d => d.name == some n)) (g'.datasets.filter (fun d => d.name == some n)) ∧
    Comb (grpKind (resolve f)) (g.groups.filter (fun d => d.name == some n)) (inc.groups.filter (fun d => d.name == some n)) (g'.groups.filter (fun d => d.name == some n)) ∧
    Comb lnkKind (g.links.filter (fun d => d.name == some n)) (inc.links.filter (fun d => d.name == some n)) (g'.links.filter (fun d => d.name == some n)) ∧
    getAttr g'.attrs n = (getAttr g.attrs n).or (getAttr inc.attrs n) := by
  obtain ⟨⟨n1, n2, n3⟩, -, -, -, ha⟩ := resolve_spec hg.wf hi.wf h
  refine ⟨n1 n, n2 n, n3 n, ?_⟩
  rw [ha]
  exact (resolveAttrs_spec _ _ hi.wf.attrs hg.wf.attrs).2.1 n

/-- **C37 (typed sub-specs).** For every type, after resolving: the unnamed datasets and groups of the type are the child's if it has
any and (copies of) the parent's otherwise; there is at most one.  The same holds for unnamed links and their target types. -/
theorem C37_typed_partial (f : Nat) (g inc g' : Grp) (hg : Made g) (hi : Made inc) (h : resolve (f + 1) g inc = .ok g') (dt : String) :
    (dsOf g dt ≠ [] ∨ grOf g dt ≠ [] → dsOf g' dt = dsOf g dt ∧ grOf g' dt = grOf g dt) ∧
    (dsOf g dt = [] → grOf g dt = [] → dsOf g' dt = (dsOf inc dt).map dsKind.copy ∧ grOf g' dt = (grOf inc dt).map Grp.copy) ∧
    lnOf g' dt = (if lnOf g dt ≠ [] then lnOf g dt else lnOf inc dt) ∧
    (dsOf g' dt).length + (grOf g' dt).length ≤ 1 ∧ (lnOf g' dt).length ≤ 1 := by
  obtain ⟨-, ⟨t1, t2, t3⟩, -⟩ := resolve_spec hg.wf hi.wf h
  have hw := resolve_wf hg.wf hi.wf h
  exact ⟨t1 dt, t2 dt, t3 dt, hw.one dt, hw.lone dt⟩

/-- the copy has the contents of the original -/
theorem C37_copy (d : Ds) (g : Grp) : SameDs (dsKind.copy d) d ∧ g.copy.name = g.name ∧ g.copy.dt = g.dt ∧ g.copy.body = g.body ∧
    g.copy.attrs.items = g.attrs.items ∧ g.copy.links = g.links ∧ g.copy.datasets.length = g.datasets.length ∧
    (∀ (i : Nat) a b, g.datasets[i]? = some a → g.copy.datasets[i]? = some b → SameDs b a) ∧
    (∀ (i : Nat) a, g.groups[i]? = some a → g.copy.groups[i]? = some a.copy) := by
  refine ⟨⟨rfl, rfl, rfl, rfl, rfl⟩, ?_⟩
  have hc : ∀ (gs : List Grp) (i : Nat) a, gs[i]? = some a → (Grp.copies gs)[i]? = some a.copy := by
    intro gs
    induction gs with
    | nil => intro i a h; simp at h
    | cons x xs ih =>
      intro i a h
      cases i with
      | zero => simp only [List.getElem?_cons_zero, Option.some.injEq] at h; subst h; simp [Grp.copies]
      | succ i => simp only [List.getElem?_cons_succ] at h; simp only [Grp.copies, List.getElem?_cons_succ]; exact ih i a h
  cases g with
  | mk name dt body attrs datasets groups links dts tts a b c d e f g h =>
    simp only [Grp.copy]
    refine ⟨trivial, trivial, trivial, rfl, trivial, by simp, ?_, ?_⟩
    · intro i x y hx hy
      rw [List.getElem?_map, hx] at hy
      simp only [Option.map_some, Option.some.injEq] at hy
      subst hy
      exact ⟨rfl, rfl, rfl, rfl, rfl⟩
    · intro i x hx
      exact hc groups i x hx

/-- **C37 (classification).** For a newly made child: `is_inherited_dataset` answers whether the parent has the name,
`is_overridden_dataset` whether both have it, and they raise iff neither has it; the same for groups and links. -/
theorem C37_classified_partial (f : Nat) (name dt : Option String) (body : Nat) (as : List Attr) (gs : List Grp) (ds : List Ds) (ls : List Lnk)
    (g inc g' : Grp) (hm : mkGrp name dt body as gs ds ls = .ok g) (hu : Uniq g) (hi : Made inc) (h : resolve (f + 1) g inc = .ok g') (n : String) :
    (isInherited (g'.datasets.filterMap Ds.name) g'.newDs n =
      if n ∈ ds.filterMap Ds.name ∨ n ∈ inc.datasets.filterMap Ds.name then .ok (decide (n ∈ inc.datasets.filterMap Ds.name)) else .error .valueError) ∧
    (isOverridden (g'.datasets.filterMap Ds.name) g'.overDs n =
      if n ∈ ds.filterMap Ds.name ∨ n ∈ inc.datasets.filterMap Ds.name then
        .ok (decide (n ∈ ds.filterMap Ds.name ∧ n ∈ inc.datasets.filterMap Ds.name)) else .error .valueError) ∧
    (isInherited (g'.groups.filterMap Grp.name) g'.newGr n =
      if n ∈ gs.filterMap Grp.name ∨ n ∈ inc.groups.filterMap Grp.name then .ok (decide (n ∈ inc.groups.filterMap Grp.name)) else .error .valueError) ∧
    (isOverridden (g'.groups.filterMap Grp.name) g'.overGr n =
      if n ∈ gs.filterMap Grp.name ∨ n ∈ inc.groups.filterMap Grp.name then
        .ok (decide (n ∈ gs.filterMap Grp.name ∧ n ∈ inc.groups.filterMap Grp.name)) else .error .valueError) ∧
    (isInherited (g'.links.filterMap Lnk.name) g'.newLn n =
      if n ∈ ls.filterMap Lnk.name ∨ n ∈ inc.links.filterMap Lnk.name then .ok (decide (n ∈ inc.links.filterMap Lnk.name)) else .error .valueError) ∧
    (isOverridden (g'.links.filterMap Lnk.name) g'.overLn n =
      if n ∈ ls.filterMap Lnk.name ∨ n ∈ inc.links.filterMap Lnk.name then
        .ok (decide (n ∈ ls.filterMap Lnk.name ∧ n ∈ inc.links.filterMap Lnk.name)) else .error .valueError) := by
  have hg : Wf g := mk_wf hm hu
  obtain ⟨⟨n1, n2, n3⟩, -, ⟨a1, a2, b1, b2, c1, c2⟩, -⟩ := resolve_spec hg hi.wf h
  have hshape : g.datasets = ds ∧ g.groups = gs ∧ g.links = ls ∧ g.newDs = ds.filterMap Ds.name ∧ g.overDs = [] ∧
      g.newGr = gs.filterMap Grp.name ∧ g.overGr = [] ∧ g.newLn = ls.filterMap Lnk.name ∧ g.overLn = [] := by
    simp only [mkGrp] at hm
    cases h1 : addItems (grpKind (fun _ _ => .error .runtimeError)) [] [] gs with
    | error e => rw [h1] at hm; simp at hm
    | ok r1 =>
      obtain ⟨gs1, t1⟩ := r1
      rw [h1] at hm
      simp only at hm
      cases h2 : addItems dsKind [] t1 ds with
      | error e => rw [h2] at hm; simp at hm
      | ok r2 =>
        obtain ⟨ds1, t2⟩ := r2
        rw [h2] at hm
        simp only at hm
        cases h3 : addItems lnkKind [] [] ls with
        | error e => rw [h3] at hm; simp at hm
        | ok r3 =>
          obtain ⟨ls1, u⟩ := r3
          rw [h3] at hm
          simp only [Except.ok.injEq] at hm
          have a1 := (addItems_ok _ _ _ _ _ h1).1
          have b1 := (addItems_ok _ _ _ _ _ h2).1
          have c1 := (addItems_ok _ _ _ _ _ h3).1
          simp only [List.nil_append] at a1 b1 c1
          subst a1; subst b1; subst c1; subst hm
          exact ⟨rfl, rfl, rfl, rfl, rfl, rfl, rfl, rfl, rfl⟩
  obtain ⟨s1, s2, s3, s4, s5, s6, s7, s8, s9⟩ := hshape
  have gen : ∀ {α : Type} {k : Kind α} {own inc res : List α} {new over : List String},
      (∀ n, Comb k (own.filter (isN k n)) (inc.filter (isN k n)) (res.filter (isN k n))) → k.Ok →
      (∀ n, n ∈ new ↔ n ∈ names k own ∧ n ∉ names k inc) → (∀ n, n ∈ over ↔ n ∈ names k own ∧ n ∈ names k inc) →
      isInherited (names k res) new n = (if n ∈ names k own ∨ n ∈ names k inc then .ok (decide (n ∈ names k inc)) else .error .valueError) ∧
      isOverridden (names k res) over n =
        (if n ∈ names k own ∨ n ∈ names k inc then .ok (decide (n ∈ names k own ∧ n ∈ names k inc)) else .error .valueError) := by
    intro α k own inc res new over hc _ hn ho
    have hk : n ∈ names k res ↔ (n ∈ names k own ∨ n ∈ names k inc) := by
      simp only [mem_names]
      rcases hc n with ⟨_, _, _, e1, e2, _, e3⟩ | ⟨_, e1, e2, e3⟩ | ⟨_, e1, e2, e3⟩ | ⟨e1, e2, e3⟩ <;> rw [e1, e2, e3] <;> simp
    simp only [isInherited, isOverridden, hk]
    refine ⟨?_, ?_⟩
    · split
      · rename_i hor
        have e : n ∉ new ↔ n ∈ names k inc := by rw [hn]; tauto
        rw [decide_eq_decide.2 e]
      · rfl
    · split
      · rw [decide_eq_decide.2 (ho n)]
      · rfl
  rw [s1] at n1 a2
  rw [s2] at n2 b2
  rw [s3] at n3 c2
  obtain ⟨r1, r2⟩ := gen n1 dsKind_ok (by intro n; rw [a1, s4]; exact Iff.rfl) (by intro n; rw [a2, s5]; simp)
  obtain ⟨r3, r4⟩ := gen n2 (grpKind_ok f) (by intro n; rw [b1, s6]; exact Iff.rfl) (by intro n; rw [b2, s7]; simp [names, grpKind])
  obtain ⟨r5, r6⟩ := gen n3 lnkKind_ok (by intro n; rw [c1, s8]; exact Iff.rfl) (by intro n; rw [c2, s9]; simp)
  exact ⟨r1, r2, r3, r4, r5, r6⟩

/-- the hypotheses of the theorems above are met by the example -/
example : onOk exChild (fun g => decide (g.datasets.map Ds.name = [some "x", some "z", none] ∧ g.newDs = ["x", "z"])) := by decide +kernel

example : onOk exResolved (fun g => decide (
    isInherited (g.datasets.filterMap Ds.name) g.newDs "x" = .ok true ∧ isOverridden (g.datasets.filterMap Ds.name) g.overDs "x" = .ok true ∧
    isInherited (g.datasets.filterMap Ds.name) g.newDs "y" = .ok true ∧ isOverridden (g.datasets.filterMap Ds.name) g.overDs "y" = .ok false ∧
    isInherited (g.datasets.filterMap Ds.name) g.newDs "z" = .ok false ∧
    isInherited (g.datasets.filterMap Ds.name) g.newDs "w" = .error .valueError)) := by decide +kernel

/-- **C37 (violated across kinds).** The child's link `x` does not replace the parent's dataset `x`: both are present and
`get_dataset('x')` returns the parent's. -/
theorem C37_kind_fails :
    onOk (both (mkGrp none (some "Child") 1 [] [] [] [⟨some "x", "T", 1⟩]) (mkGrp none (some "Parent") 2 [] [] [exDs (some "x") none 2] []))
      (fun g => decide (g.links.map Lnk.name = [some "x"] ∧ g.datasets.map Ds.name = [some "x"] ∧ getDataset g "x" = some (.inl (exDs (some "x") none 2)))) := by
  decide +kernel

/-- **C37 (violated by repeated names).** The constructor accepts two datasets of the same name; both stay in the list and only the
last one is resolved against the parent's. -/
theorem C37_repeated_fails :
    onOk (both (mkGrp none (some "Child") 1 [] [] [exDs (some "x") none 1, exDs (some "x") none 3] [])
        (mkGrp none (some "Parent") 2 [] [] [{ exDs (some "x") none 2 with attrs := mkAttrs [⟨"a", 2⟩] }] []))
      (fun g => decide (g.datasets.map (fun d => (d.name, d.body, d.attrs.items.map Attr.name)) = [(some "x", 1, []), (some "x", 3, ["a"])])) := by
  decide +kernel

/-- **C37 (violated by `is_inherited_type`).** A type that neither child nor parent mentions is reported as inherited (and as
overridden), although the documentation promises a ValueError; and a type the child uses under a name is reported as not inherited
although it inherits another spec of that type. -/
theorem C37_type_fails :
    onOk (both (mkGrp none (some "Child") 1 [] [] [exDs (some "x") (some "T") 1] []) (mkGrp none (some "Parent") 2 [] [] [exDs (some "y") (some "T") 2] []))
      (fun g => decide (isInheritedType g "Nowhere" = true ∧ isInheritedType g "T" = false ∧ g.datasets.map Ds.name = [some "x", some "y"])) := by
  decide +kernel

/-! ## Refinement of dtypes -/

/-- the numeric dtypes whose name starts like its kind: kind and number of bits -/
def sized : List (String × String × Nat) :=
  [("int8", "int", 8), ("int16", "int", 16), ("int32", "int", 32), ("int", "int", 32), ("int64", "int", 64),
   ("uint8", "uint", 8), ("uint16", "uint", 16), ("uint32", "uint", 32), ("uint", "uint", 32), ("uint64", "uint", 64),
   ("float32", "float", 32), ("float", "float", 32), ("float64", "float", 64)]

/-- **C56.** Among the numeric dtype names `int*`, `uint*`, `float*` one is accepted as a refinement of another iff it is of the same
kind and has at least as many bits. -/
theorem C56_numeric_partial : ∀ a ∈ sized, ∀ b ∈ sized,
    isSubDtype (.prim a.1) (.prim b.1) = .ok (decide (a.2.1 = b.2.1 ∧ a.2.2 ≤ b.2.2)) := by decide +kernel

/-- **C56 (violated for other names).** Only the first letter is compared: an integer may become a date, an unsigned integer a text, a
double a date, a boolean bytes; and the synonyms `short`/`int16`, `double`/`float64`, `long`/`int64` are refused for each other. -/
theorem C56_names_fails :
    isSubDtype (.prim "int8") (.prim "isodatetime") = .ok true ∧ isSubDtype (.prim "uint8") (.prim "utf") = .ok true ∧
    isSubDtype (.prim "double") (.prim "date") = .ok true ∧ isSubDtype (.prim "bool") (.prim "bytes") = .ok true ∧
    isSubDtype (.prim "int16") (.prim "short") = .ok false ∧ isSubDtype (.prim "float64") (.prim "double") = .ok false ∧
    isSubDtype (.prim "int64") (.prim "long") = .ok false := by decide +kernel

theorem getCol_setCol (l : List Col) (c : Col) (n : String) : getCol (setCol l c) n = if n = c.name then some c else getCol l n := by
  induction l with
  | nil =>
    simp only [setCol, getCol, List.find?_cons, List.find?_nil]
    by_cases h : c.name = n
    · simp [h]
    · simp [h, Ne.symm h]
  | cons x xs ih =>
    simp only [setCol]
    split
    · rename_i hx
      simp only [getCol, List.find?_cons]
      by_cases h : c.name = n
      · simp [h]
      · simp [h, Ne.symm h, hx]
    · rename_i hx
      simp only [getCol, List.find?_cons] at ih ⊢
      by_cases h : x.name = n
      · subst h; simp [hx]
      · simp only [h, decide_false]
        exact ih

theorem names_setCol (l : List Col) (c : Col) : (setCol l c).map Col.name = if c.name ∈ l.map Col.name then l.map Col.name else l.map Col.name ++ [c.name] := by
  induction l with
  | nil => simp [setCol]
  | cons x xs ih =>
    simp only [setCol]
    by_cases h : x.name = c.name
    · simp [h]
    · rw [if_neg h, List.map_cons, ih]
      by_cases h2 : c.name ∈ xs.map Col.name
      · rw [if_pos h2, if_pos (by simp [h2])]; simp
      · rw [if_neg h2, if_neg (by simp only [List.map_cons, List.mem_cons, not_or]; exact ⟨Ne.symm h, h2⟩)]; simp

theorem setCol_new (l : List Col) (c : Col) (h : c.name ∉ l.map Col.name) : setCol l c = l ++ [c] := by
  induction l with
  | nil => rfl
  | cons x xs ih =>
    simp only [List.map_cons, List.mem_cons, not_or] at h
    simp only [setCol, if_neg (Ne.symm h.1), ih h.2, List.cons_append]

theorem parentCols_nodup (l : List Col) (h : (l.map Col.name).Nodup) : parentCols l = l := by
  have : ∀ (l a : List Col), ((a ++ l).map Col.name).Nodup → l.foldl setCol a = a ++ l := by
    intro l
    induction l with
    | nil => intro a _; simp
    | cons x xs ih =>
      intro a ha
      rw [List.foldl_cons, setCol_new, ih]
      · simp
      · simpa using ha
      · simp only [List.map_append, List.map_cons, List.nodup_append, List.mem_cons] at ha
        intro hc
        exact ha.2.2 _ hc _ (Or.inl rfl) rfl
  have h1 := this l [] (by simpa using h)
  rw [List.nil_append] at h1
  exact h1

theorem getCol_mem {l : List Col} {n : String} (h : n ∈ l.map Col.name) : ∃ c, getCol l n = some c := by
  obtain ⟨c, hc, rfl⟩ := List.mem_map.1 h
  have : (l.find? (fun x => decide (x.name = c.name))).isSome := by
    rw [List.find?_isSome]; exact ⟨c, hc, by simp⟩
  exact Option.isSome_iff_exists.1 this

/-- **C56 (columns).** If the compound dtype of a child (with different column names) is accepted, then each of its columns that the
parent also has was accepted as a refinement of the parent's; the result has the parent's columns in their place followed by the
child's new columns, and a column is the child's if it has one of that name and the parent's otherwise.  In particular no column of
the parent is lost. -/
theorem C56_columns_partial (own inc cols : List Col) (ho : (own.map Col.name).Nodup) (hi : (inc.map Col.name).Nodup)
    (h : resolveDtype (.compound own) (.compound inc) = .ok (.compound cols)) :
    (∀ c ∈ own, ∀ o ∈ inc, o.name = c.name → isSubDtype o.dtype c.dtype = .ok true) ∧
    cols.map Col.name = inc.map Col.name ++ (own.map Col.name).filter (fun n => decide (n ∉ inc.map Col.name)) ∧
    (∀ n, getCol cols n = (getCol own n).or (getCol inc n)) := by
  have key : ∀ (own order cols : List Col), (own.map Col.name).Nodup → mergeCols order own = .ok cols →
      (∀ c ∈ own, ∀ o, getCol order c.name = some o → isSubDtype o.dtype c.dtype = .ok true) ∧
      cols.map Col.name = order.map Col.name ++ (own.map Col.name).filter (fun n => decide (n ∉ order.map Col.name)) ∧
      (∀ n, getCol cols n = (getCol own n).or (getCol order n)) := by
    intro own
    induction own with
    | nil =>
      intro order cols _ h
      simp only [mergeCols, Except.ok.injEq] at h
      subst h
      refine ⟨by simp, by simp, ?_⟩
      intro n; simp [getCol]
    | cons c cs ih =>
      intro order cols hn h
      simp only [List.map_cons, List.nodup_cons] at hn
      simp only [mergeCols] at h
      have fin : mergeCols (setCol order c) cs = .ok cols → (∀ o, getCol order c.name = some o → isSubDtype o.dtype c.dtype = .ok true) →
          (∀ x ∈ c :: cs, ∀ o, getCol order x.name = some o → isSubDtype o.dtype x.dtype = .ok true) ∧
          cols.map Col.name = order.map Col.name ++ ((c :: cs).map Col.name).filter (fun n => decide (n ∉ order.map Col.name)) ∧
          (∀ n, getCol cols n = (getCol (c :: cs) n).or (getCol order n)) := by
        intro hm hc
        obtain ⟨i1, i2, i3⟩ := ih _ _ hn.2 hm
        refine ⟨?_, ?_, ?_⟩
        · intro x hx o ho
          rcases List.mem_cons.1 hx with rfl | hx
          · exact hc o ho
          · refine i1 x hx o ?_
            rw [getCol_setCol, if_neg]
            · exact ho
            · intro he
              exact hn.1 (List.mem_map.2 ⟨x, hx, he⟩)
        · rw [i2, names_setCol, List.map_cons, List.filter_cons]
          split
          · rename_i hin
            simp [hin]
          · rename_i hin
            have : List.filter (fun n => decide (n ∉ List.map Col.name order ++ [c.name])) (List.map Col.name cs) =
                List.filter (fun n => decide (n ∉ List.map Col.name order)) (List.map Col.name cs) := by
              apply List.filter_congr
              intro n hn'
              have : n ≠ c.name := by rintro rfl; exact hn.1 hn'
              simp [this]
            rw [this]
            simp [hin]
        · intro n
          rw [i3, getCol_setCol]
          simp only [getCol, List.find?_cons]
          by_cases he : c.name = n
          · subst he
            have : cs.find? (fun x => decide (x.name = c.name)) = none := by
              rw [List.find?_eq_none]
              intro x hx
              simp only [decide_eq_true_eq]
              intro he
              exact hn.1 (List.mem_map.2 ⟨x, hx, he⟩)
            simp [this]
          · simp [he, Ne.symm he]
      cases hg : getCol order c.name with
      | none =>
        rw [hg] at h
        exact fin h (by intro o ho; simp [hg] at ho)
      | some o =>
        rw [hg] at h
        simp only at h
        cases hs : isSubDtype o.dtype c.dtype with
        | error e => rw [hs] at h; simp at h
        | ok b =>
          rw [hs] at h
          cases b with
          | false => simp at h
          | true =>
            simp only at h
            refine fin h ?_
            intro o' ho'
            rw [hg] at ho'
            simp only [Option.some.injEq] at ho'
            subst ho'; exact hs
  simp only [resolveDtype] at h
  rw [parentCols_nodup inc hi] at h
  cases hm : mergeCols inc own with
  | error e => rw [hm] at h; simp at h
  | ok cols' =>
    rw [hm] at h
    simp only [Except.ok.injEq, DsT.compound.injEq] at h
    subst h
    obtain ⟨k1, k2, k3⟩ := key own inc cols' ho hm
    refine ⟨?_, k2, k3⟩
    intro c hc o hoi hname
    refine k1 c hc o ?_
    have : ∀ (l : List Col), (l.map Col.name).Nodup → o ∈ l → getCol l o.name = some o := by
      intro l
      induction l with
      | nil => intro _ h; simp at h
      | cons x xs ih =>
        intro hn hm
        simp only [List.map_cons, List.nodup_cons] at hn
        simp only [getCol, List.find?_cons]
        rcases List.mem_cons.1 hm with rfl | hm
        · simp
        · have : x.name ≠ o.name := by
            intro he; exact hn.1 (he ▸ List.mem_map.2 ⟨o, hm, rfl⟩)
          simp only [this, decide_false]
          exact ih hn.2 hm
    rw [← hname]
    exact this inc hi hoi

example : resolveDtype (.compound [⟨"b", .prim "int64", 1⟩, ⟨"c", .prim "text", 1⟩]) (.compound [⟨"a", .prim "utf", 2⟩, ⟨"b", .prim "int32", 2⟩]) =
    .ok (.compound [⟨"a", .prim "utf", 2⟩, ⟨"b", .prim "int64", 1⟩, ⟨"c", .prim "text", 1⟩]) := by decide +kernel

/-- a narrower column is refused -/
example : resolveDtype (.compound [⟨"b", .prim "int16", 1⟩]) (.compound [⟨"b", .prim "int32", 2⟩]) = .error .valueError := by decide +kernel

/-- **C85.** A dataset spec that overrides one of its parent type keeps all attributes that the parent's has (its own definition of an
attribute takes precedence), and, if both dtypes are compound, all columns. -/
theorem C85_override_partial (own inc d : Ds) (hi : (inc.attrs.items.map Attr.name).Nodup) (hoa : (own.attrs.items.map Attr.name).Nodup)
    (h : resolveDs own inc = .ok d) :
    (∀ n, getAttr d.attrs n = (getAttr own.attrs n).or (getAttr inc.attrs n)) ∧
    (∀ co ci, own.dtype = .compound co → inc.dtype = .compound ci → (co.map Col.name).Nodup → (ci.map Col.name).Nodup →
      ∃ cols, d.dtype = .compound cols ∧ ∀ n ∈ ci.map Col.name, n ∈ cols.map Col.name) := by
  simp only [resolveDs] at h
  cases hd : resolveDtype own.dtype inc.dtype with
  | error e => rw [hd] at h; simp at h
  | ok dtype =>
    rw [hd] at h
    simp only [Except.ok.injEq] at h
    subst h
    refine ⟨(resolveAttrs_spec _ _ hi hoa).2.1, ?_⟩
    intro co ci h1 h2 n1 n2
    rw [h1, h2] at hd
    have hsh : ∃ cols, dtype = .compound cols := by
      simp only [resolveDtype] at hd
      cases hm : mergeCols (parentCols ci) co with
      | error e => rw [hm] at hd; simp at hd
      | ok cols => rw [hm] at hd; simp only [Except.ok.injEq] at hd; exact ⟨cols, hd.symm⟩
    obtain ⟨cols, rfl⟩ := hsh
    obtain ⟨-, k2, -⟩ := C56_columns_partial co ci cols n1 n2 hd
    exact ⟨cols, rfl, fun n hn => by rw [k2]; exact List.mem_append_left _ hn⟩

example : ∃ d, resolveDs ⟨some "x", none, 1, .compound [⟨"b", .prim "int64", 1⟩], mkAttrs [⟨"u", 1⟩]⟩
    ⟨some "x", none, 2, .compound [⟨"a", .prim "utf", 2⟩, ⟨"b", .prim "int32", 2⟩], mkAttrs [⟨"u", 2⟩, ⟨"v", 2⟩]⟩ = .ok d ∧
    d.attrs.items = [⟨"u", 1⟩, ⟨"v", 2⟩] ∧ d.dtype = .compound [⟨"a", .prim "utf", 2⟩, ⟨"b", .prim "int64", 1⟩] :=
  ⟨⟨some "x", none, 1, .compound [⟨"a", .prim "utf", 2⟩, ⟨"b", .prim "int64", 1⟩], resolveAttrs (mkAttrs [⟨"u", 1⟩]) [⟨"u", 2⟩, ⟨"v", 2⟩]⟩,
    by decide +kernel, by decide +kernel, by decide +kernel⟩

/-- **C85 (violated for the other properties).** A dataset spec that overrides the parent's without repeating its dtype has no dtype
(any data is accepted), and one with a simple dtype may replace any other: `text` by `float`, and a compound dtype by a simple one. -/
theorem C85_dtype_fails :
    (∃ d, resolveDs (exDs (some "x") none 1) { exDs (some "x") none 2 with dtype := .simple (.prim "float64") } = .ok d ∧ d.dtype = .any) ∧
    (∃ d, resolveDs { exDs (some "x") none 1 with dtype := .simple (.prim "float32") } { exDs (some "x") none 2 with dtype := .simple (.prim "text") } = .ok d ∧
      d.dtype = .simple (.prim "float32")) ∧
    (∃ d, resolveDs { exDs (some "x") none 1 with dtype := .simple (.prim "text") }
        { exDs (some "x") none 2 with dtype := .compound [⟨"a", .prim "utf", 2⟩] } = .ok d ∧ d.dtype = .simple (.prim "text")) :=
  ⟨⟨_, rfl, rfl⟩, ⟨_, rfl, rfl⟩, ⟨_, rfl, rfl⟩⟩

end Verif.Spec

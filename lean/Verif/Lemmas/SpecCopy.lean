import Verif.Model.SpecCopy
import Verif.Props.Spec

/-!
# Lemmas on the copies of specs: resolving a resolved spec again
-/

namespace Verif.SpecCopy
open Verif Spec

/-! ## Contents -/

theorem copies_map : ∀ (l : List Grp), Grp.copies l = l.map Grp.copy
  | [] => rfl
  | g :: gs => by simp only [Grp.copies, List.map_cons, copies_map gs]

theorem ds_copy_copy (d : Ds) : dsKind.copy (dsKind.copy d) = dsKind.copy d := rfl

mutual
theorem copy_copy : ∀ (g : Grp), g.copy.copy = g.copy
  | ⟨name, dt, body, attrs, datasets, groups, links, dts, tts, _, _, _, _, _, _, _, _⟩ => by
    have h1 := copies_copy groups
    have h2 : (Grp.copies groups).filterMap Grp.name = groups.filterMap Grp.name := by
      rw [copies_map, List.filterMap_map]
      exact congrArg (fun f => groups.filterMap f) (funext copy_name)
    have h3 : names dsKind (datasets.map dsKind.copy) = names dsKind datasets := by
      unfold names
      rw [List.filterMap_map]
      rfl
    simp only [Grp.copy, h1, h2, h3, List.map_map]
    rfl
theorem copies_copy : ∀ (l : List Grp), Grp.copies (Grp.copies l) = Grp.copies l
  | [] => rfl
  | g :: gs => by simp only [Grp.copies, copy_copy g, copies_copy gs]
end

/-- the parts of a spec -/
theorem copy_parts {z z' : Grp} (h : z'.copy = z.copy) : z'.name = z.name ∧ z'.dt = z.dt ∧ z'.body = z.body ∧
    z'.attrs.items = z.attrs.items ∧ z'.datasets.map dsKind.copy = z.datasets.map dsKind.copy ∧
    z'.groups.map Grp.copy = z.groups.map Grp.copy ∧ z'.links = z.links ∧ z'.dts = z.dts ∧ z'.tts = z.tts := by
  cases z; cases z'
  simp only [Grp.copy, Grp.mk.injEq, copies_map, copyAttrs, Attrs.mk.injEq] at h
  obtain ⟨h1, h2, h3, h4, h5, h6, h7, h8, h9, _⟩ := h
  exact ⟨h1, h2, h3, h4.1, h5, h6, h7, h8, h9⟩

theorem filterMap_copy (l : List Grp) : (l.map Grp.copy).filterMap Grp.name = l.filterMap Grp.name := by
  rw [List.filterMap_map]
  exact congrArg (fun f => l.filterMap f) (funext copy_name)

theorem names_copy (l : List Ds) : names dsKind (l.map dsKind.copy) = names dsKind l := by
  unfold names
  rw [List.filterMap_map]
  rfl

theorem copy_of_parts {z z' : Grp} (h1 : z'.name = z.name) (h2 : z'.dt = z.dt) (h3 : z'.body = z.body)
    (h4 : z'.attrs.items = z.attrs.items) (h5 : z'.datasets.map dsKind.copy = z.datasets.map dsKind.copy)
    (h6 : z'.groups.map Grp.copy = z.groups.map Grp.copy) (h7 : z'.links = z.links) (h8 : z'.dts = z.dts) (h9 : z'.tts = z.tts) :
    z'.copy = z.copy := by
  have e1 : names dsKind z'.datasets = names dsKind z.datasets := by rw [← names_copy, h5, names_copy]
  have e2 : z'.groups.filterMap Grp.name = z.groups.filterMap Grp.name := by rw [← filterMap_copy, h6, filterMap_copy]
  cases z; cases z'
  simp only at h1 h2 h3 h4 h5 h6 h7 h8 h9 e1 e2
  subst h1 h2 h3 h7 h8 h9
  simp only [Grp.copy, copies_map, copyAttrs, h4, h5, h6, e1, e2]

/-! ## Resolving against what is there already -/

theorem updLast_same {α : Type} {c : α → α} {p : α → Bool} {h : α → Except Err α} : ∀ (l : List α),
    (∀ y ∈ l, p y = true → ∃ w, h y = .ok w ∧ c w = c y) → ∃ l', updLast p h l = .ok l' ∧ l'.map c = l.map c
  | [], _ => ⟨[], rfl, rfl⟩
  | x :: xs, hh => by
    unfold updLast
    split
    · rename_i hp
      simp only [Bool.and_eq_true] at hp
      obtain ⟨w, h1, h2⟩ := hh x (List.mem_cons_self ..) hp.1
      rw [h1]
      exact ⟨w :: xs, rfl, by simp [h2]⟩
    · obtain ⟨l', h1, h2⟩ := updLast_same (c := c) (p := p) (h := h) xs (fun y hy => hh y (List.mem_cons_of_mem _ hy))
      rw [h1]
      exact ⟨x :: l', rfl, by simp [h2]⟩

theorem mem_of_map_eq {α : Type} {c : α → α} {l l' : List α} (h : l'.map c = l.map c) {y : α} (hy : y ∈ l') : ∃ y0 ∈ l, c y = c y0 := by
  have : c y ∈ l.map c := h ▸ List.mem_map_of_mem hy
  obtain ⟨y0, h0, h1⟩ := List.mem_map.1 this
  exact ⟨y0, h0, h1.symm⟩

theorem names_of_map_eq {α : Type} {k : Kind α} (hk : k.Ok) {l l' : List α} (h : l'.map k.copy = l.map k.copy) :
    names k l' = names k l := by
  have e : ∀ (l : List α), names k (l.map k.copy) = names k l := by
    intro l
    unfold names
    rw [List.filterMap_map]
    exact congrArg (fun f => l.filterMap f) (funext hk.copy_name)
  rw [← e l', h, e l]

/-- `y` already has what it would inherit from `x` -/
def Absorbs {α : Type} (k : Kind α) (y x : α) : Prop :=
  ∀ y', k.copy y' = k.copy y → ∃ w, k.res y' x = .ok w ∧ k.copy w = k.copy y

theorem resNamed_same {α : Type} {k : Kind α} (hk : k.Ok) : ∀ (xs : List α) (s : Spec.Sub α) (t : Tab),
    (∀ x ∈ xs, ∀ n, k.name x = some n → n ∈ names k s.items ∧ ∀ y ∈ s.items, k.name y = some n → Absorbs k y x) →
    ∃ s', resNamed k s t xs = .ok (s', t) ∧ s'.items.map k.copy = s.items.map k.copy
  | [], s, t, _ => ⟨s, rfl, rfl⟩
  | x :: xs, s, t, h => by
    unfold resNamed
    cases hx : k.name x with
    | none => exact resNamed_same hk xs s t (fun y hy => h y (List.mem_cons_of_mem _ hy))
    | some n =>
      obtain ⟨h1, h2⟩ := h x (List.mem_cons_self ..) n hx
      obtain ⟨l', u1, u2⟩ := updLast_same (c := k.copy) (p := fun y => k.name y == some n) (h := fun y => k.res y x) s.items
        (fun y hy hp => by
          obtain ⟨w, w1, w2⟩ := h2 y hy (by simpa using hp) y rfl
          exact ⟨w, w1, w2⟩)
      simp only [if_pos h1, u1]
      obtain ⟨s', v1, v2⟩ := resNamed_same hk xs ⟨l', discard s.new n, n :: s.over⟩ t (fun y hy m hm => by
        obtain ⟨a, b⟩ := h y (List.mem_cons_of_mem _ hy) m hm
        refine ⟨by rw [names_of_map_eq hk u2]; exact a, fun z hz hzn => ?_⟩
        obtain ⟨z0, c1, c2⟩ := mem_of_map_eq u2 hz
        have hz0 : k.name z0 = some m := by rw [← hk.copy_name z0, ← c2, hk.copy_name, hzn]
        intro z' hz'
        rw [c2] at hz' ⊢
        exact b z0 c1 hz0 z' hz')
      exact ⟨s', v1, v2.trans u2⟩

theorem resTyped_same {α : Type} {k : Kind α} : ∀ (xs items : List α) (t : Tab) (nt : List String),
    (∀ x ∈ xs, k.name x = none → ∃ dt, k.dt x = some dt ∧ hasUn t dt) → ∃ nt', resTyped k items t nt xs = .ok (items, t, nt')
  | [], items, t, nt, _ => ⟨nt, rfl⟩
  | x :: xs, items, t, nt, h => by
    have ih := fun nt => resTyped_same xs items t nt (fun y hy => h y (List.mem_cons_of_mem _ hy))
    unfold resTyped
    cases hx : k.name x with
    | some n => exact ih nt
    | none =>
      obtain ⟨dt, h1, h2⟩ := h x (List.mem_cons_self ..) hx
      simp only [h1]
      rw [if_pos (show Dict.get? t dt = some (Entry.one none) from h2)]
      exact ih _

theorem resolveAttrs_same : ∀ (as : List Attr) (s : Attrs), (∀ a ∈ as, a.name ∈ s.items.map Attr.name) →
    (resolveAttrs s as).items = s.items
  | [], _, _ => rfl
  | a :: as, s, h => by
    unfold resolveAttrs
    simp only [if_pos (h a (List.mem_cons_self ..))]
    exact resolveAttrs_same as ⟨s.items, _, _⟩ (fun b hb => h b (List.mem_cons_of_mem _ hb))

/-- a spec that has all a parent has does not change when it is resolved -/
theorem absorbs_step {f : Nat} {z x : Grp}
    (hd : ∀ b ∈ x.datasets, ∀ n, b.name = some n → n ∈ names dsKind z.datasets ∧ ∀ c ∈ z.datasets, c.name = some n → Absorbs dsKind c b)
    (hg : ∀ b ∈ x.groups, ∀ n, b.name = some n → n ∈ z.groups.filterMap Grp.name ∧
      ∀ c ∈ z.groups, c.name = some n → Absorbs (grpKind (resolve f)) c b)
    (hl : ∀ b ∈ x.links, ∀ n, b.name = some n → n ∈ names lnkKind z.links)
    (td : ∀ b ∈ x.datasets, b.name = none → ∃ dt, b.dt = some dt ∧ hasUn z.dts dt)
    (tg : ∀ b ∈ x.groups, b.name = none → ∃ dt, b.dt = some dt ∧ hasUn z.dts dt)
    (tl : ∀ b ∈ x.links, b.name = none → hasUn z.tts b.target)
    (ha : ∀ a ∈ x.attrs.items, a.name ∈ z.attrs.items.map Attr.name) : Absorbs (grpKind (resolve (f + 1))) z x := by
  intro z' hz'
  obtain ⟨p1, p2, p3, p4, p5, p6, p7, p8, p9⟩ := copy_parts hz'
  obtain ⟨ds, d1, d2⟩ := resNamed_same dsKind_ok x.datasets ⟨z'.datasets, z'.newDs, z'.overDs⟩ z'.dts (fun b hb n hn => by
    obtain ⟨a1, a2⟩ := hd b hb n hn
    refine ⟨by rw [names_of_map_eq dsKind_ok p5]; exact a1, fun c hc hcn => ?_⟩
    obtain ⟨c0, e1, e2⟩ := mem_of_map_eq p5 hc
    have : c0.name = some n := by
      rw [← hcn]; exact (congrArg Ds.name e2).symm
    intro y hy
    rw [e2] at hy ⊢
    exact a2 c0 e1 this y hy)
  obtain ⟨gs, g1, g2⟩ := resNamed_same (grpKind_ok f) x.groups ⟨z'.groups, z'.newGr, z'.overGr⟩ z'.dts (fun b hb n hn => by
    obtain ⟨a1, a2⟩ := hg b hb n hn
    refine ⟨by rw [names_of_map_eq (grpKind_ok f) p6]; exact a1, fun c hc hcn => ?_⟩
    obtain ⟨c0, e1, e2⟩ := mem_of_map_eq p6 hc
    have : c0.name = some n := by
      have h1 := copy_name c0
      have h2 := copy_name c
      rw [← h1, ← e2, h2]; exact hcn
    intro y hy
    have e2' : (grpKind (resolve f)).copy c = (grpKind (resolve f)).copy c0 := e2
    rw [e2'] at hy ⊢
    exact a2 c0 e1 this y hy)
  obtain ⟨ls, l1, l2⟩ := resNamed_same lnkKind_ok x.links ⟨z'.links, z'.newLn, z'.overLn⟩ z'.tts (fun b hb n hn => by
    refine ⟨by rw [p7]; exact hl b hb n hn, fun c _ _ y hy => ⟨y, rfl, hy⟩⟩)
  have l2' : ls.items = z'.links := by
    have e : ∀ l : List Lnk, l.map lnkKind.copy = l := fun l => List.map_id l
    rw [e, e] at l2
    exact l2
  obtain ⟨n1, t1⟩ := resTyped_same (k := dsKind) x.datasets ds.items z'.dts z'.newDt (by rw [p8]; exact td)
  obtain ⟨n2, t2⟩ := resTyped_same (k := grpKind (resolve f)) x.groups gs.items z'.dts n1 (by rw [p8]; exact tg)
  obtain ⟨n3, t3⟩ := resTyped_same (k := lnkKind) x.links ls.items z'.tts z'.newTt (by
    rw [p9]; exact fun b hb hn => ⟨b.target, rfl, tl b hb hn⟩)
  have hr : resolve (f + 1) z' x = .ok
      { z' with
        attrs := resolveAttrs z'.attrs x.attrs.items
        datasets := ds.items, groups := gs.items, links := ls.items, dts := z'.dts, tts := z'.tts
        newDs := ds.new, overDs := ds.over, newGr := gs.new, overGr := gs.over, newLn := ls.new, overLn := ls.over
        newDt := n2, newTt := n3 } := by
    unfold resolve
    simp only [d1, g1, l1, t1, t2, t3]
  refine ⟨_, hr, ?_⟩
  · refine copy_of_parts (by exact p1) (by exact p2) (by exact p3) ?_ (by exact d2.trans p5) (by exact g2.trans p6) (by exact l2'.trans p7)
      (by exact p8) (by exact p9)
    show (resolveAttrs z'.attrs x.attrs.items).items = z.attrs.items
    rw [resolveAttrs_same _ _ (by rw [p4]; exact ha), p4]

/-! ## Datasets -/

/-- no repeated attributes and columns -/
structure WfDs (d : Ds) : Prop where
  attrs : (d.attrs.items.map Attr.name).Nodup
  cols : ∀ cs, d.dtype = .compound cs → (cs.map Col.name).Nodup

theorem isSub_refl (d : DT) : isSubDtype d d = .ok true := by
  cases d with
  | prim s => simp [isSubDtype]
  | ref b => simp [isSubDtype]

/-- columns that are all refinements, in the same places, followed by others -/
theorem mergeCols_same : ∀ (A B P : List Col) (l : List Col), l.map Col.name = A.map Col.name → ((P ++ A ++ B).map Col.name).Nodup →
    (∀ c ∈ A, ∀ o ∈ l, o.name = c.name → isSubDtype o.dtype c.dtype = .ok true) → mergeCols (P ++ l) (A ++ B) = .ok (P ++ A ++ B)
  | [], B, P, l, hl, hn, _ => by
    simp only [List.map_nil, List.map_eq_nil_iff] at hl
    subst hl
    simp only [List.append_nil, List.nil_append] at hn ⊢
    induction B generalizing P with
    | nil => simp [mergeCols]
    | cons b B ih =>
      have hb : b.name ∉ P.map Col.name := by
        simp only [List.map_append, List.map_cons] at hn
        intro h
        exact (List.nodup_append.1 hn).2.2 _ h _ (List.mem_cons_self ..) rfl
      have hg : getCol P b.name = none := by
        unfold getCol
        rw [List.find?_eq_none]
        intro c hc hcn
        simp only [decide_eq_true_eq] at hcn
        exact hb (hcn ▸ List.mem_map_of_mem hc)
      unfold mergeCols
      simp only [hg]
      rw [setCol_new _ _ hb, ih (P ++ [b]) (by simpa using hn)]
      simp
  | a :: A, B, P, l, hl, hn, hs => by
    cases l with
    | nil => cases hl
    | cons o l =>
      simp only [List.map_cons, List.cons.injEq] at hl
      have haP : a.name ∉ P.map Col.name := by
        simp only [List.map_append, List.map_cons] at hn
        intro h
        exact (List.nodup_append.1 (List.nodup_append.1 hn).1).2.2 _ h _ (List.mem_cons_self ..) rfl
      have hg : getCol (P ++ o :: l) a.name = some o := by
        unfold getCol
        rw [List.find?_append, List.find?_eq_none.2 (by
          intro c hc hcn
          simp only [decide_eq_true_eq] at hcn
          exact haP (hcn ▸ List.mem_map_of_mem hc))]
        simp [hl.1]
      have hset : ∀ (Q : List Col), a.name ∉ Q.map Col.name → setCol (Q ++ o :: l) a = Q ++ a :: l := by
        intro Q hQ
        induction Q with
        | nil => simp [setCol, hl.1]
        | cons q Q ih =>
          simp only [List.map_cons, List.mem_cons, not_or] at hQ
          simp only [List.cons_append, setCol, if_neg (Ne.symm hQ.1), ih hQ.2]
      have h1 := hs a (List.mem_cons_self ..) o (List.mem_cons_self ..) hl.1
      simp only [List.cons_append]
      unfold mergeCols
      simp only [hg, h1, hset P haP]
      have := mergeCols_same A B (P ++ [a]) l hl.2 (by simpa using hn)
        (fun c hc o' ho' => hs c (List.mem_cons_of_mem _ hc) o' (List.mem_cons_of_mem _ ho'))
      simp only [List.append_assoc, List.singleton_append] at this ⊢
      exact this

theorem resolveDtype_self {d : DsT} (h : ∀ cs, d = .compound cs → (cs.map Col.name).Nodup) : resolveDtype d d = .ok d := by
  cases d with
  | any => rfl
  | simple s => cases s <;> rfl
  | compound cs =>
    have hn := h cs rfl
    simp only [resolveDtype, parentCols_nodup cs hn]
    have := mergeCols_same cs [] [] cs rfl (by simpa using hn) (fun c hc o ho he => by
      have : o = c := by
        induction cs with
        | nil => cases hc
        | cons x xs ih =>
          simp only [List.map_cons, List.nodup_cons] at hn
          rcases List.mem_cons.1 hc with rfl | hc <;> rcases List.mem_cons.1 ho with rfl | ho
          · rfl
          · exact (hn.1 (he ▸ List.mem_map_of_mem ho)).elim
          · rename_i hc'
            exact (hn.1 (he.symm ▸ List.mem_map_of_mem hc')).elim
          · exact ih (fun cs' h' => by cases h'; exact hn.2) hn.2 hc ho
      rw [this]
      exact isSub_refl _)
    simp only [List.nil_append, List.append_nil] at this
    rw [this]

theorem resolveDtype_again {a b d : DsT} (ha : ∀ cs, a = .compound cs → (cs.map Col.name).Nodup)
    (hb : ∀ cs, b = .compound cs → (cs.map Col.name).Nodup) (h : resolveDtype a b = .ok d) : resolveDtype d b = .ok d := by
  cases a with
  | any => cases h; rfl
  | simple s => cases h; rfl
  | compound own =>
    have hown := ha own rfl
    cases b with
    | any =>
      simp only [resolveDtype] at h
      have e := mergeCols_same [] own [] [] rfl (by simpa using hown) (by simp)
      simp only [List.nil_append] at e
      rw [e] at h
      cases h
      simp only [resolveDtype, e]
    | simple s => cases s <;> cases h
    | compound inc =>
      have hinc := hb inc rfl
      cases hm : mergeCols (parentCols inc) own with
      | error e => simp only [resolveDtype, hm] at h; cases h
      | ok cols =>
        have h' : resolveDtype (.compound own) (.compound inc) = .ok (.compound cols) := by simp only [resolveDtype, hm]
        rw [h'] at h
        cases h
        obtain ⟨c1, c2, c3⟩ := C56_columns_partial own inc cols hown hinc h'
        have hsplit : ∃ A B, cols = A ++ B ∧ A.map Col.name = inc.map Col.name := by
          refine ⟨cols.take inc.length, cols.drop inc.length, (List.take_append_drop ..).symm, ?_⟩
          rw [List.map_take, c2]
          simp
        obtain ⟨A, B, rfl, hA⟩ := hsplit
        have hnod : ((A ++ B).map Col.name).Nodup := by
          rw [c2]
          refine List.nodup_append.2 ⟨hinc, hown.filter _, ?_⟩
          intro x hx y hy e
          subst e
          simp only [List.mem_filter, decide_eq_true_eq] at hy
          exact hy.2 hx
        simp only [resolveDtype, parentCols_nodup inc hinc]
        have := mergeCols_same A B [] inc hA.symm (by simpa using hnod) (fun c hc o ho he => by
          -- the column is the own one, or that of the parent
          have hget : getCol (A ++ B) c.name = some c := by
            have : ∀ (l : List Col), (l.map Col.name).Nodup → c ∈ l → getCol l c.name = some c := by
              intro l
              induction l with
              | nil => intro _ h; cases h
              | cons x xs ih =>
                intro hn hm
                simp only [List.map_cons, List.nodup_cons] at hn
                rcases List.mem_cons.1 hm with rfl | hm
                · simp [getCol]
                · have hne : x.name ≠ c.name := fun e => hn.1 (e ▸ List.mem_map_of_mem hm)
                  have := ih hn.2 hm
                  simp only [getCol] at this ⊢
                  rw [List.find?_cons_of_neg (by simpa using hne), this]
            exact this _ hnod (List.mem_append_left _ hc)
          have hgo : getCol inc o.name = some o := by
            have : ∀ (l : List Col), (l.map Col.name).Nodup → o ∈ l → getCol l o.name = some o := by
              intro l
              induction l with
              | nil => intro _ h; cases h
              | cons x xs ih =>
                intro hn hm
                simp only [List.map_cons, List.nodup_cons] at hn
                rcases List.mem_cons.1 hm with rfl | hm
                · simp [getCol]
                · have hne : x.name ≠ o.name := fun e => hn.1 (e ▸ List.mem_map_of_mem hm)
                  have := ih hn.2 hm
                  simp only [getCol] at this ⊢
                  rw [List.find?_cons_of_neg (by simpa using hne), this]
            exact this _ hinc ho
          rw [c3, ← he, hgo] at hget
          cases hoc : getCol own o.name with
          | none =>
            rw [hoc] at hget
            cases hget
            exact isSub_refl _
          | some c' =>
            rw [hoc] at hget
            cases hget
            have hmem : c ∈ own := List.mem_of_find?_eq_some hoc
            exact c1 c hmem o ho he)
        simp only [List.nil_append] at this
        rw [this]

theorem ds_parts {c c' : Ds} (h : dsKind.copy c' = dsKind.copy c) : c'.name = c.name ∧ c'.dt = c.dt ∧ c'.body = c.body ∧
    c'.dtype = c.dtype ∧ c'.attrs.items = c.attrs.items := by
  cases c; cases c'
  simp only [dsKind, copyAttrs, Ds.mk.injEq, Attrs.mk.injEq] at h
  obtain ⟨h1, h2, h3, h4, h5⟩ := h
  exact ⟨h1, h2, h3, h4, h5.1⟩

theorem ds_of_parts {c c' : Ds} (h1 : c'.name = c.name) (h2 : c'.dt = c.dt) (h3 : c'.body = c.body) (h4 : c'.dtype = c.dtype)
    (h5 : c'.attrs.items = c.attrs.items) : dsKind.copy c' = dsKind.copy c := by
  cases c; cases c'
  simp only at h1 h2 h3 h4 h5
  subst h1 h2 h3 h4
  simp only [dsKind, copyAttrs, h5]

theorem absorbsDs_of {c b : Ds} (hd : resolveDtype c.dtype b.dtype = .ok c.dtype) (ha : ∀ a ∈ b.attrs.items, a.name ∈ c.attrs.items.map Attr.name) :
    Absorbs dsKind c b := by
  intro c' hc'
  obtain ⟨h1, h2, h3, h4, h5⟩ := ds_parts hc'
  refine ⟨{ c' with dtype := c.dtype, attrs := resolveAttrs c'.attrs b.attrs.items }, ?_, ?_⟩
  · show resolveDs c' b = _
    simp only [resolveDs, h4, hd]
  · refine ds_of_parts (by exact h1) (by exact h2) (by exact h3) rfl ?_
    show (resolveAttrs c'.attrs b.attrs.items).items = _
    rw [resolveAttrs_same _ _ (by rw [h5]; exact ha), h5]

theorem absorbsDs_self {b : Ds} (hb : WfDs b) : Absorbs dsKind b b :=
  absorbsDs_of (resolveDtype_self hb.cols) (fun _ ha => List.mem_map_of_mem ha)

theorem absorbsDs_res {a b c : Ds} (ha : WfDs a) (hb : WfDs b) (h : resolveDs a b = .ok c) : Absorbs dsKind c b := by
  unfold resolveDs at h
  split at h
  · cases h
  · rename_i dtype hd
    cases h
    refine absorbsDs_of (resolveDtype_again ha.cols hb.cols hd) (fun x hx => ?_)
    exact ((resolveAttrs_spec b.attrs.items a.attrs hb.attrs ha.attrs).2.2.1 x.name).2 (.inr (List.mem_map_of_mem hx))

theorem absorbs_congr {α : Type} {k : Kind α} {y y' x : α} (h : k.copy y' = k.copy y) (ha : Absorbs k y x) : Absorbs k y' x := by
  intro z hz
  rw [h] at hz ⊢
  exact ha z hz

/-! ## Groups -/

/-- at each level: different names, a type for what has no name, well-formed datasets -/
inductive Deep : Grp → Prop
  | mk {g : Grp} (hw : Wf g) (hd : ∀ d ∈ g.datasets, WfDs d) (td : ∀ d ∈ g.datasets, d.name = none → d.dt ≠ none)
      (tg : ∀ x ∈ g.groups, x.name = none → x.dt ≠ none) (hg : ∀ x ∈ g.groups, Deep x) : Deep g

/-- the named subgroups are nested at most as deep as the recursion may go -/
def Fits : Nat → Grp → Prop
  | 0, _ => False
  | f + 1, g => ∀ x ∈ g.groups, x.name ≠ none → Fits f x

theorem one_of_filter {α : Type} {k : Kind α} {l : List α} {n : String} (hu : (l.filter (isN k n)).length ≤ 1) {x y : α} (hx : x ∈ l)
    (hy : y ∈ l) (hxn : k.name x = some n) (hyn : k.name y = some n) : x = y := by
  have h1 : x ∈ l.filter (isN k n) := List.mem_filter.2 ⟨hx, by simp [isN, hxn]⟩
  have h2 : y ∈ l.filter (isN k n) := List.mem_filter.2 ⟨hy, by simp [isN, hyn]⟩
  generalize l.filter (isN k n) = m at hu h1 h2
  match m, hu with
  | [], _ => cases h1
  | [a], _ =>
    rw [List.mem_singleton] at h1 h2
    rw [h1, h2]
  | _ :: _ :: _, hu => simp at hu

theorem un_ds {g : Grp} {d : Ds} {dt : String} (hd : d ∈ g.datasets) (hn : d.name = none) (ht : d.dt = some dt) : dsOf g dt ≠ [] := by
  intro e
  have : d ∈ dsOf g dt := List.mem_filter.2 ⟨hd, by simp [hn, ht]⟩
  rw [e] at this
  cases this

theorem un_gr {g : Grp} {d : Grp} {dt : String} (hd : d ∈ g.groups) (hn : d.name = none) (ht : d.dt = some dt) : grOf g dt ≠ [] := by
  intro e
  have : d ∈ grOf g dt := List.mem_filter.2 ⟨hd, by simp [hn, ht]⟩
  rw [e] at this
  cases this

theorem un_ln {g : Grp} {d : Lnk} (hd : d ∈ g.links) (hn : d.name = none) : lnOf g d.target ≠ [] := by
  intro e
  have : d ∈ lnOf g d.target := List.mem_filter.2 ⟨hd, by simp [hn]⟩
  rw [e] at this
  cases this

theorem some_of_ne {o : Option String} (h : o ≠ none) : ∃ s, o = some s := by
  cases o with
  | none => exact (h rfl).elim
  | some s => exact ⟨s, rfl⟩

/-- a spec inherits nothing new from itself -/
theorem absorbs_self : ∀ (f : Nat) (x : Grp), Deep x → Fits f x → Absorbs (grpKind (resolve f)) x x
  | 0, _, _, hf => hf.elim
  | f + 1, x, hx, hf => by
    obtain ⟨hw, hd, td, tg, hg⟩ := hx
    refine absorbs_step ?_ ?_ ?_ ?_ ?_ ?_ ?_
    · intro b hb n hn
      refine ⟨List.mem_filterMap.2 ⟨b, hb, hn⟩, fun c hc hcn => ?_⟩
      rw [one_of_filter (k := dsKind) (hw.uniq.1 n) hc hb hcn hn]
      exact absorbsDs_self (hd b hb)
    · intro b hb n hn
      refine ⟨List.mem_filterMap.2 ⟨b, hb, hn⟩, fun c hc hcn => ?_⟩
      rw [one_of_filter (k := grpKind (resolve f)) (hw.uniq.2.1 n) hc hb hcn hn]
      exact absorbs_self f b (hg b hb) (hf b hb (by rw [hn]; simp))
    · intro b hb n hn
      exact List.mem_filterMap.2 ⟨b, hb, hn⟩
    · intro b hb hn
      obtain ⟨dt, h⟩ := some_of_ne (td b hb hn)
      exact ⟨dt, h, (hw.un dt).2 (.inl (un_ds hb hn h))⟩
    · intro b hb hn
      obtain ⟨dt, h⟩ := some_of_ne (tg b hb hn)
      exact ⟨dt, h, (hw.un dt).2 (.inr (un_gr hb hn h))⟩
    · intro b hb hn
      exact (hw.lnk _).2 (un_ln hb hn)
    · exact fun a ha => List.mem_map_of_mem ha

theorem comb_mem {α : Type} {k : Kind α} {own inc res : List α} {n : String} (hc : Comb k (own.filter (isN k n)) (inc.filter (isN k n))
    (res.filter (isN k n))) {b : α} (hb : b ∈ inc) (hn : k.name b = some n) :
    (∃ a c, a ∈ own ∧ k.name a = some n ∧ k.res a b = .ok c ∧ res.filter (isN k n) = [c]) ∨ res.filter (isN k n) = [k.copy b] := by
  have hm : b ∈ inc.filter (isN k n) := List.mem_filter.2 ⟨hb, by simp [isN, hn]⟩
  rcases hc with ⟨d, x, d', h1, h2, h3, h4⟩ | ⟨d, h1, h2, h3⟩ | ⟨x, h1, h2, h3⟩ | ⟨h1, h2, h3⟩
  · rw [h2, List.mem_singleton] at hm
    subst hm
    have hd : d ∈ own.filter (isN k n) := by rw [h1]; simp
    have := List.mem_filter.1 hd
    exact .inl ⟨d, d', this.1, by simpa [isN] using this.2, h3, h4⟩
  · rw [h2] at hm; cases hm
  · rw [h2, List.mem_singleton] at hm
    subst hm
    exact .inr h3
  · rw [h2] at hm; cases hm

theorem mem_res {α : Type} {k : Kind α} {res : List α} {n : String} {c : α} (h : res.filter (isN k n) = [c]) :
    n ∈ names k res ∧ ∀ c' ∈ res, k.name c' = some n → c' = c := by
  constructor
  · rw [mem_names, h]; simp
  · intro c' hc' hn
    have : c' ∈ res.filter (isN k n) := List.mem_filter.2 ⟨hc', by simp [isN, hn]⟩
    rw [h, List.mem_singleton] at this
    exact this

/-- a resolved spec inherits nothing new -/
theorem absorbs_res : ∀ (f : Nat) (y x z : Grp), Deep y → Deep x → Fits f x → resolve f y x = .ok z →
    Absorbs (grpKind (resolve f)) z x
  | 0, _, _, _, _, _, hf, _ => hf.elim
  | f + 1, y, x, z, hy, hx, hf, h => by
    obtain ⟨wy, dy, tdy, tgy, gy⟩ := hy
    obtain ⟨wx, dx, tdx, tgx, gx⟩ := hx
    obtain ⟨⟨n1, n2, n3⟩, -, -, ⟨u1, u2, -⟩, ha⟩ := resolve_spec wy wx h
    refine absorbs_step ?_ ?_ ?_ ?_ ?_ ?_ ?_
    · intro b hb n hn
      rcases comb_mem (n1 n) hb hn with ⟨a, c, a1, a2, a3, a4⟩ | a4
      · obtain ⟨m1, m2⟩ := mem_res a4
        refine ⟨m1, fun c' hc' hn' => ?_⟩
        rw [m2 c' hc' hn']
        exact absorbsDs_res (dy a a1) (dx b hb) a3
      · obtain ⟨m1, m2⟩ := mem_res a4
        refine ⟨m1, fun c' hc' hn' => ?_⟩
        rw [m2 c' hc' hn']
        exact absorbs_congr (ds_copy_copy b) (absorbsDs_self (dx b hb))
    · intro b hb n hn
      rcases comb_mem (n2 n) hb hn with ⟨a, c, a1, a2, a3, a4⟩ | a4
      · obtain ⟨m1, m2⟩ := mem_res a4
        refine ⟨m1, fun c' hc' hn' => ?_⟩
        rw [m2 c' hc' hn']
        exact absorbs_res f a b c (gy a a1) (gx b hb) (hf b hb (by rw [hn]; simp)) a3
      · obtain ⟨m1, m2⟩ := mem_res a4
        refine ⟨m1, fun c' hc' hn' => ?_⟩
        rw [m2 c' hc' hn']
        exact absorbs_congr (copy_copy b) (absorbs_self f b (gx b hb) (hf b hb (by rw [hn]; simp)))
    · intro b hb n hn
      rcases comb_mem (k := lnkKind) (n3 n) hb hn with ⟨a, c, a1, a2, a3, a4⟩ | a4
      · exact (mem_res a4).1
      · exact (mem_res a4).1
    · intro b hb hn
      obtain ⟨dt, h'⟩ := some_of_ne (tdx b hb hn)
      exact ⟨dt, h', (u1 dt).2 (.inr (.inl (un_ds hb hn h')))⟩
    · intro b hb hn
      obtain ⟨dt, h'⟩ := some_of_ne (tgx b hb hn)
      exact ⟨dt, h', (u1 dt).2 (.inr (.inr (un_gr hb hn h')))⟩
    · intro b hb hn
      exact (u2 _).2 (.inr (un_ln hb hn))
    · intro a haa
      rw [ha]
      exact ((resolveAttrs_spec x.attrs.items y.attrs wx.attrs wy.attrs).2.2.1 a.name).2 (.inr (List.mem_map_of_mem haa))

end Verif.SpecCopy

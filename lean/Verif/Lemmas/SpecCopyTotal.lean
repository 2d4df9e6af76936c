import Verif.Lemmas.SpecCopy

/-!
# Lemmas on the copies of specs: when building and resolving succeed, and what the copies have
-/

namespace Verif.SpecCopy
open Verif Spec

theorem addItem_total {α : Type} {k : Kind α} {items : List α} {t : Tab} {x : α} (h1 : k.name x = none → k.dt x ≠ none)
    (h2 : ∀ dt, isU k dt x = true → ¬ hasUn t dt) : ∃ r, addItem k items t x = .ok r := by
  unfold addItem
  cases hd : k.dt x with
  | none =>
    cases hn : k.name x with
    | none => exact (h1 hn hd).elim
    | some n => exact ⟨_, rfl⟩
  | some dt =>
    obtain ⟨t', ht⟩ : ∃ t', addType t dt (k.name x) = .ok t' := by
      refine addType_ok ?_
      cases hn : k.name x with
      | none => exact .inr (h2 dt (by simp [isU, hn, hd]))
      | some n => exact .inl (by simp)
    simp only [ht]
    exact ⟨_, rfl⟩

theorem addItems_total {α : Type} {k : Kind α} : ∀ (xs items : List α) (t : Tab), (∀ x ∈ xs, k.name x = none → k.dt x ≠ none) →
    (∀ dt, (xs.filter (isU k dt)).length ≤ 1 ∧ (hasUn t dt → xs.filter (isU k dt) = [])) → ∃ r, addItems k items t xs = .ok r
  | [], _, _, _, _ => ⟨_, rfl⟩
  | x :: xs, items, t, h1, h2 => by
    obtain ⟨⟨items', t'⟩, hr⟩ := addItem_total (items := items) (h1 x (List.mem_cons_self ..)) (fun dt hu ht => by
      have := (h2 dt).2 ht
      rw [List.filter_cons, if_pos hu] at this
      cases this)
    unfold addItems
    simp only [hr]
    obtain ⟨e1, e2⟩ := addItem_ok hr
    refine addItems_total xs items' t' (fun y hy => h1 y (List.mem_cons_of_mem _ hy)) (fun dt => ?_)
    obtain ⟨a, b⟩ := h2 dt
    rw [List.filter_cons] at a b
    by_cases hu : isU k dt x = true
    · rw [if_pos hu] at a
      have : xs.filter (isU k dt) = [] := by
        apply List.eq_nil_of_length_eq_zero
        simp only [List.length_cons] at a
        omega
      rw [this]
      exact ⟨Nat.zero_le _, fun _ => rfl⟩
    · rw [if_neg hu] at a b
      refine ⟨a, fun ht => b ?_⟩
      exact ((e2 dt).1 ht).resolve_right hu

theorem resTyped_total {α : Type} {k : Kind α} (hk : k.Ok) : ∀ (xs items : List α) (t : Tab) (nt : List String),
    (∀ x ∈ xs, k.name x = none → k.dt x ≠ none) → ∃ r, resTyped k items t nt xs = .ok r
  | [], _, _, _, _ => ⟨_, rfl⟩
  | x :: xs, items, t, nt, h => by
    have hr : ∀ y ∈ xs, k.name y = none → k.dt y ≠ none := fun y hy => h y (List.mem_cons_of_mem _ hy)
    unfold resTyped
    cases hn : k.name x with
    | some n => exact resTyped_total hk xs items t nt hr
    | none =>
      obtain ⟨dt, hdt⟩ := some_of_ne (h x (List.mem_cons_self ..) hn)
      simp only [hdt]
      by_cases hu : Dict.get? t dt = some (.one none)
      · rw [if_pos hu]
        exact resTyped_total hk xs items t _ hr
      · rw [if_neg hu]
        obtain ⟨⟨i', t'⟩, e⟩ := addItem_total (k := k) (items := items) (t := t) (x := k.copy x)
          (by rw [hk.copy_name, hk.copy_dt]; exact h x (List.mem_cons_self ..)) (fun dt' hu' => by
            have e : dt' = dt := by
              simp only [isU, hk.copy_name, hk.copy_dt, hdt, Bool.and_eq_true, beq_iff_eq, Option.some.injEq] at hu'
              exact hu'.2.symm
            subst e
            exact hu)
        simp only [e]
        exact resTyped_total hk xs i' t' _ hr

theorem updLast_total {α : Type} {p : α → Bool} {h : α → Except Err α} : ∀ (l : List α),
    (∀ y ∈ l, p y = true → ∃ w, h y = .ok w) → ∃ l', updLast p h l = .ok l'
  | [], _ => ⟨[], rfl⟩
  | x :: xs, hh => by
    unfold updLast
    split
    · rename_i hp
      simp only [Bool.and_eq_true] at hp
      obtain ⟨w, h1⟩ := hh x (List.mem_cons_self ..) hp.1
      rw [h1]
      exact ⟨_, rfl⟩
    · obtain ⟨l', h1⟩ := updLast_total (p := p) (h := h) xs (fun y hy => hh y (List.mem_cons_of_mem _ hy))
      rw [h1]
      exact ⟨_, rfl⟩

/-- what is changed is the result for something that has the name -/
theorem updLast_mem {α : Type} {p : α → Bool} {h : α → Except Err α} : ∀ (l l' : List α), updLast p h l = .ok l' →
    ∀ y ∈ l', y ∈ l ∨ ∃ x ∈ l, p x = true ∧ h x = .ok y
  | [], l', e, y, hy => by cases e; cases hy
  | x :: xs, l', e, y, hy => by
    unfold updLast at e
    split at e
    · rename_i hp
      simp only [Bool.and_eq_true] at hp
      cases hx : h x with
      | error er => rw [hx] at e; cases e
      | ok w =>
        rw [hx] at e
        cases e
        rcases List.mem_cons.1 hy with rfl | hy
        · exact .inr ⟨x, List.mem_cons_self .., hp.1, hx⟩
        · exact .inl (List.mem_cons_of_mem _ hy)
    · cases hx : updLast p h xs with
      | error er => rw [hx] at e; cases e
      | ok w =>
        rw [hx] at e
        cases e
        rcases List.mem_cons.1 hy with rfl | hy
        · exact .inl (List.mem_cons_self ..)
        · rcases updLast_mem xs w hx y hy with h' | ⟨z, h1, h2⟩
          · exact .inl (List.mem_cons_of_mem _ h')
          · exact .inr ⟨z, List.mem_cons_of_mem _ h1, h2⟩

theorem resNamed_total {α : Type} {k : Kind α} (hk : k.Ok) : ∀ (xs : List α) (s : Spec.Sub α) (t : Tab),
    (∀ n, (xs.filter (isN k n)).length ≤ 1) →
    (∀ x ∈ xs, ∀ n, k.name x = some n → ∀ y ∈ s.items, k.name y = some n → ∃ w, k.res y x = .ok w) →
    ∃ r, resNamed k s t xs = .ok r
  | [], s, t, _, _ => ⟨_, rfl⟩
  | x :: xs, s, t, hu, h => by
    have hu' : ∀ n, (xs.filter (isN k n)).length ≤ 1 := by
      intro n
      refine Nat.le_trans ?_ (hu n)
      rw [List.filter_cons]
      split <;> simp
    have hr : ∀ y ∈ xs, ∀ n, k.name y = some n → ∀ z ∈ s.items, k.name z = some n → ∃ w, k.res z y = .ok w :=
      fun y hy => h y (List.mem_cons_of_mem _ hy)
    unfold resNamed
    cases hn : k.name x with
    | none => exact resNamed_total hk xs s t hu' hr
    | some n =>
      have hother : ∀ y ∈ xs, k.name y ≠ some n := by
        intro y hy e
        have := hu n
        rw [List.filter_cons, if_pos (by simp [isN, hn])] at this
        have hm : y ∈ xs.filter (isN k n) := List.mem_filter.2 ⟨hy, by simp [isN, e]⟩
        have := List.length_pos_of_mem hm
        simp only [List.length_cons] at *
        omega
      by_cases hm : n ∈ names k s.items
      · simp only [if_pos hm]
        obtain ⟨l', e⟩ := updLast_total (p := fun y => k.name y == some n) (h := fun y => k.res y x) s.items
          (fun y hy hp => h x (List.mem_cons_self ..) n hn y hy (by simpa using hp))
        simp only [e]
        refine resNamed_total hk xs _ t hu' (fun y hy m hym z hz hzm => ?_)
        rcases updLast_mem _ _ e z hz with hz | ⟨z0, c1, c2, c3⟩
        · exact hr y hy m hym z hz hzm
        · have e1 := hk.res_name _ _ _ c3
          simp only [beq_iff_eq] at c2
          rw [hzm, c2] at e1
          exact (hother y hy (hym.trans e1)).elim
      · simp only [if_neg hm]
        obtain ⟨⟨i', t'⟩, e⟩ := addItem_total (k := k) (items := s.items) (t := t) (x := k.copy x)
          (by rw [hk.copy_name, hn]; intro h; cases h) (fun dt hu => by
            simp [isU, hk.copy_name, hn] at hu)
        simp only [e]
        refine resNamed_total hk xs _ t' hu' (fun y hy m hym z hz hzm => ?_)
        have hi := (addItem_ok e).1
        subst hi
        rcases List.mem_append.1 hz with hz | hz
        · exact hr y hy m hym z hz hzm
        · rw [List.mem_singleton] at hz
          subst hz
          rw [hk.copy_name, hn] at hzm
          exact (hother y hy (hym.trans hzm.symm)).elim

theorem resolve_total {f : Nat} {c inc : Grp} (hi : Wf inc)
    (td : ∀ b ∈ inc.datasets, b.name = none → b.dt ≠ none) (tg : ∀ b ∈ inc.groups, b.name = none → b.dt ≠ none)
    (hd : ∀ x ∈ inc.datasets, ∀ n, x.name = some n → ∀ y ∈ c.datasets, y.name = some n → ∃ w, resolveDs y x = .ok w)
    (hg : ∀ x ∈ inc.groups, ∀ n, x.name = some n → ∀ y ∈ c.groups, y.name = some n → ∃ w, resolve f y x = .ok w) :
    ∃ g', resolve (f + 1) c inc = .ok g' := by
  obtain ⟨⟨ds, t1⟩, e1⟩ := resNamed_total dsKind_ok inc.datasets ⟨c.datasets, c.newDs, c.overDs⟩ c.dts hi.uniq.1 hd
  obtain ⟨⟨gs, t2⟩, e2⟩ := resNamed_total (grpKind_ok f) inc.groups ⟨c.groups, c.newGr, c.overGr⟩ t1 hi.uniq.2.1 hg
  obtain ⟨⟨ls, u1⟩, e3⟩ := resNamed_total lnkKind_ok inc.links ⟨c.links, c.newLn, c.overLn⟩ c.tts hi.uniq.2.2 (fun _ _ _ _ y _ _ => ⟨y, rfl⟩)
  obtain ⟨⟨ds', t3, nd⟩, e4⟩ := resTyped_total dsKind_ok inc.datasets ds.items t2 c.newDt td
  obtain ⟨⟨gs', t4, nd'⟩, e5⟩ := resTyped_total (grpKind_ok f) inc.groups gs.items t3 nd tg
  obtain ⟨⟨ls', u2, nt⟩, e6⟩ := resTyped_total lnkKind_ok inc.links ls.items u1 c.newTt (fun _ _ _ h => by cases h)
  unfold resolve
  simp only [e1, e2, e3, e4, e5, e6]
  exact ⟨_, rfl⟩

theorem resolve_newTt {f : Nat} {g inc g' : Grp} (hi : Wf inc) (h : resolve (f + 1) g inc = .ok g') (dt : String) :
    dt ∈ g'.newTt ↔ dt ∈ g.newTt ∧ lnOf inc dt = [] := by
  unfold resolve at h
  repeat' split at h
  all_goals first
    | (cases h; done)
    | skip
  rename_i h6
  cases h
  exact (resTyped_spec lnkKind_ok _ _ _ _ _ _ _ hi.lone h6).2.2.2 dt

theorem resolve_head {f : Nat} {g inc g' : Grp} (h : resolve (f + 1) g inc = .ok g') : g'.name = g.name ∧ g'.dt = g.dt ∧ g'.body = g.body := by
  unfold resolve at h
  repeat' split at h
  all_goals first
    | (cases h; done)
    | skip
  cases h
  exact ⟨rfl, rfl, rfl⟩

/-! ## Every sub-spec has a name or a type -/

theorem resNamed_all {α : Type} {k : Kind α} {P : α → Prop} (hres : ∀ y x z, P y → k.res y x = .ok z → P z) (hcopy : ∀ x, P x → P (k.copy x)) :
    ∀ (xs : List α) (s : Spec.Sub α) (t : Tab) (s' : Spec.Sub α) (t' : Tab), resNamed k s t xs = .ok (s', t') →
    (∀ y ∈ s.items, P y) → (∀ x ∈ xs, P x) → ∀ y ∈ s'.items, P y
  | [], s, t, s', t', h, h1, _ => by cases h; exact h1
  | x :: xs, s, t, s', t', h, h1, h2 => by
    have h2' : ∀ x ∈ xs, P x := fun y hy => h2 y (List.mem_cons_of_mem _ hy)
    unfold resNamed at h
    cases hn : k.name x with
    | none =>
      rw [hn] at h
      exact resNamed_all hres hcopy xs s t s' t' h h1 h2'
    | some n =>
      rw [hn] at h
      simp only at h
      split at h
      · cases hu : updLast (fun y => k.name y == some n) (fun y => k.res y x) s.items with
        | error e => rw [hu] at h; cases h
        | ok l =>
          rw [hu] at h
          refine resNamed_all hres hcopy xs _ t s' t' h (fun y hy => ?_) h2'
          rcases updLast_mem _ _ hu y hy with hy | ⟨z, z1, _, z3⟩
          · exact h1 y hy
          · exact hres z x y (h1 z z1) z3
      · cases hu : addItem k s.items t (k.copy x) with
        | error e => rw [hu] at h; cases h
        | ok r =>
          obtain ⟨i, t1⟩ := r
          rw [hu] at h
          have hi := (addItem_ok hu).1
          subst hi
          refine resNamed_all hres hcopy xs _ t1 s' t' h (fun y hy => ?_) h2'
          rcases List.mem_append.1 hy with hy | hy
          · exact h1 y hy
          · rw [List.mem_singleton] at hy
            subst hy
            exact hcopy x (h2 x (List.mem_cons_self ..))

theorem resTyped_all {α : Type} {k : Kind α} {P : α → Prop} (hcopy : ∀ x, P x → P (k.copy x)) :
    ∀ (xs items : List α) (t : Tab) (nt : List String) (items' : List α) (t' : Tab) (nt' : List String),
    resTyped k items t nt xs = .ok (items', t', nt') → (∀ y ∈ items, P y) → (∀ x ∈ xs, P x) → ∀ y ∈ items', P y
  | [], items, t, nt, items', t', nt', h, h1, _ => by cases h; exact h1
  | x :: xs, items, t, nt, items', t', nt', h, h1, h2 => by
    have h2' : ∀ x ∈ xs, P x := fun y hy => h2 y (List.mem_cons_of_mem _ hy)
    unfold resTyped at h
    cases hn : k.name x with
    | some n =>
      rw [hn] at h
      exact resTyped_all hcopy xs _ _ _ _ _ _ h h1 h2'
    | none =>
      rw [hn] at h
      simp only at h
      cases hd : k.dt x with
      | none => rw [hd] at h; cases h
      | some dt =>
        rw [hd] at h
        simp only at h
        split at h
        · exact resTyped_all hcopy xs _ _ _ _ _ _ h h1 h2'
        · cases hu : addItem k items t (k.copy x) with
          | error e => rw [hu] at h; cases h
          | ok r =>
            obtain ⟨i, t1⟩ := r
            rw [hu] at h
            have hi := (addItem_ok hu).1
            subst hi
            refine resTyped_all hcopy xs _ _ _ _ _ _ h (fun y hy => ?_) h2'
            rcases List.mem_append.1 hy with hy | hy
            · exact h1 y hy
            · rw [List.mem_singleton] at hy
              subst hy
              exact hcopy x (h2 x (List.mem_cons_self ..))

theorem resolve_typed {f : Nat} {g inc g' : Grp} (h : resolve (f + 1) g inc = .ok g')
    (td : ∀ d ∈ g.datasets, d.name = none → d.dt ≠ none) (tg : ∀ d ∈ g.groups, d.name = none → d.dt ≠ none)
    (tdi : ∀ d ∈ inc.datasets, d.name = none → d.dt ≠ none) (tgi : ∀ d ∈ inc.groups, d.name = none → d.dt ≠ none) :
    (∀ d ∈ g'.datasets, d.name = none → d.dt ≠ none) ∧ (∀ d ∈ g'.groups, d.name = none → d.dt ≠ none) := by
  unfold resolve at h
  repeat' split at h
  all_goals first
    | (cases h; done)
    | skip
  rename_i h1 _ _ _ h2 _ _ _ h3 _ _ _ _ h4 _ _ _ _ h5 _ _ _ _ h6
  cases h
  have p1 : ∀ (k : Kind Ds), k.Ok → ∀ y x z, (k.name y = none → k.dt y ≠ none) → k.res y x = .ok z → (k.name z = none → k.dt z ≠ none) := by
    intro k hk y x z hy hz
    rw [hk.res_name _ _ _ hz, hk.res_dt _ _ _ hz]
    exact hy
  have p2 : ∀ (k : Kind Grp), k.Ok → ∀ y x z, (k.name y = none → k.dt y ≠ none) → k.res y x = .ok z → (k.name z = none → k.dt z ≠ none) := by
    intro k hk y x z hy hz
    rw [hk.res_name _ _ _ hz, hk.res_dt _ _ _ hz]
    exact hy
  have q2 : ∀ (k : Kind Grp), k.Ok → ∀ x, (k.name x = none → k.dt x ≠ none) → (k.name (k.copy x) = none → k.dt (k.copy x) ≠ none) := by
    intro k hk x hx
    rw [hk.copy_name, hk.copy_dt]
    exact hx
  constructor
  · exact resTyped_all (k := dsKind) (P := fun d => d.name = none → d.dt ≠ none) (fun _ h => h) _ _ _ _ _ _ _ h4
      (resNamed_all (k := dsKind) (P := fun d => d.name = none → d.dt ≠ none) (p1 _ dsKind_ok) (fun _ h => h) _ _ _ _ _ h1 td tdi) tdi
  · exact resTyped_all (k := grpKind (resolve f)) (P := fun d => d.name = none → d.dt ≠ none) (q2 _ (grpKind_ok f)) _ _ _ _ _ _ _ h5
      (resNamed_all (k := grpKind (resolve f)) (P := fun d => d.name = none → d.dt ≠ none) (p2 _ (grpKind_ok f)) (q2 _ (grpKind_ok f))
        _ _ _ _ _ h2 tg tgi) tgi

/-! ## Building -/

theorem setAttr_new : ∀ (l : List Attr) (a : Attr), a.name ∉ l.map Attr.name → setAttr l a = l ++ [a]
  | [], _, _ => rfl
  | x :: xs, a, h => by
    simp only [List.map_cons, List.mem_cons, not_or] at h
    simp only [setAttr]
    rw [if_neg (fun e => h.1 (by first | exact e | exact e.symm)), setAttr_new xs a h.2]
    rfl

theorem mkAttrs_items {l : List Attr} (h : (l.map Attr.name).Nodup) : (mkAttrs l).items = l := by
  have : ∀ (l p : List Attr), ((p ++ l).map Attr.name).Nodup → l.foldl setAttr p = p ++ l := by
    intro l
    induction l with
    | nil => intro p _; simp
    | cons a as ih =>
      intro p hp
      have ha : a.name ∉ p.map Attr.name := by
        simp only [List.map_append, List.map_cons] at hp
        intro h
        exact (List.nodup_append.1 hp).2.2 _ h _ (List.mem_cons_self ..) rfl
      rw [List.foldl_cons, setAttr_new _ _ ha, ih _ (by simpa using hp)]
      simp
  exact this l [] (by simpa using h)

theorem mkGrp_total {name dt : Option String} {body : Nat} {as : List Attr} {gs : List Grp} {ds : List Ds} {ls : List Lnk}
    (tg : ∀ x ∈ gs, x.name = none → x.dt ≠ none) (td : ∀ x ∈ ds, x.name = none → x.dt ≠ none)
    (h1 : ∀ dt, (ds.filter (fun d => d.name.isNone && d.dt == some dt)).length +
      (gs.filter (fun d => d.name.isNone && d.dt == some dt)).length ≤ 1)
    (h2 : ∀ dt, (ls.filter (fun d => d.name.isNone && some d.target == some dt)).length ≤ 1) :
    ∃ g, mkGrp name dt body as gs ds ls = .ok g := by
  have e0 : ∀ dt, ¬ hasUn ([] : Tab) dt := by intro dt; simp [hasUn, Dict.get?]
  obtain ⟨⟨gs', t1⟩, a1⟩ := addItems_total (k := grpKind (fun _ _ => .error .runtimeError)) gs [] [] tg
    (fun dt => ⟨Nat.le_trans (Nat.le_add_left _ _) (h1 dt), fun h => (e0 dt h).elim⟩)
  obtain ⟨b1, b2, b3⟩ := addItems_ok _ _ _ _ _ a1
  obtain ⟨⟨ds', t2⟩, a2⟩ := addItems_total (k := dsKind) ds [] t1 td (fun dt => ⟨Nat.le_trans (Nat.le_add_right _ _) (h1 dt), fun h => by
    have hne := ((b2 dt).1 h).resolve_left (e0 dt)
    have hp : 0 < (gs.filter (fun d => d.name.isNone && d.dt == some dt)).length := List.length_pos_iff.2 hne
    have := h1 dt
    exact List.eq_nil_of_length_eq_zero (by
      show (ds.filter (fun d => d.name.isNone && d.dt == some dt)).length = 0
      omega)⟩)
  obtain ⟨⟨ls', u⟩, a3⟩ := addItems_total (k := lnkKind) ls [] [] (fun _ _ _ h => by cases h) (fun dt => ⟨h2 dt, fun h => (e0 dt h).elim⟩)
  unfold mkGrp
  simp only [a1, a2, a3]
  exact ⟨_, rfl⟩

theorem mkGrp_parts {name dt : Option String} {body : Nat} {as : List Attr} {gs : List Grp} {ds : List Ds} {ls : List Lnk} {g : Grp}
    (h : mkGrp name dt body as gs ds ls = .ok g) : g.attrs = mkAttrs as ∧ g.groups = gs ∧ g.datasets = ds ∧ g.links = ls ∧
    g.newDs = names dsKind ds ∧ g.overDs = [] ∧ g.newGr = gs.filterMap Grp.name ∧ g.overGr = [] ∧ g.newLn = names lnkKind ls ∧
    g.overLn = [] ∧ g.newDt = Dict.keys g.dts ∧ g.newTt = Dict.keys g.tts ∧ g.name = name ∧ g.dt = dt ∧ g.body = body := by
  unfold mkGrp at h
  repeat' split at h
  all_goals first
    | (cases h; done)
    | skip
  rename_i h1 _ _ _ h2 _ _ _ h3
  cases h
  obtain ⟨a, -⟩ := addItems_ok _ _ _ _ _ h1
  obtain ⟨b, -⟩ := addItems_ok _ _ _ _ _ h2
  obtain ⟨c, -⟩ := addItems_ok _ _ _ _ _ h3
  simp only [List.nil_append] at a b c
  subst a b c
  exact ⟨rfl, rfl, rfl, rfl, rfl, rfl, rfl, rfl, rfl, rfl, rfl, rfl, rfl, rfl, rfl⟩

/-! ## Filtering -/

theorem filter_kept {α : Type} {p keep : α → Bool} {c : α → α} (hp : ∀ x, p (c x) = p x) (l : List α) :
    ((l.filter keep).map c).filter p = ((l.filter p).filter keep).map c := by
  rw [List.filter_map, List.filter_filter, List.filter_filter]
  congr 1
  apply List.filter_congr
  intro x _
  simp only [Function.comp_apply, hp, Bool.and_comm]

theorem filter_all {α : Type} {keep : α → Bool} {l : List α} (h : ∀ x ∈ l, keep x = true) : l.filter keep = l :=
  List.filter_eq_self.2 h

theorem filter_no {α : Type} {keep : α → Bool} {l : List α} (h : ∀ x ∈ l, keep x = false) : l.filter keep = [] :=
  List.filter_eq_nil_iff.2 (fun x hx => by rw [h x hx]; simp)

/-- the named specs of a kind: what was resolved is copied, and resolved once more -/
theorem named_same {α : Type} {k : Kind α} {own inc res c res2 : List α} (hcc : ∀ x, k.copy (k.copy x) = k.copy x)
    (h1 : Comb k own inc res) (hc1 : own ≠ [] → c = res.map k.copy) (hc2 : own = [] → c = []) (h2 : Comb k c inc res2)
    (habs : ∀ a b d, a ∈ own → b ∈ inc → k.res a b = .ok d → Absorbs k d b) : res2.map k.copy = res.map k.copy := by
  rcases h1 with ⟨d, x, d', e1, e2, e3, e4⟩ | ⟨d, e1, e2, e3⟩ | ⟨x, e1, e2, e3⟩ | ⟨e1, e2, e3⟩
  · have hc := hc1 (by rw [e1]; simp)
    rw [e4] at hc
    obtain ⟨w, w1, w2⟩ := habs d x d' (by rw [e1]; simp) (by rw [e2]; simp) e3 (k.copy d') (hcc d')
    rcases h2 with ⟨a, b, r, f1, f2, f3, f4⟩ | ⟨a, f1, f2, f3⟩ | ⟨a, f1, f2, f3⟩ | ⟨f1, f2, f3⟩
    · rw [hc] at f1
      simp only [List.map_cons, List.map_nil, List.cons.injEq, and_true] at f1
      rw [e2] at f2
      simp only [List.cons.injEq, and_true] at f2
      subst f1 f2
      rw [w1] at f3
      cases f3
      rw [f4, e4]
      simp [w2]
    · rw [e2] at f2; cases f2
    · rw [hc] at f1; cases f1
    · rw [hc] at f1; cases f1
  · have hc := hc1 (by rw [e1]; simp)
    rcases h2 with ⟨a, b, r, f1, f2, f3, f4⟩ | ⟨a, f1, f2, f3⟩ | ⟨a, f1, f2, f3⟩ | ⟨f1, f2, f3⟩
    · rw [e2] at f2; cases f2
    · rw [f3, ← f1, hc, List.map_map]
      exact congrArg (fun f => res.map f) (funext hcc)
    · rw [e2] at f2; cases f2
    · rw [hc, e3] at f1; cases f1
  · have hc := hc2 e1
    rcases h2 with ⟨a, b, r, f1, f2, f3, f4⟩ | ⟨a, f1, f2, f3⟩ | ⟨a, f1, f2, f3⟩ | ⟨f1, f2, f3⟩
    · rw [hc] at f1; cases f1
    · rw [hc] at f1; cases f1
    · rw [e2] at f2
      cases f2
      rw [f3, e3]
    · rw [e2] at f2; cases f2
  · have hc := hc2 e1
    rcases h2 with ⟨a, b, r, f1, f2, f3, f4⟩ | ⟨a, f1, f2, f3⟩ | ⟨a, f1, f2, f3⟩ | ⟨f1, f2, f3⟩
    · rw [hc] at f1; cases f1
    · rw [hc] at f1; cases f1
    · rw [e2] at f2; cases f2
    · rw [f3, e3]

/-- what was copied resolves -/
theorem named_ok {α : Type} {k : Kind α} {own inc res c : List α} (hcc : ∀ x, k.copy (k.copy x) = k.copy x)
    (h1 : Comb k own inc res) (hc1 : own ≠ [] → c = res.map k.copy) (hc2 : own = [] → c = [])
    (habs : ∀ a b d, a ∈ own → b ∈ inc → k.res a b = .ok d → Absorbs k d b) : ∀ x ∈ inc, ∀ y ∈ c, ∃ w, k.res y x = .ok w := by
  intro x hx y hy
  rcases h1 with ⟨d, x', d', e1, e2, e3, e4⟩ | ⟨d, e1, e2, e3⟩ | ⟨x', e1, e2, e3⟩ | ⟨e1, e2, e3⟩
  · have hc := hc1 (by rw [e1]; simp)
    rw [hc, e4] at hy
    rw [e2] at hx
    simp only [List.map_cons, List.map_nil, List.mem_singleton] at hx hy
    subst hx hy
    obtain ⟨w, w1, -⟩ := habs d x d' (by rw [e1]; simp) (by rw [e2]; simp) e3 (k.copy d') (hcc d')
    exact ⟨w, w1⟩
  · rw [e2] at hx; cases hx
  · rw [hc2 e1] at hy; cases hy
  · rw [e2] at hx; cases hx

theorem filter_one {α : Type} {K : α → Bool} : ∀ {l : List α}, l.length ≤ 1 → l.filter K ≠ [] → l.filter K = l
  | [], _, h => (h rfl).elim
  | [a], _, h => by
    rw [List.filter_cons] at h ⊢
    split
    · rfl
    · rename_i hk
      rw [if_neg hk] at h
      exact (h rfl).elim
  | _ :: _ :: _, h, _ => by simp at h

theorem find_kept {α : Type} {q K : α → Bool} : ∀ {l : List α}, (∀ x ∈ l, q x = true → K x = true) → (l.filter K).find? q = l.find? q
  | [], _ => rfl
  | x :: xs, h => by
    have ih := find_kept (q := q) (K := K) (l := xs) (fun y hy => h y (List.mem_cons_of_mem _ hy))
    rw [List.filter_cons]
    by_cases hq : q x = true
    · rw [if_pos (h x (List.mem_cons_self ..) hq), List.find?_cons_of_pos hq, List.find?_cons_of_pos hq]
    · rw [List.find?_cons_of_neg hq]
      split
      · rw [List.find?_cons_of_neg hq, ih]
      · exact ih

end Verif.SpecCopy

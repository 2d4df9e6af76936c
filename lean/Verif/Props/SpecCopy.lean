import Verif.Lemmas.SpecCopyTotal

/-!
# Properties of the copies of specs that are cached in a file
-/

namespace Verif.SpecCopy
open Verif Spec

/-- the names of the links, groups and datasets -/
def subNames (g : Grp) : List String := names lnkKind g.links ++ (g.groups.filterMap Grp.name ++ names dsKind g.datasets)

/-- what is found by a name or by a type is found in one way only -/
structure Clear (g : Grp) : Prop where
  named : (subNames g).Nodup
  typed : ∀ dt, dsOf g dt ≠ [] ∨ grOf g dt ≠ [] ∨ lnOf g dt ≠ [] → dt ∉ subNames g
  target : ∀ dt, lnOf g dt ≠ [] → dt ∉ Dict.keys g.dts
  attrs : ∀ a ∈ g.attrs.items, a.name ∉ subNames g ∧ a.name ∉ Dict.keys g.dts ∧ a.name ∉ Dict.keys g.tts
  self : parentName g ∉ g.groups.filterMap Grp.name

/-- the same spec: under each name, for each type, and each attribute; sub-specs are compared by what `build_spec` makes of them -/
structure Same (a b : Grp) : Prop where
  head : a.name = b.name ∧ a.dt = b.dt ∧ a.body = b.body
  datasets : ∀ n, (a.datasets.filter (fun d => d.name == some n)).map dsKind.copy = (b.datasets.filter (fun d => d.name == some n)).map dsKind.copy
  groups : ∀ n, (a.groups.filter (fun d => d.name == some n)).map Grp.copy = (b.groups.filter (fun d => d.name == some n)).map Grp.copy
  links : ∀ n, a.links.filter (fun d => d.name == some n) = b.links.filter (fun d => d.name == some n)
  types : ∀ dt, (dsOf a dt).map dsKind.copy = (dsOf b dt).map dsKind.copy ∧ (grOf a dt).map Grp.copy = (grOf b dt).map Grp.copy
  targets : ∀ dt, lnOf a dt = lnOf b dt
  attrs : ∀ n, getAttr a.attrs n = getAttr b.attrs n

/-- the copy has the names of the spec before it was resolved, no others -/
structure Owned (c g : Grp) : Prop where
  datasets : ∀ n, (∃ d ∈ c.datasets, d.name = some n) ↔ ∃ d ∈ g.datasets, d.name = some n
  groups : ∀ n, (∃ d ∈ c.groups, d.name = some n) ↔ ∃ d ∈ g.groups, d.name = some n
  links : ∀ n, (∃ d ∈ c.links, d.name = some n) ↔ ∃ d ∈ g.links, d.name = some n
  attrs : ∀ n, (getAttr c.attrs n).isSome ↔ (getAttr g.attrs n).isSome

theorem owned_of {α : Type} {k : Kind α} {own inc res c : List α} (hc : ∀ n, Comb k (own.filter (isN k n)) (inc.filter (isN k n)) (res.filter (isN k n)))
    (h1 : ∀ n, own.filter (isN k n) ≠ [] → c.filter (isN k n) = (res.filter (isN k n)).map k.copy)
    (h2 : ∀ n, own.filter (isN k n) = [] → c.filter (isN k n) = []) (n : String) :
    (∃ d ∈ c, k.name d = some n) ↔ ∃ d ∈ own, k.name d = some n := by
  have e : ∀ l : List α, (∃ d ∈ l, k.name d = some n) ↔ l.filter (isN k n) ≠ [] := by
    intro l
    rw [← mem_names]
    exact List.mem_filterMap.symm
  rw [e, e]
  constructor
  · intro h h'
    exact h (h2 n h')
  · intro h
    rw [h1 n h]
    rcases hc n with ⟨d, x, d', e1, e2, e3, e4⟩ | ⟨d, e1, e2, e3⟩ | ⟨x, e1, e2, e3⟩ | ⟨e1, e2, e3⟩
    · rw [e4]; simp
    · rw [e3]; simp
    · exact (h e1).elim
    · exact (h e1).elim

theorem clear_ds {g : Grp} (h : Clear g) {n : String} (hn : n ∈ names dsKind g.datasets) :
    n ∉ names lnkKind g.links ∧ n ∉ g.groups.filterMap Grp.name := by
  have h1 := List.nodup_append.1 h.named
  have h2 := List.nodup_append.1 h1.2.1
  exact ⟨fun e => h1.2.2 n e n (List.mem_append_right _ hn) rfl, fun e => h2.2.2 n e n hn rfl⟩

theorem clear_gr {g : Grp} (h : Clear g) {n : String} (hn : n ∈ g.groups.filterMap Grp.name) : n ∉ names lnkKind g.links := by
  have h1 := List.nodup_append.1 h.named
  exact fun e => h1.2.2 n e n (List.mem_append_left _ hn) rfl

theorem not_sub {g : Grp} {n : String} (h : n ∉ subNames g) :
    n ∉ names lnkKind g.links ∧ n ∉ g.groups.filterMap Grp.name ∧ n ∉ names dsKind g.datasets := by
  simp only [subNames, List.mem_append, not_or] at h
  exact h

theorem keep_iff {new over : Prop} [Decidable new] [Decidable over] : copied (decide (¬ new)) (decide over) = decide (new ∨ over) := by
  by_cases h1 : new <;> by_cases h2 : over <;> simp [copied, h1, h2]

theorem key_of_hasUn {t : Tab} {dt : String} (h : hasUn t dt) : dt ∈ Dict.keys t := by
  unfold hasUn at h
  exact Dict.mem_keys_of_mem (Dict.mem_of_get? h)

/-- reading a cached type again: the copy of a resolved spec, which has what is new or overridden, resolves against the parent to the same
spec -/
theorem round_trip {many : Nat → Bool} {f fuel : Nat} {name dt : Option String} {body : Nat} {as : List Attr} {gs : List Grp}
    {ds : List Ds} {ls : List Lnk} {g inc g' : Grp} (hmk : mkGrp name dt body as gs ds ls = .ok g) (hg : Deep g) (hinc : Deep inc)
    (hf : Fits (f + 1) inc) (hr : resolve (f + 1) g inc = .ok g') (hclear : Clear g')
    (hmd : ∀ d ∈ g.datasets, d.name = none → many d.body = true → ∀ dt, d.dt = some dt → dsOf inc dt = [] ∧ grOf inc dt = [])
    (hmg : ∀ d ∈ g.groups, d.name = none → many d.body = true → ∀ dt, d.dt = some dt → dsOf inc dt = [] ∧ grOf inc dt = [])
    (hml : ∀ l ∈ g.links, l.name = none → lnOf inc l.target = []) :
    ∃ c g'', copySpec many (fuel + 1) g' = .ok c ∧ resolve (f + 1) c inc = .ok g'' ∧ Same g'' g' ∧ Owned c g := by
  obtain ⟨wg, dg, tdg, tgg, gg⟩ := hg
  obtain ⟨wi, di, tdi, tgi, gi⟩ := hinc
  obtain ⟨⟨n1, n2, n3⟩, ⟨t1, t2, t3⟩, ⟨s1, s2, s3, s4, s5, s6⟩, ⟨u1, u2, u3⟩, ha⟩ := resolve_spec wg wi hr
  have u4 := resolve_newTt wi hr
  have wg' := resolve_wf wg wi hr
  obtain ⟨m1, m2, m3, m4, m5, m6, m7, m8, m9, m10, m11, m12, m13, m14, m15⟩ := mkGrp_parts hmk
  -- which of the specs are copied
  have kd : ∀ d ∈ g'.datasets, ∀ n, d.name = some n →
      copied (isInheritedSub g' d.name d.dt) (isOverriddenSub g' false (many d.body) d.name d.dt) = decide (n ∈ names dsKind g.datasets) := by
    intro d hd n hn
    have hmem : n ∈ names dsKind g'.datasets := List.mem_filterMap.2 ⟨d, hd, hn⟩
    obtain ⟨c1, c2⟩ := clear_ds hclear hmem
    have e1 : isInheritedSub g' d.name d.dt = decide (¬ n ∈ g'.newDs) := by
      simp only [isInheritedSub, hn, Option.getD_some, inheritedEntry, if_neg c1, if_neg c2, if_pos hmem]
    have e2 : isOverriddenSub g' false (many d.body) d.name d.dt = decide (n ∈ g'.overDs) := by
      simp only [isOverriddenSub, hn, Option.getD_some, overriddenEntry, if_neg c1, if_neg c2, if_pos hmem, Option.isNone_some,
        Bool.false_and, Bool.false_eq_true, if_false]
    rw [e1, e2, keep_iff, decide_eq_decide, s1, s2, m5, m6, m3]
    by_cases hi : n ∈ names dsKind inc.datasets <;> simp [hi]
  have kg : ∀ d ∈ g'.groups, ∀ n, d.name = some n →
      copied (isInheritedSub g' d.name d.dt) (isOverriddenSub g' false (many d.body) d.name d.dt) = decide (n ∈ g.groups.filterMap Grp.name) := by
    intro d hd n hn
    have hmem : n ∈ g'.groups.filterMap Grp.name := List.mem_filterMap.2 ⟨d, hd, hn⟩
    have c1 := clear_gr hclear hmem
    have e1 : isInheritedSub g' d.name d.dt = decide (¬ n ∈ g'.newGr) := by
      simp only [isInheritedSub, hn, Option.getD_some, inheritedEntry, if_neg c1, if_pos hmem]
    have e2 : isOverriddenSub g' false (many d.body) d.name d.dt = decide (n ∈ g'.overGr) := by
      simp only [isOverriddenSub, hn, Option.getD_some, overriddenEntry, if_neg c1, if_pos hmem, Option.isNone_some,
        Bool.false_and, Bool.false_eq_true, if_false]
    rw [e1, e2, keep_iff, decide_eq_decide, s3, s4, m7, m8, m2]
    by_cases hi : n ∈ inc.groups.filterMap Grp.name <;> simp [hi]
  have kl : ∀ d ∈ g'.links, ∀ n, d.name = some n →
      copied (isInheritedSub g' d.name (some d.target)) (isOverriddenSub g' true (many d.body) d.name (some d.target)) =
        decide (n ∈ names lnkKind g.links) := by
    intro d hd n hn
    have hmem : n ∈ names lnkKind g'.links := List.mem_filterMap.2 ⟨d, hd, hn⟩
    have e1 : isInheritedSub g' d.name (some d.target) = decide (¬ n ∈ g'.newLn) := by
      simp only [isInheritedSub, hn, Option.getD_some, inheritedEntry, if_pos hmem]
    have e2 : isOverriddenSub g' true (many d.body) d.name (some d.target) = decide (n ∈ g'.overLn) := by
      simp only [isOverriddenSub, hn, Option.getD_some, overriddenEntry, if_pos hmem, Option.isNone_some,
        Bool.false_and, Bool.false_eq_true, if_false]
    rw [e1, e2, keep_iff, decide_eq_decide, s5, s6, m9, m10, m4]
    by_cases hi : n ∈ names lnkKind inc.links <;> simp [hi]
  have kt : ∀ (b : Bool) (dt : String), dsOf g' dt ≠ [] ∨ grOf g' dt ≠ [] →
      copied (isInheritedSub g' none (some dt)) (isOverriddenSub g' false b none (some dt)) = (decide (dt ∈ g'.newDt) || !b) := by
    intro b dt hdt
    obtain ⟨c1, c2, c3⟩ := not_sub (hclear.typed dt (by rcases hdt with h | h; exacts [.inl h, .inr (.inl h)]))
    have hkey : dt ∈ Dict.keys g'.dts := key_of_hasUn ((wg'.un dt).2 hdt)
    have e1 : isInheritedSub g' none (some dt) = decide (dt ∉ g'.newDt) := by
      simp only [isInheritedSub, Option.getD_none, Option.getD_some, inheritedEntry, if_neg c1, if_neg c2, if_neg c3, if_pos hkey]
    have e2 : isOverriddenSub g' false b none (some dt) = (!b && decide (dt ∉ g'.newDt)) := by
      simp only [isOverriddenSub, Option.getD_none, Option.getD_some, overriddenEntry, if_neg c1, if_neg c2, if_neg c3, if_pos hkey,
        Option.isNone_none, Bool.true_and, Bool.false_or]
      cases b <;> simp
    rw [e1, e2]
    by_cases hn : dt ∈ g'.newDt <;> cases b <;> simp [copied, hn]
  have ktl : ∀ (b : Bool) (dt : String), lnOf g' dt ≠ [] →
      copied (isInheritedSub g' none (some dt)) (isOverriddenSub g' true b none (some dt)) = decide (dt ∈ g'.newTt) := by
    intro b dt hdt
    obtain ⟨c1, c2, c3⟩ := not_sub (hclear.typed dt (.inr (.inr hdt)))
    have c4 := hclear.target dt hdt
    have hkey : dt ∈ Dict.keys g'.tts := key_of_hasUn ((wg'.lnk dt).2 hdt)
    have e1 : isInheritedSub g' none (some dt) = decide (dt ∉ g'.newTt) := by
      simp only [isInheritedSub, Option.getD_none, Option.getD_some, inheritedEntry, if_neg c1, if_neg c2, if_neg c3, if_neg c4, if_pos hkey]
    have e2 : isOverriddenSub g' true b none (some dt) = false := by
      simp only [isOverriddenSub, Option.isNone_none, Bool.true_and, Bool.true_or, if_true]
    rw [e1, e2]
    by_cases hn : dt ∈ g'.newTt <;> simp [copied, hn]
  have ka : ∀ a ∈ g'.attrs.items,
      copied (isInheritedAttribute g' a.name) (isOverriddenAttribute (parentName g') (fuel + 1) true g' a.name) =
        decide (a.name ∈ g.attrs.items.map Attr.name) := by
    intro a haa
    obtain ⟨c0, c4, c5⟩ := hclear.attrs a haa
    obtain ⟨c1, c2, c3⟩ := not_sub c0
    have hfind : g'.groups.reverse.find? (fun x => x.name == some (parentName g')) = none := by
      rw [List.find?_eq_none]
      intro x hx e
      simp only [beq_iff_eq] at e
      exact hclear.self (List.mem_filterMap.2 ⟨x, List.mem_reverse.1 hx, e⟩)
    have hm : a.name ∈ g'.attrs.items.map Attr.name := List.mem_map_of_mem haa
    have e1 : isInheritedAttribute g' a.name = decide (a.name ∉ g'.attrs.new) := by
      simp only [isInheritedAttribute, inheritedEntry, if_neg c1, if_neg c2, if_neg c3, if_neg c4, if_neg c5, hm, true_and, hfind]
      by_cases hn : a.name ∈ g'.attrs.new <;> simp [hn]
    have e2 : isOverriddenAttribute (parentName g') (fuel + 1) true g' a.name = decide (a.name ∈ g'.attrs.over) := by
      simp only [isOverriddenAttribute, overriddenEntry, if_neg c1, if_neg c2, if_neg c3, if_neg c4, hm, true_and, hfind]
      by_cases hn : a.name ∈ g'.attrs.over <;> simp [hn]
    obtain ⟨-, -, -, r4, r5, -⟩ := resolveAttrs_spec inc.attrs.items g.attrs wi.attrs wg.attrs
    rw [e1, e2, keep_iff, decide_eq_decide, ha, r4, r5, m1]
    show (_ ∈ (mkAttrs as).items.map Attr.name ∧ _) ∨ _ ↔ _
    by_cases hi : a.name ∈ inc.attrs.items.map Attr.name <;> simp [hi, mkAttrs]
  -- the copy
  obtain ⟨td', tg'⟩ := resolve_typed hr tdg tgg tdi tgi
  have hcopy : ∃ c, copySpec many (fuel + 1) g' = .ok c := by
    refine mkGrp_total ?_ ?_ ?_ ?_
    · intro x hx
      rw [copies_map] at hx
      obtain ⟨y, hy, rfl⟩ := List.mem_map.1 hx
      rw [copy_name, copy_dt]
      exact tg' y (List.mem_filter.1 hy).1
    · intro x hx
      obtain ⟨y, hy, rfl⟩ := List.mem_map.1 hx
      exact td' y (List.mem_filter.1 hy).1
    · intro dt
      rw [copies_map, filter_kept (c := dsKind.copy) (fun _ => rfl), filter_kept (c := Grp.copy) (fun x => by rw [copy_name, copy_dt]),
        List.length_map, List.length_map]
      exact Nat.le_trans (Nat.add_le_add (List.length_filter_le ..) (List.length_filter_le ..)) (wg'.one dt)
    · intro dt
      have := filter_kept (p := fun d : Lnk => d.name.isNone && some d.target == some dt) (c := id) (fun _ => rfl) (l := g'.links)
        (keep := fun x => copied (isInheritedSub g' x.name (some x.target)) (isOverriddenSub g' true (many x.body) x.name (some x.target)))
      rw [List.map_id, List.map_id] at this
      rw [this]
      exact Nat.le_trans (List.length_filter_le ..) (wg'.lone dt)
  obtain ⟨c, hc⟩ := hcopy
  obtain ⟨p1, p2, p3, p4, -, -, -, -, -, -, -, -, p13, p14, p15⟩ := mkGrp_parts hc
  rw [copies_map] at p2
  -- what the copy has under a name
  have cd : ∀ n, c.datasets.filter (isN dsKind n) = ((g'.datasets.filter (isN dsKind n)).filter
      (fun x => copied (isInheritedSub g' x.name x.dt) (isOverriddenSub g' false (many x.body) x.name x.dt))).map dsKind.copy := by
    intro n
    rw [p3]
    exact filter_kept (c := dsKind.copy) (fun _ => rfl) _
  have cg : ∀ n, c.groups.filter (isN (grpKind (resolve f)) n) = ((g'.groups.filter (isN (grpKind (resolve f)) n)).filter
      (fun x => copied (isInheritedSub g' x.name x.dt) (isOverriddenSub g' false (many x.body) x.name x.dt))).map Grp.copy := by
    intro n
    rw [p2]
    exact filter_kept (fun x => by
      show (x.copy.name == some n) = (x.name == some n)
      rw [copy_name]) _
  have cl : ∀ (q : Lnk → Bool), c.links.filter q = (g'.links.filter q).filter
      (fun x => copied (isInheritedSub g' x.name (some x.target)) (isOverriddenSub g' true (many x.body) x.name (some x.target))) := by
    intro q
    rw [p4]
    have := filter_kept (p := q) (c := id) (fun _ => rfl) (l := g'.links)
      (keep := fun x => copied (isInheritedSub g' x.name (some x.target)) (isOverriddenSub g' true (many x.body) x.name (some x.target)))
    rw [List.map_id, List.map_id] at this
    exact this
  have ct : ∀ dt, dsOf c dt = ((dsOf g' dt).filter
      (fun x => copied (isInheritedSub g' x.name x.dt) (isOverriddenSub g' false (many x.body) x.name x.dt))).map dsKind.copy := by
    intro dt
    unfold dsOf
    rw [p3]
    exact filter_kept (c := dsKind.copy) (fun _ => rfl) _
  have cu : ∀ dt, grOf c dt = ((grOf g' dt).filter
      (fun x => copied (isInheritedSub g' x.name x.dt) (isOverriddenSub g' false (many x.body) x.name x.dt))).map Grp.copy := by
    intro dt
    unfold grOf
    rw [p2]
    exact filter_kept (fun x => by rw [copy_name, copy_dt]) _
  have hu : Uniq c := by
    refine ⟨fun n => ?_, fun n => ?_, fun n => ?_⟩
    · have := cd n
      show (c.datasets.filter (isN dsKind n)).length ≤ 1
      rw [this, List.length_map]
      exact Nat.le_trans (List.length_filter_le ..) (wg'.uniq.1 n)
    · have := cg n
      show (c.groups.filter (isN (grpKind (resolve f)) n)).length ≤ 1
      rw [this, List.length_map]
      exact Nat.le_trans (List.length_filter_le ..) (wg'.uniq.2.1 n)
    · rw [cl]
      exact Nat.le_trans (List.length_filter_le ..) (wg'.uniq.2.2 n)
  have wc : Wf c := mk_wf hc hu
  have hasN : ∀ {α : Type} {k : Kind α} {l : List α} {n : String} {x : α}, x ∈ l.filter (isN k n) → x ∈ l ∧ k.name x = some n := by
    intro α k l n x hx
    have := List.mem_filter.1 hx
    exact ⟨this.1, by simpa [isN] using this.2⟩
  have cd1 : ∀ n, g.datasets.filter (isN dsKind n) ≠ [] →
      c.datasets.filter (isN dsKind n) = (g'.datasets.filter (isN dsKind n)).map dsKind.copy := by
    intro n h
    rw [cd, filter_all]
    intro x hx
    obtain ⟨h1, h2⟩ := hasN hx
    rw [kd x h1 n h2, decide_eq_true_eq, mem_names]
    exact h
  have cd2 : ∀ n, g.datasets.filter (isN dsKind n) = [] → c.datasets.filter (isN dsKind n) = [] := by
    intro n h
    rw [cd, filter_no]
    · rfl
    · intro x hx
      obtain ⟨h1, h2⟩ := hasN hx
      rw [kd x h1 n h2, decide_eq_false_iff_not, mem_names]
      exact fun e => e h
  have cg1 : ∀ n, g.groups.filter (isN (grpKind (resolve f)) n) ≠ [] →
      c.groups.filter (isN (grpKind (resolve f)) n) = (g'.groups.filter (isN (grpKind (resolve f)) n)).map Grp.copy := by
    intro n h
    rw [cg, filter_all]
    intro x hx
    obtain ⟨h1, h2⟩ := hasN hx
    rw [kg x h1 n h2, decide_eq_true_eq]
    exact (mem_names (grpKind (resolve f)) g.groups n).2 h
  have cg2 : ∀ n, g.groups.filter (isN (grpKind (resolve f)) n) = [] → c.groups.filter (isN (grpKind (resolve f)) n) = [] := by
    intro n h
    rw [cg, filter_no]
    · rfl
    · intro x hx
      obtain ⟨h1, h2⟩ := hasN hx
      rw [kg x h1 n h2, decide_eq_false_iff_not]
      exact fun e => (mem_names (grpKind (resolve f)) g.groups n).1 e h
  have cl1 : ∀ n, g.links.filter (isN lnkKind n) ≠ [] → c.links.filter (isN lnkKind n) = (g'.links.filter (isN lnkKind n)).map lnkKind.copy := by
    intro n h
    rw [cl, filter_all]
    · exact (List.map_id _).symm
    · intro x hx
      obtain ⟨h1, h2⟩ := hasN hx
      rw [kl x h1 n h2, decide_eq_true_eq, mem_names]
      exact h
  have cl2 : ∀ n, g.links.filter (isN lnkKind n) = [] → c.links.filter (isN lnkKind n) = [] := by
    intro n h
    rw [cl, filter_no]
    intro x hx
    obtain ⟨h1, h2⟩ := hasN hx
    rw [kl x h1 n h2, decide_eq_false_iff_not, mem_names]
    exact fun e => e h
  have abD : ∀ n a b d, a ∈ g.datasets.filter (isN dsKind n) → b ∈ inc.datasets.filter (isN dsKind n) → dsKind.res a b = .ok d →
      Absorbs dsKind d b := fun n a b d h1 h2 h => absorbsDs_res (dg a (hasN h1).1) (di b (hasN h2).1) h
  have abG : ∀ n a b d, a ∈ g.groups.filter (isN (grpKind (resolve f)) n) → b ∈ inc.groups.filter (isN (grpKind (resolve f)) n) →
      (grpKind (resolve f)).res a b = .ok d → Absorbs (grpKind (resolve f)) d b := fun n a b d h1 h2 h =>
    absorbs_res f a b d (gg a (hasN h1).1) (gi b (hasN h2).1) (hf b (hasN h2).1 (by
      have := (hasN h2).2
      show (grpKind (resolve f)).name b ≠ none
      rw [this]
      simp)) h
  -- resolving the copy
  obtain ⟨g'', hr''⟩ := resolve_total (f := f) (c := c) wi tdi tgi
    (fun x hx n hn y hy hyn => named_ok ds_copy_copy (n1 n) (cd1 n) (cd2 n) (abD n) x (List.mem_filter.2 ⟨hx, by simp [isN, dsKind, hn]⟩) y
      (List.mem_filter.2 ⟨hy, by simp [isN, dsKind, hyn]⟩))
    (fun x hx n hn y hy hyn => named_ok (k := grpKind (resolve f)) copy_copy (n2 n) (cg1 n) (cg2 n) (abG n) x
      (List.mem_filter.2 ⟨hx, by simp [isN, grpKind, hn]⟩) y (List.mem_filter.2 ⟨hy, by simp [isN, grpKind, hyn]⟩))
  obtain ⟨⟨n1', n2', n3'⟩, ⟨t1', t2', t3'⟩, -, -, ha'⟩ := resolve_spec wc wi hr''
  have dcc : ∀ l : List Ds, (l.map dsKind.copy).map dsKind.copy = l.map dsKind.copy := fun l => by
    rw [List.map_map]; exact congrArg (fun f => l.map f) (funext ds_copy_copy)
  have gcc : ∀ l : List Grp, (l.map Grp.copy).map Grp.copy = l.map Grp.copy := fun l => by
    rw [List.map_map]; exact congrArg (fun f => l.map f) (funext copy_copy)
  have hit : c.attrs.items = g'.attrs.items.filter
      (fun a => copied (isInheritedAttribute g' a.name) (isOverriddenAttribute (parentName g') (fuel + 1) true g' a.name)) := by
    rw [p1]
    exact mkAttrs_items (List.Nodup.sublist (List.Sublist.map _ List.filter_sublist) wg'.attrs)
  obtain ⟨-, r2, -⟩ := resolveAttrs_spec inc.attrs.items g.attrs wi.attrs wg.attrs
  obtain ⟨-, r2', -⟩ := resolveAttrs_spec inc.attrs.items c.attrs wi.attrs wc.attrs
  have ca1 : ∀ n, n ∈ g.attrs.items.map Attr.name → ∃ a, getAttr c.attrs n = some a ∧ getAttr g'.attrs n = some a ∧
      (getAttr g.attrs n).isSome := by
    intro n hn
    have h1 : getAttr c.attrs n = getAttr g'.attrs n := by
      unfold getAttr
      rw [hit, find_kept]
      intro a haa hq
      rw [ka a haa]
      simp only [decide_eq_true_eq] at hq ⊢
      rw [hq]
      exact hn
    have h2 : ∃ a, getAttr g.attrs n = some a := by
      obtain ⟨a, a1, a2⟩ := List.mem_map.1 hn
      cases h : getAttr g.attrs n with
      | some x => exact ⟨x, rfl⟩
      | none =>
        have := List.find?_eq_none.1 h a a1
        simp only [decide_eq_true_eq] at this
        exact (this a2).elim
    obtain ⟨a, h2⟩ := h2
    have h3 : getAttr g'.attrs n = some a := by
      rw [ha, r2, h2]
      rfl
    exact ⟨a, h1.trans h3, h3, by rw [h2]; rfl⟩
  have ca2 : ∀ n, n ∉ g.attrs.items.map Attr.name → getAttr c.attrs n = none ∧ getAttr g.attrs n = none := by
    intro n hn
    constructor
    · unfold getAttr
      rw [hit, List.find?_eq_none]
      intro a haa hq
      obtain ⟨q1, q2⟩ := List.mem_filter.1 haa
      rw [ka a q1] at q2
      simp only [decide_eq_true_eq] at hq q2
      exact hn (hq ▸ q2)
    · unfold getAttr
      rw [List.find?_eq_none]
      intro a haa hq
      simp only [decide_eq_true_eq] at hq
      exact hn (hq ▸ List.mem_map_of_mem haa)
  refine ⟨c, g'', hc, hr'', ?_, ⟨owned_of n1 cd1 cd2, owned_of (k := grpKind (resolve f)) n2 cg1 cg2, owned_of n3 cl1 cl2, fun n => ?_⟩⟩
  rotate_left
  · by_cases hn : n ∈ g.attrs.items.map Attr.name
    · obtain ⟨a, a1, a2, a3⟩ := ca1 n hn
      rw [a1]
      exact ⟨fun _ => a3, fun _ => rfl⟩
    · obtain ⟨a1, a2⟩ := ca2 n hn
      rw [a1, a2]
  refine ⟨?_, ?_, ?_, ?_, ?_, ?_, ?_⟩
  · obtain ⟨q1, q2, q3⟩ := resolve_head hr''
    exact ⟨q1.trans p13, q2.trans p14, q3.trans p15⟩
  · exact fun n => named_same ds_copy_copy (n1 n) (cd1 n) (cd2 n) (n1' n) (abD n)
  · exact fun n => named_same (k := grpKind (resolve f)) copy_copy (n2 n) (cg1 n) (cg2 n) (n2' n) (abG n)
  · intro n
    have := named_same (k := lnkKind) (fun _ => rfl) (n3 n) (cl1 n) (cl2 n) (n3' n) (fun a b d _ _ _ y hy => ⟨y, rfl, hy⟩)
    have e : ∀ l : List Lnk, l.map lnkKind.copy = l := fun l => List.map_id l
    rw [e, e] at this
    exact this
  · intro dt
    have unD : ∀ {h : Grp} {d : Ds}, d ∈ dsOf h dt → d ∈ h.datasets ∧ d.name = none ∧ d.dt = some dt := by
      intro h d hd
      have := List.mem_filter.1 hd
      simpa using this
    have unG : ∀ {h : Grp} {d : Grp}, d ∈ grOf h dt → d ∈ h.groups ∧ d.name = none ∧ d.dt = some dt := by
      intro h d hd
      have := List.mem_filter.1 hd
      simpa using this
    by_cases hown : dsOf g dt ≠ [] ∨ grOf g dt ≠ []
    · obtain ⟨o1, o2⟩ := t1 dt hown
      have hne : dsOf g' dt ≠ [] ∨ grOf g' dt ≠ [] := by rw [o1, o2]; exact hown
      have hnew : dsOf inc dt = [] ∧ grOf inc dt = [] → dt ∈ g'.newDt := by
        intro h
        rw [u3, m11]
        exact ⟨key_of_hasUn ((wg.un dt).2 hown), h⟩
      have e1 : dsOf c dt = (dsOf g' dt).map dsKind.copy := by
        rw [ct, filter_all]
        intro d hd
        rw [o1] at hd
        obtain ⟨q1, q2, q3⟩ := unD hd
        simp only [q2, q3]
        rw [kt _ _ hne]
        cases hm : many d.body with
        | false => simp
        | true => simp [hnew (hmd d q1 q2 hm dt q3)]
      have e2 : grOf c dt = (grOf g' dt).map Grp.copy := by
        rw [cu, filter_all]
        intro d hd
        rw [o2] at hd
        obtain ⟨q1, q2, q3⟩ := unG hd
        simp only [q2, q3]
        rw [kt _ _ hne]
        cases hm : many d.body with
        | false => simp
        | true => simp [hnew (hmg d q1 q2 hm dt q3)]
      have hne' : dsOf c dt ≠ [] ∨ grOf c dt ≠ [] := by
        rw [e1, e2]
        simpa using hne
      obtain ⟨r1, r2⟩ := t1' dt hne'
      rw [r1, r2, e1, e2]
      exact ⟨dcc _, gcc _⟩
    · simp only [ne_eq, not_or, not_not] at hown
      obtain ⟨o1, o2⟩ := t2 dt hown.1 hown.2
      by_cases hne : dsOf c dt ≠ [] ∨ grOf c dt ≠ []
      · obtain ⟨r1, r2⟩ := t1' dt hne
        have hone := wg'.one dt
        rw [r1, r2]
        rcases hne with h | h
        · have hk := h
          rw [ct] at hk
          have hk' : (dsOf g' dt).filter
              (fun x => copied (isInheritedSub g' x.name x.dt) (isOverriddenSub g' false (many x.body) x.name x.dt)) ≠ [] :=
            fun e => hk (by rw [e]; rfl)
          have h1 := filter_one (l := dsOf g' dt) (by omega) hk'
          have hpos : 0 < (dsOf g' dt).length := by
            rw [← h1]
            exact List.length_pos_iff.2 hk'
          have h2 : grOf g' dt = [] := List.eq_nil_of_length_eq_zero (by omega)
          rw [ct, h1, cu, h2]
          exact ⟨dcc _, rfl⟩
        · have hk := h
          rw [cu] at hk
          have hk' : (grOf g' dt).filter
              (fun x => copied (isInheritedSub g' x.name x.dt) (isOverriddenSub g' false (many x.body) x.name x.dt)) ≠ [] :=
            fun e => hk (by rw [e]; rfl)
          have h1 := filter_one (l := grOf g' dt) (by omega) hk'
          have hpos : 0 < (grOf g' dt).length := by
            rw [← h1]
            exact List.length_pos_iff.2 hk'
          have h2 : dsOf g' dt = [] := List.eq_nil_of_length_eq_zero (by omega)
          rw [cu, h1, ct, h2]
          exact ⟨rfl, gcc _⟩
      · simp only [ne_eq, not_or, not_not] at hne
        obtain ⟨r1, r2⟩ := t2' dt hne.1 hne.2
        rw [r1, r2, o1, o2]
        exact ⟨rfl, rfl⟩
  · intro dt
    have unL : ∀ {h : Grp} {d : Lnk}, d ∈ lnOf h dt → d ∈ h.links ∧ d.name = none ∧ d.target = dt := by
      intro h d hd
      have := List.mem_filter.1 hd
      simpa using this
    have e : lnOf c dt = (lnOf g' dt).filter
        (fun x => copied (isInheritedSub g' x.name (some x.target)) (isOverriddenSub g' true (many x.body) x.name (some x.target))) := cl _
    have o := t3 dt
    have o' := t3' dt
    by_cases hown : lnOf g dt = []
    · rw [if_neg (fun h => h hown)] at o
      have : lnOf c dt = [] := by
        rw [e, filter_no]
        intro d hd
        have hne : lnOf g' dt ≠ [] := fun e => by rw [e] at hd; cases hd
        obtain ⟨q1, q2, q3⟩ := unL hd
        simp only [q2, q3]
        rw [ktl _ _ hne, decide_eq_false_iff_not, u4]
        exact fun h => hne (o.trans h.2)
      rw [o', if_neg (fun h => h this), o]
    · rw [if_pos hown] at o
      have hne : lnOf g' dt ≠ [] := by rw [o]; exact hown
      have : lnOf c dt = lnOf g' dt := by
        rw [e, filter_all]
        intro d hd
        rw [o] at hd
        obtain ⟨q1, q2, q3⟩ := unL hd
        simp only [q2, q3]
        rw [ktl _ _ hne, decide_eq_true_eq, u4, m12]
        exact ⟨key_of_hasUn ((wg.lnk dt).2 hown), by rw [← q3]; exact hml d q1 q2⟩
      rw [o', this, if_pos hne]
  · intro n
    rw [ha', r2']
    by_cases hn : n ∈ g.attrs.items.map Attr.name
    · obtain ⟨a, a1, a2, -⟩ := ca1 n hn
      rw [a1, a2]
      rfl
    · obtain ⟨a1, a2⟩ := ca2 n hn
      rw [ha, r2, a1, a2]

/-- C140: the copy of a resolved type resolves, when it is read, to the same spec -/
theorem C140_round_trip_partial {many : Nat → Bool} {f fuel : Nat} {name dt : Option String} {body : Nat} {as : List Attr} {gs : List Grp}
    {ds : List Ds} {ls : List Lnk} {g inc g' : Grp} (hmk : mkGrp name dt body as gs ds ls = .ok g) (hg : Deep g) (hinc : Deep inc)
    (hf : Fits (f + 1) inc) (hr : resolve (f + 1) g inc = .ok g') (hclear : Clear g')
    (hmd : ∀ d ∈ g.datasets, d.name = none → many d.body = true → ∀ dt, d.dt = some dt → dsOf inc dt = [] ∧ grOf inc dt = [])
    (hmg : ∀ d ∈ g.groups, d.name = none → many d.body = true → ∀ dt, d.dt = some dt → dsOf inc dt = [] ∧ grOf inc dt = [])
    (hml : ∀ l ∈ g.links, l.name = none → lnOf inc l.target = []) :
    ∃ c g'', copySpec many (fuel + 1) g' = .ok c ∧ resolve (f + 1) c inc = .ok g'' ∧ Same g'' g' := by
  obtain ⟨c, g'', h1, h2, h3, -⟩ := round_trip (fuel := fuel) hmk hg hinc hf hr hclear hmd hmg hml
  exact ⟨c, g'', h1, h2, h3⟩

/-- C141: the copy has what the type itself defines, under the names and for the attributes, and nothing it inherits unchanged -/
theorem C141_own_partial {many : Nat → Bool} {f fuel : Nat} {name dt : Option String} {body : Nat} {as : List Attr} {gs : List Grp}
    {ds : List Ds} {ls : List Lnk} {g inc g' c : Grp} (hmk : mkGrp name dt body as gs ds ls = .ok g) (hg : Deep g) (hinc : Deep inc)
    (hf : Fits (f + 1) inc) (hr : resolve (f + 1) g inc = .ok g') (hclear : Clear g')
    (hmd : ∀ d ∈ g.datasets, d.name = none → many d.body = true → ∀ dt, d.dt = some dt → dsOf inc dt = [] ∧ grOf inc dt = [])
    (hmg : ∀ d ∈ g.groups, d.name = none → many d.body = true → ∀ dt, d.dt = some dt → dsOf inc dt = [] ∧ grOf inc dt = [])
    (hml : ∀ l ∈ g.links, l.name = none → lnOf inc l.target = []) (hc : copySpec many (fuel + 1) g' = .ok c) : Owned c g := by
  obtain ⟨c', g'', h1, -, -, h3⟩ := round_trip (fuel := fuel) hmk hg hinc hf hr hclear hmd hmg hml
  rw [h1] at hc
  cases hc
  exact h3

/-! ## The hypotheses as tests -/

def dsTest (d : Ds) : Bool :=
  decide ((d.attrs.items.map Attr.name).Nodup) && match d.dtype with
  | .compound cs => decide ((cs.map Col.name).Nodup)
  | _ => true

theorem wfDs_of_test {d : Ds} (h : dsTest d = true) : WfDs d := by
  simp only [dsTest, Bool.and_eq_true, decide_eq_true_eq] at h
  refine ⟨h.1, fun cs e => ?_⟩
  rw [e] at h
  simpa using h.2

def deepTest (g : Grp) : Bool :=
  decide ((g.datasets.filterMap Ds.name).Nodup ∧ (g.groups.filterMap Grp.name).Nodup ∧ (g.links.filterMap Lnk.name).Nodup) &&
    g.datasets.all (fun d => dsTest d && (d.name.isSome || d.dt.isSome)) && g.groups.all (fun d => d.name.isSome || d.dt.isSome)

theorem deep_of_test {name dt : Option String} {body : Nat} {as : List Attr} {gs : List Grp} {ds : List Ds} {ls : List Lnk} {g : Grp}
    (h : mkGrp name dt body as gs ds ls = .ok g) (ht : deepTest g = true) (hg : ∀ x ∈ gs, Deep x) : Deep g := by
  simp only [deepTest, Bool.and_eq_true, decide_eq_true_eq, List.all_eq_true, Bool.or_eq_true] at ht
  obtain ⟨⟨⟨h1, h2, h3⟩, h4⟩, h5⟩ := ht
  refine .mk (mk_wf h ⟨uniq_of_nodup _ _ h1, uniq_of_nodup _ _ h2, uniq_of_nodup _ _ h3⟩) (fun d hd => wfDs_of_test (h4 d hd).1)
    (fun d hd hn e => ?_) (fun d hd hn e => ?_) ?_
  · have := (h4 d hd).2
    rw [hn, e] at this
    simp at this
  · have := h5 d hd
    rw [hn, e] at this
    simp at this
  · rw [(mkGrp_parts h).2.1]
    exact hg

def clearTest (g : Grp) : Bool :=
  decide ((subNames g).Nodup) && g.datasets.all (fun d => d.name.isSome || decide (d.dt.getD "" ∉ subNames g)) &&
    g.groups.all (fun d => d.name.isSome || decide (d.dt.getD "" ∉ subNames g)) &&
    g.links.all (fun d => d.name.isSome || (decide (d.target ∉ subNames g) && decide (d.target ∉ Dict.keys g.dts))) &&
    g.attrs.items.all (fun a => decide (a.name ∉ subNames g) && decide (a.name ∉ Dict.keys g.dts) && decide (a.name ∉ Dict.keys g.tts)) &&
    decide (parentName g ∉ g.groups.filterMap Grp.name)

theorem clear_of_test {g : Grp} (h : clearTest g = true) : Clear g := by
  simp only [clearTest, Bool.and_eq_true, decide_eq_true_eq, List.all_eq_true, Bool.or_eq_true] at h
  obtain ⟨⟨⟨⟨⟨h1, h2⟩, h3⟩, h4⟩, h5⟩, h6⟩ := h
  refine ⟨h1, ?_, ?_, fun a ha => ⟨(h5 a ha).1.1, (h5 a ha).1.2, (h5 a ha).2⟩, h6⟩
  · intro dt h
    rcases h with h | h | h
    · obtain ⟨d, hd⟩ := List.exists_mem_of_ne_nil _ h
      have := List.mem_filter.1 hd
      simp only [Bool.and_eq_true, Option.isNone_iff_eq_none, beq_iff_eq] at this
      have h' := h2 d this.1
      rw [this.2.1, this.2.2] at h'
      simpa using h'
    · obtain ⟨d, hd⟩ := List.exists_mem_of_ne_nil _ h
      have := List.mem_filter.1 hd
      simp only [Bool.and_eq_true, Option.isNone_iff_eq_none, beq_iff_eq] at this
      have h' := h3 d this.1
      rw [this.2.1, this.2.2] at h'
      simpa using h'
    · obtain ⟨d, hd⟩ := List.exists_mem_of_ne_nil _ h
      have := List.mem_filter.1 hd
      simp only [Bool.and_eq_true, Option.isNone_iff_eq_none, beq_iff_eq, Option.some.injEq] at this
      have h' := h4 d this.1
      rw [this.2.1, this.2.2] at h'
      have h'' : dt ∉ subNames g ∧ dt ∉ Dict.keys g.dts := by simpa using h'
      exact h''.1
  · intro dt h
    obtain ⟨d, hd⟩ := List.exists_mem_of_ne_nil _ h
    have := List.mem_filter.1 hd
    simp only [Bool.and_eq_true, Option.isNone_iff_eq_none, beq_iff_eq, Option.some.injEq] at this
    have h' := h4 d this.1
    rw [this.2.1, this.2.2] at h'
    have h'' : dt ∉ subNames g ∧ dt ∉ Dict.keys g.dts := by simpa using h'
    exact h''.2

def manyTest (many : Nat → Bool) (g inc : Grp) : Bool :=
  g.datasets.all (fun d => d.name.isSome || !many d.body || ((dsOf inc (d.dt.getD "")).isEmpty && (grOf inc (d.dt.getD "")).isEmpty)) &&
  g.groups.all (fun d => d.name.isSome || !many d.body || ((dsOf inc (d.dt.getD "")).isEmpty && (grOf inc (d.dt.getD "")).isEmpty)) &&
  g.links.all (fun l => l.name.isSome || (lnOf inc l.target).isEmpty)

theorem many_of_test {many : Nat → Bool} {g inc : Grp} (h : manyTest many g inc = true) :
    (∀ d ∈ g.datasets, d.name = none → many d.body = true → ∀ dt, d.dt = some dt → dsOf inc dt = [] ∧ grOf inc dt = []) ∧
    (∀ d ∈ g.groups, d.name = none → many d.body = true → ∀ dt, d.dt = some dt → dsOf inc dt = [] ∧ grOf inc dt = []) ∧
    (∀ l ∈ g.links, l.name = none → lnOf inc l.target = []) := by
  simp only [manyTest, Bool.and_eq_true, List.all_eq_true, Bool.or_eq_true, List.isEmpty_iff] at h
  obtain ⟨⟨h1, h2⟩, h3⟩ := h
  refine ⟨fun d hd hn hm dt hdt => ?_, fun d hd hn hm dt hdt => ?_, fun l hl hn => ?_⟩
  · have := h1 d hd
    rw [hn, hm, hdt] at this
    simpa using this
  · have := h2 d hd
    rw [hn, hm, hdt] at this
    simpa using this
  · have := h3 l hl
    rw [hn] at this
    simpa using this

/-! ## An example, and what is lost -/

/-- quantities above 9 stand for `*` -/
def exMany (b : Nat) : Bool := decide (9 < b)

def exSubAgain (body : Nat) (as : List Attr) (ds : List Ds) : Except Err Grp := mkGrp (some "sub") none body as [] ds []

def exSubOf (body : Nat) (as : List Attr) (ds : List Ds) : Grp :=
  { name := some "sub", dt := none, body := body, attrs := mkAttrs as, datasets := ds, groups := [], links := [], dts := [], tts := [],
    newDs := ds.filterMap Ds.name, overDs := [], newGr := [], overGr := [], newLn := [], overLn := [], newDt := [], newTt := [] }

/-- a child: overrides the group, a dataset with a compound dtype and an attribute; new dataset, attribute, link, type -/
def exC : Except Err Grp :=
  mkGrp none (some "Child") 1 [⟨"a", 1⟩, ⟨"c", 1⟩] [exSubOf 1 [⟨"p", 1⟩] [exDs (some "v") none 1]]
    [⟨some "x", none, 1, .compound [⟨"i", .prim "int64", 1⟩], mkAttrs [⟨"r", 1⟩]⟩, exDs (some "z") none 1, exDs none (some "S") 11,
      exDs none (some "T") 1] [⟨some "l", "W", 1⟩, ⟨none, "N", 1⟩]

/-- its parent -/
def exP : Except Err Grp :=
  mkGrp none (some "Parent") 2 [⟨"a", 2⟩, ⟨"b", 2⟩] [exSubOf 2 [⟨"p", 2⟩, ⟨"q", 2⟩] [exDs (some "u") none 2]]
    [⟨some "x", none, 2, .compound [⟨"i", .prim "int32", 2⟩, ⟨"j", .prim "text", 2⟩], mkAttrs [⟨"s", 2⟩]⟩, exDs (some "y") none 2,
      exDs none (some "T") 2, exDs none (some "U") 12, exDs none (some "V") 2] [⟨some "l", "W", 2⟩, ⟨none, "M", 2⟩]

/-- the copy of the resolved child -/
def copyOf (c p : Except Err Grp) : Except Err Grp := match both c p with
  | .ok g => copySpec exMany 9 g
  | .error e => .error e

theorem deep_sub (body : Nat) (as : List Attr) (ds : List Ds) (h : exSubAgain body as ds = .ok (exSubOf body as ds))
    (ht : deepTest (exSubOf body as ds) = true) : Deep (exSubOf body as ds) := deep_of_test h ht (fun _ h => by cases h)

/-- the example meets the hypotheses of C140 and C141 -/
example : ∃ g inc g' name dt body as gs ds ls, exC = .ok g ∧ exP = .ok inc ∧ mkGrp name dt body as gs ds ls = .ok g ∧ Deep g ∧ Deep inc ∧
    Fits 9 inc ∧ resolve 9 g inc = .ok g' ∧ Clear g' ∧
    (∀ d ∈ g.datasets, d.name = none → exMany d.body = true → ∀ dt, d.dt = some dt → dsOf inc dt = [] ∧ grOf inc dt = []) ∧
    (∀ d ∈ g.groups, d.name = none → exMany d.body = true → ∀ dt, d.dt = some dt → dsOf inc dt = [] ∧ grOf inc dt = []) ∧
    (∀ l ∈ g.links, l.name = none → lnOf inc l.target = []) := by
  have hs1 : Deep (exSubOf 1 [⟨"p", 1⟩] [exDs (some "v") none 1]) := deep_sub _ _ _ rfl (by decide +kernel)
  have hs2 : Deep (exSubOf 2 [⟨"p", 2⟩, ⟨"q", 2⟩] [exDs (some "u") none 2]) := deep_sub _ _ _ rfl (by decide +kernel)
  have t1 : onOk exC deepTest = true := by decide +kernel
  have t2 : onOk exP deepTest = true := by decide +kernel
  have t3 : onOk (both exC exP) clearTest = true := by decide +kernel
  have t4 : onOk exC (fun g => onOk exP (fun inc => manyTest exMany g inc)) = true := by decide +kernel
  have t5 : onOk exP (fun g => g.groups.all (fun x => x.groups.isEmpty)) = true := by decide +kernel
  cases h1 : exC with
  | error e => rw [h1] at t1; cases t1
  | ok g =>
    cases h2 : exP with
    | error e => rw [h2] at t2; cases t2
    | ok inc =>
      rw [h1] at t1 t3 t4
      rw [h2] at t2 t3 t4 t5
      simp only [both] at t3
      cases h3 : resolve 9 g inc with
      | error e => rw [h3] at t3; cases t3
      | ok g' =>
        rw [h3] at t3
        obtain ⟨m1, m2, m3⟩ := many_of_test (show manyTest exMany g inc = true from t4)
        refine ⟨g, inc, g', none, some "Child", 1, _, _, _, _, rfl, rfl, h1, ?_, ?_, ?_, h3, clear_of_test t3, m1, m2, m3⟩
        · exact deep_of_test h1 t1 (fun x hx => by
            rw [List.mem_singleton] at hx
            subst hx
            exact hs1)
        · exact deep_of_test h2 t2 (fun x hx => by
            rw [List.mem_singleton] at hx
            subst hx
            exact hs2)
        · intro x hx _ y hy _
          have := List.all_eq_true.1 t5 x hx
          rw [List.isEmpty_iff] at this
          rw [this] at hy
          cases hy

/-- what the copy of the example has: the unnamed `T` and `V` too, which occur once; not `U`, of which there may be many -/
example : obs (copyOf exC exP) =
    ([(some "x", none, 1), (some "z", none, 1), (none, some "S", 11), (none, some "T", 1), (none, some "V", 2)],
     [("a", 1), ("c", 1)], [(some "l", 1), (none, 1)]) := by decide +kernel

/-- an unnamed spec with a quantity of many that the child defines again is not in the copy: the parent's is read -/
theorem C140_many_fails :
    obs (mkGrp none (some "Child") 1 [] [] [exDs none (some "T") 11] []) = ([(none, some "T", 11)], [], []) ∧
    obs (both (mkGrp none (some "Child") 1 [] [] [exDs none (some "T") 11] []) (mkGrp none (some "Parent") 2 [] [] [exDs none (some "T") 12] [])) =
      ([(none, some "T", 11)], [], []) ∧
    obs (both (copyOf (mkGrp none (some "Child") 1 [] [] [exDs none (some "T") 11] [])
        (mkGrp none (some "Parent") 2 [] [] [exDs none (some "T") 12] [])) (mkGrp none (some "Parent") 2 [] [] [exDs none (some "T") 12] [])) =
      ([(none, some "T", 12)], [], []) := ⟨by decide +kernel, by decide +kernel, by decide +kernel⟩

/-- so is an unnamed link -/
theorem C140_link_fails :
    obs (both (mkGrp none (some "Child") 1 [] [] [] [⟨none, "T", 1⟩]) (mkGrp none (some "Parent") 2 [] [] [] [⟨none, "T", 2⟩])) =
      ([], [], [(none, 1)]) ∧
    obs (both (copyOf (mkGrp none (some "Child") 1 [] [] [] [⟨none, "T", 1⟩]) (mkGrp none (some "Parent") 2 [] [] [] [⟨none, "T", 2⟩]))
        (mkGrp none (some "Parent") 2 [] [] [] [⟨none, "T", 2⟩])) = ([], [], [(none, 2)]) := ⟨by decide +kernel, by decide +kernel⟩

/-- a new attribute with the name of an inherited dataset is not in the copy: it is lost -/
theorem C140_attribute_fails :
    obs (both (mkGrp none (some "Child") 1 [⟨"x", 1⟩] [] [] []) (mkGrp none (some "Parent") 2 [] [] [exDs (some "x") none 2] [])) =
      ([(some "x", none, 2)], [("x", 1)], []) ∧
    obs (both (copyOf (mkGrp none (some "Child") 1 [⟨"x", 1⟩] [] [] []) (mkGrp none (some "Parent") 2 [] [] [exDs (some "x") none 2] []))
        (mkGrp none (some "Parent") 2 [] [] [exDs (some "x") none 2] [])) = ([(some "x", none, 2)], [], []) := ⟨by decide +kernel, by decide +kernel⟩

/-- a new unnamed link to a type of which the parent has an unnamed dataset is lost -/
theorem C140_target_fails :
    obs (both (mkGrp none (some "Child") 1 [] [] [] [⟨none, "T", 1⟩]) (mkGrp none (some "Parent") 2 [] [] [exDs none (some "T") 2] [])) =
      ([(none, some "T", 2)], [], [(none, 1)]) ∧
    obs (both (copyOf (mkGrp none (some "Child") 1 [] [] [] [⟨none, "T", 1⟩]) (mkGrp none (some "Parent") 2 [] [] [exDs none (some "T") 2] []))
        (mkGrp none (some "Parent") 2 [] [] [exDs none (some "T") 2] [])) = ([(none, some "T", 2)], [], []) := ⟨by decide +kernel, by decide +kernel⟩

/-- a new attribute is lost if the type has the name of an inherited group that has such an attribute -/
theorem C140_self_fails :
    obs (both (mkGrp none (some "sub") 1 [⟨"p", 1⟩] [] [] []) (mkGrp none (some "Parent") 2 [] [exSub 2 [⟨"p", 2⟩]] [] [])) =
      ([], [("p", 1)], []) ∧
    obs (both (copyOf (mkGrp none (some "sub") 1 [⟨"p", 1⟩] [] [] []) (mkGrp none (some "Parent") 2 [] [exSub 2 [⟨"p", 2⟩]] [] []))
        (mkGrp none (some "Parent") 2 [] [exSub 2 [⟨"p", 2⟩]] [] [])) = ([], [], []) := ⟨by decide +kernel, by decide +kernel⟩

/-- the copy may have what the type inherits: an unnamed spec that occurs once -/
theorem C141_typed_fails :
    obs (copyOf (mkGrp none (some "Child") 1 [] [] [] []) (mkGrp none (some "Parent") 2 [] [] [exDs none (some "T") 2] [])) =
      ([(none, some "T", 2)], [], []) := by decide +kernel

/-! ## Dataset types -/

/-- C142: the keys of a dataset type other than `value` and `default_value` are copied -/
theorem C142_keys_partial (spec : Dict String Nat) (k : String) (hk : k ∈ ["doc", "name", "default_name", "linkable", "quantity",
    "data_type_inc", "data_type_def", "dtype", "shape", "dims"]) : Dict.get? (copyKeys datasetKeys spec) k = Dict.get? spec k := by
  have : ∀ (keys : List String), Dict.get? (copyKeys keys spec) k = if k ∈ keys then Dict.get? spec k else none := by
    intro keys
    induction keys with
    | nil => rfl
    | cons a as ih =>
      unfold copyKeys at ih ⊢
      by_cases ha : a = k
      · subst ha
        cases hg : Dict.get? spec a with
        | none =>
          rw [List.filterMap_cons_none (by rw [hg]; rfl), ih, hg]
          simp
        | some v =>
          rw [List.filterMap_cons_some (by rw [hg]; rfl)]
          simp [Dict.get?]
      · cases hg : Dict.get? spec a with
        | none =>
          rw [List.filterMap_cons_none (by rw [hg]; rfl), ih]
          simp [Ne.symm ha]
        | some v =>
          rw [List.filterMap_cons_some (by rw [hg]; rfl)]
          rw [show Dict.get? ((a, v) :: as.filterMap (fun k => (Dict.get? spec k).map (fun v => (k, v)))) k =
            Dict.get? (as.filterMap (fun k => (Dict.get? spec k).map (fun v => (k, v)))) k from by simp [Dict.get?, ha], ih]
          simp [Ne.symm ha]
  rw [this datasetKeys, if_pos (by simpa [datasetKeys] using hk)]

example : Dict.get? (copyKeys datasetKeys [("doc", 1), ("dtype", 2), ("value", 3), ("shape", 4)]) "shape" = some 4 := by decide +kernel

/-- a fixed or default value of a dataset type is not in the copy -/
theorem C142_value_fails : Dict.get? [("doc", 1), ("dtype", 2), ("value", 3), ("default_value", 4)] "value" = some 3 ∧
    copyKeys datasetKeys [("doc", 1), ("dtype", 2), ("value", 3), ("default_value", 4)] = [("doc", 1), ("dtype", 2)] := by decide +kernel

/-- C143: the attributes of a dataset type, copied and resolved against those of the parent again, are the same -/
theorem C143_attributes (own inc : List Attr) (hi : (inc.map Attr.name).Nodup) (n : String) :
    getAttr (resolveAttrs (mkAttrs (copyDsAttrs (resolveAttrs (mkAttrs own) inc))) inc) n = getAttr (resolveAttrs (mkAttrs own) inc) n := by
  obtain ⟨r1, r2, r3, r4, r5, -⟩ := resolveAttrs_spec inc (mkAttrs own) hi (nodup_mkAttrs own)
  have hit : (mkAttrs (copyDsAttrs (resolveAttrs (mkAttrs own) inc))).items = copyDsAttrs (resolveAttrs (mkAttrs own) inc) :=
    mkAttrs_items (List.Nodup.sublist (List.Sublist.map _ List.filter_sublist) r1)
  have keep : ∀ a : Attr, copied (decide (a.name ∉ (resolveAttrs (mkAttrs own) inc).new)) (decide (a.name ∈ (resolveAttrs (mkAttrs own) inc).over)) =
      decide (a.name ∈ (mkAttrs own).items.map Attr.name) := by
    intro a
    rw [keep_iff, decide_eq_decide, r4, r5]
    show (_ ∈ (mkAttrs own).items.map Attr.name ∧ _) ∨ _ ↔ _
    by_cases h : a.name ∈ inc.map Attr.name <;> simp [h, mkAttrs]
  obtain ⟨-, r2', -⟩ := resolveAttrs_spec inc (mkAttrs (copyDsAttrs (resolveAttrs (mkAttrs own) inc))) hi (nodup_mkAttrs _)
  rw [r2']
  by_cases hn : n ∈ (mkAttrs own).items.map Attr.name
  · have h1 : getAttr (mkAttrs (copyDsAttrs (resolveAttrs (mkAttrs own) inc))) n = getAttr (resolveAttrs (mkAttrs own) inc) n := by
      unfold getAttr
      rw [hit]
      unfold copyDsAttrs
      rw [find_kept]
      intro a haa hq
      simp only [decide_eq_true_eq] at hq
      rw [keep, hq]
      exact decide_eq_true hn
    obtain ⟨a, a1, a2⟩ := List.mem_map.1 hn
    have h2 : ∃ a, getAttr (resolveAttrs (mkAttrs own) inc) n = some a := by
      cases h : getAttr (resolveAttrs (mkAttrs own) inc) n with
      | some x => exact ⟨x, rfl⟩
      | none =>
        rw [r2] at h
        simp only [Option.or_eq_none_iff] at h
        have := List.find?_eq_none.1 h.1 a a1
        simp only [decide_eq_true_eq] at this
        exact (this a2).elim
    obtain ⟨x, h2⟩ := h2
    rw [h1, h2]
    rfl
  · have h1 : getAttr (mkAttrs (copyDsAttrs (resolveAttrs (mkAttrs own) inc))) n = none := by
      unfold getAttr
      rw [hit, List.find?_eq_none]
      intro a haa hq
      obtain ⟨q1, q2⟩ := List.mem_filter.1 haa
      rw [keep] at q2
      simp only [decide_eq_true_eq] at hq q2
      exact hn (hq ▸ q2)
    have h2 : getAttr (mkAttrs own) n = none := by
      unfold getAttr
      rw [List.find?_eq_none]
      intro a haa hq
      simp only [decide_eq_true_eq] at hq
      exact hn (hq ▸ List.mem_map_of_mem haa)
    rw [r2, h1, h2]

/-- the copy has the attributes that the type defines, and no others -/
theorem C143_own (own inc : List Attr) (hi : (inc.map Attr.name).Nodup) (n : String) :
    (∃ a ∈ copyDsAttrs (resolveAttrs (mkAttrs own) inc), a.name = n) ↔ ∃ a ∈ (mkAttrs own).items, a.name = n := by
  obtain ⟨r1, r2, r3, r4, r5, -⟩ := resolveAttrs_spec inc (mkAttrs own) hi (nodup_mkAttrs own)
  have keep : ∀ a : Attr, copied (decide (a.name ∉ (resolveAttrs (mkAttrs own) inc).new)) (decide (a.name ∈ (resolveAttrs (mkAttrs own) inc).over)) =
      decide (a.name ∈ (mkAttrs own).items.map Attr.name) := by
    intro a
    rw [keep_iff, decide_eq_decide, r4, r5]
    show (_ ∈ (mkAttrs own).items.map Attr.name ∧ _) ∨ _ ↔ _
    by_cases h : a.name ∈ inc.map Attr.name <;> simp [h, mkAttrs]
  constructor
  · rintro ⟨a, ha, rfl⟩
    obtain ⟨-, q2⟩ := List.mem_filter.1 ha
    rw [keep, decide_eq_true_eq] at q2
    obtain ⟨b, b1, b2⟩ := List.mem_map.1 q2
    exact ⟨b, b1, b2⟩
  · rintro ⟨a, ha, rfl⟩
    have hm : a.name ∈ (mkAttrs own).items.map Attr.name := List.mem_map_of_mem ha
    obtain ⟨b, b1, b2⟩ := List.mem_map.1 ((r3 a.name).2 (.inl hm))
    exact ⟨b, List.mem_filter.2 ⟨b1, by rw [keep, b2]; exact decide_eq_true hm⟩, b2⟩

example : copyDsAttrs (resolveAttrs (mkAttrs [⟨"a", 1⟩, ⟨"c", 1⟩]) [⟨"a", 2⟩, ⟨"b", 2⟩]) = [⟨"a", 1⟩, ⟨"c", 1⟩] := by decide +kernel

end Verif.SpecCopy

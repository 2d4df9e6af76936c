import Verif.Lemmas.MapperScope

/-! Reading a group gives back what was put into it. -/

namespace Verif.Mapper

open Verif

section
variable (E : Env) (rec : Oid → List ASpec → Except BErr Bld) (td : TypeDef) (p : Oid)
  (con : Sub → Except BErr (Oid × List (Oid × Obj)))

/-- The members of one kind that a specification adds. -/
def mOf (k : Kind) (i : Item) : List (String × Bld) :=
  if k = .dset then dOf E rec td p i else gOf E rec td p i

/-- The objects constructed from the builder of a child. -/
def os (x : Oid) (ext : List ASpec) : List (Oid × Obj) :=
  match con (.own (bo rec x ext)) with
  | .ok (_, l) => l
  | .error _ => []

/-- The sub-builders and link targets of a specification. -/
def subsOf (k : Kind) (s : TSpec) : List Sub :=
  ((vals E td p s).filter (own E p k)).map (fun x => Sub.own (bo rec x s.attrs)) ++
    ((vals E td p s).filter (fun x => !own E p k x)).map (fun x => Sub.lnk (lnk E x))

/-- The containers of a specification in the order in which they are read. -/
def readOrder (k : Kind) (s : TSpec) : List Oid :=
  (vals E td p s).filter (own E p k) ++ (vals E td p s).filter (fun x => !own E p k x)

/-- The value read for a specification with data type. -/
def expT (k : Kind) (s : TSpec) : FVal :=
  match s.name, vals E td p s with
  | some _, x :: _ => .one x
  | _, _ => flatten s.qty.isMany (readOrder E td p k s)

/-- The entry read for a specification with data type. -/
def evT (k : Kind) (s : TSpec) : Dict Nat (FVal × Bool) :=
  if (vals E td p s).isEmpty then [] else [(s.uid, (expT E td p k s, decide (k ≠ .link) && s.qty.isMany))]

/-- The objects read for a specification with data type. -/
def eoT (k : Kind) (s : TSpec) : List (Oid × Obj) :=
  ((vals E td p s).filter (own E p k)).flatMap (fun x => os rec con x s.attrs)

/-- The value of an attribute of a container. -/
def toF : AVal → FVal
  | .data d => .data d
  | .ref x => .one x

/-- What a build stores for an attribute. -/
def attrRes (s : ASpec) : Option AVal :=
  match attrOut E td p s with
  | .ok (some v) => some v
  | _ => none

/-- The entries read for attributes. -/
def evA (l : List ASpec) : Dict Nat (FVal × Bool) :=
  l.filterMap (fun s => (attrRes E td p s).map (fun v => (s.uid, (toF v, false))))

/-- What the construction of the sub-builders has to satisfy. -/
structure ConOK : Prop where
  child : ∀ x ext, rec x ext = .ok (bo rec x ext) → (E.heap x).parent = some p →
    con (.own (bo rec x ext)) = .ok (x, os rec con x ext)
  link : ∀ l, con (.lnk l) = .ok (l.target, [])
  dt : ∀ x ext b, rec x ext = .ok b → Sub.dt (.own b) = some (E.heap x).dt
  hier : ∀ t, (E.hier t).Nodup

end

section
variable {E : Env} {rec : Oid → List ASpec → Except BErr Bld} {td : TypeDef} {p : Oid}
  {con : Sub → Except BErr (Oid × List (Oid × Obj))}

theorem vals_hier {s : TSpec} {x : Oid} (h : x ∈ vals E td p s) : s.dt ∈ E.hier (E.heap x).dt := by
  unfold vals getAttrValue at h
  cases ha : td.spec2attr.get? s.uid with
  | none => rw [ha] at h; simp at h
  | some a =>
    cases hf : (E.heap p).fields.get? a with
    | none => rw [ha] at h; simp only [hf] at h; simp at h
    | some v =>
      rw [ha] at h; simp only [hf] at h
      cases v with
      | none => simp [filterDt] at h
      | data d => simp [filterDt] at h
      | one y =>
        simp only [filterDt] at h
        split at h
        · rename_i h1
          split at h1
          · rename_i hm
            cases h1
            simp only [List.mem_singleton] at h
            rw [h]; exact hm
          · cases h1
        · rename_i h1
          split at h1 <;> cases h1
        · simp at h
      | many ys =>
        simp only [filterDt] at h
        split at h
        · rename_i h1
          split at h1 <;> cases h1
        · rename_i h1
          split at h1
          · cases h1
          · cases h1
            exact of_decide_eq_true (List.mem_filter.1 h).2
        · simp at h

theorem textAttr_none {b : Bld} {n : String} (h : n ∉ Dict.keys b.attrs) : textAttr b n = none := by
  simp [textAttr, Dict.get?_eq_none_iff.2 h]

theorem dt_none {b : Bld} (h : "data_type" ∉ Dict.keys b.attrs) : Sub.dt (.own b) = none := by
  simp [Sub.dt, textAttr_none h]

theorem attrImg_notype {l : List ASpec} {n : String} (h : ∀ a ∈ l, a.name ≠ n) :
    n ∉ Dict.keys (attrImg E td p l) := by
  intro hm
  obtain ⟨a, ha, e⟩ := List.mem_map.1 ((attrImg_keys l).subset hm)
  exact h a ha e

theorem own_not_link {k : Kind} {x : Oid} (h : own E p k x = true) : k ≠ .link ∧ (E.heap x).parent = some p := by
  simpa [own] using h

theorem conList_append (l1 l2 : List Sub) : conList con (l1 ++ l2) = (do
    let (xs, os) ← conList con l1
    let (ys, os') ← conList con l2
    .ok (xs ++ ys, os ++ os')) := by
  induction l1 with
  | nil =>
    simp only [List.nil_append, conList]
    cases conList con l2 with
    | error e => rfl
    | ok v => rfl
  | cons s l ih =>
    simp only [List.cons_append, conList, ih]
    cases con s with
    | error e => rfl
    | ok v =>
      cases conList con l with
      | error e => rfl
      | ok v =>
        cases conList con l2 with
        | error e => rfl
        | ok v =>
          show Except.ok _ = Except.ok _
          simp

theorem conList_subs (hC : ConOK E rec p con) {k : Kind} {s : TSpec}
    (hB : ∀ x ∈ vals E td p s, Built E rec p k s x) :
    conList con (subsOf E rec td p k s) = .ok (readOrder E td p k s, eoT E rec td p con k s) := by
  unfold subsOf readOrder eoT
  rw [conList_append]
  have h1 : ∀ l : List Oid, (∀ x ∈ l, Built E rec p k s x ∧ own E p k x = true) →
      conList con (l.map (fun x => Sub.own (bo rec x s.attrs))) = .ok (l, l.flatMap (fun x => os rec con x s.attrs)) := by
    intro l
    induction l with
    | nil => intro _; rfl
    | cons x l ih =>
      intro h
      have hx := h x (by simp)
      have hc := hC.child x s.attrs (hx.1 hx.2).1 (own_not_link hx.2).2
      simp only [List.map_cons, conList, hc, ih (fun y hy => h y (by simp [hy]))]
      rfl
  have h2 : ∀ l : List Oid, conList con (l.map (fun x => Sub.lnk (lnk E x))) = .ok (l, []) := by
    intro l
    induction l with
    | nil => rfl
    | cons x l ih =>
      simp only [List.map_cons, conList, hC.link, ih]
      rfl
  rw [h1, h2]
  · show Except.ok _ = Except.ok _
    simp
  · intro x hx
    obtain ⟨ha, hb⟩ := List.mem_filter.1 hx
    exact ⟨hB x ha, hb⟩

theorem ne?_subs (k : Kind) (s : TSpec) : ne? (subsOf E rec td p k s) =
    if (vals E td p s).isEmpty then none else some (subsOf E rec td p k s) := by
  cases hv : vals E td p s with
  | nil => simp [ne?, subsOf, hv]
  | cons x l =>
    have : subsOf E rec td p k s ≠ [] := by
      intro h
      simp only [subsOf, hv, List.append_eq_nil_iff, List.map_eq_nil_iff, List.filter_eq_nil_iff] at h
      have a := h.1 x (by simp)
      have b := h.2 x (by simp)
      simp only [Bool.not_eq_true, Bool.not_eq_false'] at a b
      rw [a] at b; cases b
    unfold ne?
    cases hs : subsOf E rec td p k s with
    | nil => exact absurd hs this
    | cons _ _ => simp

/-! #### Index by type -/

theorem mOf_typed {k : Kind} (hk : k ≠ .link) (k' : Kind) (t : TSpec) :
    mOf E rec td p k (.typed k' t) = if k = k' then tOwn E rec td p k' t else [] := by
  cases k with
  | link => exact absurd rfl hk
  | dset => cases k' <;> simp [mOf, dOf]
  | group => cases k' <;> simp [mOf, gOf]

theorem mOf_untyped {I : List Item} (hS : Sound E td p I) (k : Kind) {i : Item} (hi : i ∈ I)
    (hu : ∀ k' t, i ≠ .typed k' t) : ∀ q ∈ mOf E rec td p k i, Sub.dt (.own q.2) = none := by
  intro q hq
  cases i with
  | attr s => simp [mOf, dOf, gOf] at hq
  | typed k' t => exact absurd rfl (hu k' t)
  | dset u n as =>
    have ha := (hS.attrs u n as hi).2
    unfold mOf at hq
    split at hq
    · simp only [dOf, uImg] at hq
      split at hq
      · split at hq
        · simp only [List.mem_singleton] at hq
          subst hq
          exact dt_none (attrImg_notype ha)
        · cases hq
      · cases hq
    · cases hq
  | grp g =>
    have ha := hS.gattrs g hi
    unfold mOf at hq
    split at hq
    · cases hq
    · simp only [gOf] at hq
      split at hq
      · simp only [List.mem_singleton] at hq
        subst hq
        cases g
        refine dt_none ?_
        simp only [inner]
        exact attrImg_notype ha
      · cases hq

theorem filterMap_nil {α β : Type} {P : α → Option β} {l : List α} (h : ∀ x ∈ l, P x = none) :
    l.filterMap P = [] := by
  induction l with
  | nil => rfl
  | cons x l ih => rw [List.filterMap_cons, h x (by simp)]; exact ih (fun y hy => h y (by simp [hy]))

theorem filterMap_map_some {α β γ : Type} {P : β → Option γ} {f : α → β} {g : α → γ} {l : List α}
    (h : ∀ x ∈ l, P (f x) = some (g x)) : (l.map f).filterMap P = l.map g := by
  induction l with
  | nil => rfl
  | cons x l ih =>
    rw [List.map_cons, List.filterMap_cons, h x (by simp), List.map_cons, ih (fun y hy => h y (by simp [hy]))]

theorem filterMap_filter {α β : Type} (q : α → Bool) (P : α → Option β) (l : List α) :
    (l.filter q).filterMap P = l.filterMap (fun x => if q x then P x else none) := by
  induction l with
  | nil => rfl
  | cons x l ih =>
    by_cases h : q x = true
    · simp [h, List.filterMap_cons, ih]
    · have h' : q x = false := by simpa using h
      simp [h', ih]

/-- The dictionary of the members of one kind. -/
def subDict (E : Env) (rec : Oid → List ASpec → Except BErr Bld) (td : TypeDef) (p : Oid) (I : List Item)
    (k : Kind) : Dict String Sub :=
  overlay (I.flatMap (mOf E rec td p k)) (I.flatMap (lOf E td p)) (decide (k = .dset))

theorem nodup_m {I : List Item} (hS : Sound E td p I) (k : Kind) :
    (Dict.keys (I.flatMap (mOf E rec td p k)) ++ Dict.keys (I.flatMap (lOf E td p))).Nodup := by
  have h1 := hS.nodup_d (rec := rec)
  have h2 := hS.nodup_g (rec := rec)
  have e : mOf E rec td p k = if k = .dset then dOf E rec td p else gOf E rec td p := by
    funext i; unfold mOf; split <;> rfl
  rw [e]
  split
  · exact h1
  · exact h2

theorem subDict_eq {I : List Item} (hS : Sound E td p I) (k : Kind) : subDict E rec td p I k =
    (I.flatMap (mOf E rec td p k)).map (fun q => (q.1, Sub.own q.2)) ++
      ((I.flatMap (lOf E td p)).filter (fun q => decide (q.2.isData = decide (k = .dset)))).map
        (fun q => (q.1, Sub.lnk q.2)) :=
  overlay_eq _ _ _ (nodup_m hS k)

theorem idx_unnamed {I : List Item} (hS : Sound E td p I) (hC : ConOK E rec p con) {k : Kind} {s : TSpec}
    (hm : Item.typed k s ∈ I) (hk : k ≠ .link) (hn : s.name = none)
    (hB : ∀ k s, Item.typed k s ∈ I → k ≠ .link → ∀ x ∈ vals E td p s, Built E rec p k s x) :
    Dict.get? (builderDt E (subDict E rec td p I k)) s.dt = ne? (subsOf E rec td p k s) := by
  rw [builderDt_get hC.hier, subDict_eq hS]
  congr 1
  rw [List.filterMap_append, List.filterMap_map, List.filterMap_map, filterMap_filter]
  unfold subsOf
  congr 1
  · rw [filterMap_flatMap_single Item.uid hm hS.uids]
    · rw [mOf_typed hk, if_pos rfl]
      unfold tOwn
      refine filterMap_map_some (fun x hx => ?_)
      obtain ⟨hx1, hx2⟩ := List.mem_filter.1 hx
      have hb := hB k s hm hk x hx1 hx2
      show ofType E s.dt (Sub.own (bo rec x s.attrs)) = _
      rw [ofType, hC.dt x s.attrs _ hb.1]
      simp [vals_hier hx1]
    · intro i hi hne
      refine filterMap_nil (fun q hq => ?_)
      show ofType E s.dt (Sub.own q.2) = none
      by_cases hty : ∃ k' t, i = .typed k' t
      · obtain ⟨k', t, rfl⟩ := hty
        rw [mOf_typed hk] at hq
        split at hq
        · rename_i hkk
          subst hkk
          obtain ⟨x, hx, rfl⟩ := List.mem_map.1 hq
          obtain ⟨hx1, hx2⟩ := List.mem_filter.1 hx
          have hb := hB k t hi hk x hx1 hx2
          have hsep := hS.sep k s hm hk hn k t hi hne x hx1 (hS.sort k t hi hk x hx1)
          rw [ofType, hC.dt x t.attrs _ hb.1]
          simp [hsep]
        · cases hq
      · have := mOf_untyped (rec := rec) hS k hi (fun k' t e => hty ⟨k', t, e⟩) q hq
        simp [ofType, this]
  · rw [filterMap_flatMap_single Item.uid hm hS.uids]
    · simp only [lOf, tLnk]
      refine filterMap_map_some (fun x hx => ?_)
      obtain ⟨hx1, hx2⟩ := List.mem_filter.1 hx
      have hd := hS.sort k s hm hk x hx1
      simp [lnk, hd, ofType, Sub.dt, vals_hier hx1]
    · intro i hi hne
      refine filterMap_nil (fun q hq => ?_)
      cases i with
      | attr s => simp [lOf] at hq
      | dset u n as => simp [lOf] at hq
      | grp g => simp [lOf] at hq
      | typed k' t =>
        simp only [lOf, tLnk] at hq
        obtain ⟨x, hx, rfl⟩ := List.mem_map.1 hq
        obtain ⟨hx1, hx2⟩ := List.mem_filter.1 hx
        by_cases hd : isData E x = decide (k = .dset)
        · have hsep := hS.sep k s hm hk hn k' t hi hne x hx1 hd
          simp [lnk, hd, ofType, Sub.dt, hsep]
        · simp [lnk, hd]

/-! #### Lookup by name -/

theorem keys_map_snd {α β : Type} (f : α → β) (l : Dict String α) :
    Dict.keys (l.map (fun q => (q.1, f q.2))) = Dict.keys l := by
  simp [Dict.keys, Function.comp_def]

theorem subDict_nodup {I : List Item} (hS : Sound E td p I) (k : Kind) :
    (Dict.keys (subDict E rec td p I k)).Nodup := by
  rw [subDict_eq hS, keys_append, keys_map_snd, keys_map_snd]
  refine (nodup_m (rec := rec) hS k).sublist ?_
  refine (List.Sublist.refl _).append ?_
  exact List.Sublist.map _ List.filter_sublist

theorem mem_subDict {I : List Item} (hS : Sound E td p I) (k : Kind) {n : String} {u : Sub} :
    (n, u) ∈ subDict E rec td p I k ↔
      (∃ i ∈ I, ∃ b, (n, b) ∈ mOf E rec td p k i ∧ u = .own b) ∨
      (∃ i ∈ I, ∃ l, (n, l) ∈ lOf E td p i ∧ l.isData = decide (k = .dset) ∧ u = .lnk l) := by
  rw [subDict_eq hS]
  simp only [List.mem_append, List.mem_map, List.mem_flatMap, List.mem_filter, Prod.mk.injEq, decide_eq_true_eq]
  constructor
  · rintro (⟨q, ⟨i, hi, hq⟩, rfl, rfl⟩ | ⟨q, ⟨⟨i, hi, hq⟩, hd⟩, rfl, rfl⟩)
    · exact Or.inl ⟨i, hi, q.2, hq, rfl⟩
    · exact Or.inr ⟨i, hi, q.2, hq, hd, rfl⟩
  · rintro (⟨i, hi, b, hb, rfl⟩ | ⟨i, hi, l, hl, hd, rfl⟩)
    · exact Or.inl ⟨(n, b), ⟨i, hi, hb⟩, rfl, rfl⟩
    · exact Or.inr ⟨(n, l), ⟨⟨i, hi, hl⟩, hd⟩, rfl, rfl⟩

theorem mem_names_m {I : List Item} (hS : Sound E td p I) {k : Kind} {i : Item} (hi : i ∈ I) {n : String} {b : Bld}
    (h : (n, b) ∈ mOf E rec td p k i) : n ∈ Item.names E td p i := by
  unfold mOf at h
  split at h
  · exact mem_names_d hS hi (Dict.mem_keys_of_mem h)
  · exact mem_names_g hS hi (Dict.mem_keys_of_mem h)

/-- Nothing of another specification stands under a name that belongs to a specification. -/
theorem get_absent {I : List Item} (hS : Sound E td p I) (k : Kind) {i : Item} (hi : i ∈ I) {n : String}
    (hn : n ∈ Item.names E td p i) (h1 : mOf E rec td p k i = [])
    (h2 : ∀ l, (n, l) ∈ lOf E td p i → l.isData ≠ decide (k = .dset)) :
    Dict.get? (subDict E rec td p I k) n = none := by
  rw [Dict.get?_eq_none_iff]
  intro hm
  obtain ⟨q, hq, e⟩ := List.mem_map.1 hm
  obtain ⟨n', u⟩ := q
  simp only at e
  subst e
  rcases (mem_subDict hS k).1 hq with ⟨j, hj, b, hb, _⟩ | ⟨j, hj, l, hl, hd, _⟩
  · have := flatMap_unique hS.names hi hj hn (mem_names_m hS hj hb)
    subst this
    rw [h1] at hb; cases hb
  · have := flatMap_unique hS.names hi hj hn (mem_names_l hS hj (Dict.mem_keys_of_mem hl))
    subst this
    exact h2 l hl hd

theorem get_present {I : List Item} (hS : Sound E td p I) (k : Kind) {n : String} {u : Sub}
    (h : (n, u) ∈ subDict E rec td p I k) : Dict.get? (subDict E rec td p I k) n = some u :=
  Dict.get?_of_mem (subDict_nodup hS k) h

theorem nat_fresh {d : Dict Nat (FVal × Bool)} {u : Nat} {l : List Nat} (h : (Dict.keys d ++ (u :: l)).Nodup) :
    u ∉ Dict.keys d := fresh_of_nodup h

theorem readTyped_ok {I : List Item} (hS : Sound E td p I) (hC : ConOK E rec p con) {k : Kind} {s : TSpec}
    (hm : Item.typed k s ∈ I) (hk : k ≠ .link)
    (hB : ∀ k s, Item.typed k s ∈ I → k ≠ .link → ∀ x ∈ vals E td p s, Built E rec p k s x) (r : Ret)
    (hu : s.uid ∉ Dict.keys r.vals) :
    readTyped con (subDict E rec td p I k) (builderDt E (subDict E rec td p I k)) s r =
      .ok ⟨r.vals ++ evT E td p k s, r.objs ++ eoT E rec td p con k s⟩ := by
  unfold readTyped
  cases hn : s.name with
  | none =>
    simp only
    rw [idx_unnamed hS hC hm hk hn hB, ne?_subs]
    cases hv : vals E td p s with
    | nil => simp [putList, evT, eoT, hv]
    | cons x l =>
      simp only [List.isEmpty_cons, Bool.false_eq_true, if_false, putList]
      rw [conList_subs hC (hB k s hm hk)]
      show Except.ok _ = Except.ok _
      rw [dset_fresh_nat hu]
      have he : expT E td p k s = flatten s.qty.isMany (readOrder E td p k s) := by simp [expT, hn]
      simp [evT, hv, he, hk]
  | some n =>
    simp only
    obtain ⟨h1, h2⟩ := hS.named k s n hm hn
    have hnm : n ∈ Item.names E td p (.typed k s) := by simp [Item.names, hn]
    cases hv : vals E td p s with
    | nil =>
      rw [get_absent (rec := rec) hS k hm hnm]
      · simp [putOne, evT, eoT, hv]
      · rw [mOf_typed hk, if_pos rfl]; simp [tOwn, hv]
      · intro l hl; simp [lOf, tLnk, hv] at hl
    | cons x l =>
      cases l with
      | cons y l => rw [hv] at h1; simp at h1
      | nil =>
        have hex : expT E td p k s = .one x := by simp [expT, hn, hv]
        have hx1 : x ∈ vals E td p s := by simp [hv]
        by_cases ho : own E p k x = true
        · have hb := hB k s hm hk x hx1 ho
          have hmem : (n, Sub.own (bo rec x s.attrs)) ∈ subDict E rec td p I k := by
            refine (mem_subDict hS k).2 (Or.inl ⟨_, hm, bo rec x s.attrs, ?_, rfl⟩)
            rw [mOf_typed hk, if_pos rfl]
            simp [tOwn, hv, ho, h2 x hx1 ho]
          rw [get_present hS k hmem]
          simp only [putOne, hC.child x s.attrs hb.1 (own_not_link ho).2]
          show Except.ok _ = Except.ok _
          rw [dset_fresh_nat hu]
          simp [evT, eoT, hv, hex, hk, ho]
        · have ho' : own E p k x = false := by simpa using ho
          have hmem : (n, Sub.lnk (lnk E x)) ∈ subDict E rec td p I k := by
            refine (mem_subDict hS k).2 (Or.inr ⟨_, hm, lnk E x, ?_, ?_, rfl⟩)
            · simp [lOf, tLnk, hv, ho', hn]
            · exact hS.sort k s hm hk x hx1
          rw [get_present hS k hmem]
          simp only [putOne, hC.link]
          show Except.ok _ = Except.ok _
          rw [dset_fresh_nat hu]
          simp [evT, eoT, hv, hex, hk, ho', lnk]

theorem links_nodup {I : List Item} (hS : Sound E td p I) : (Dict.keys (I.flatMap (lOf E td p))).Nodup :=
  (List.nodup_append.1 (hS.nodup_d (rec := fun _ _ => .error .value))).2.1

theorem readLink_ok {I : List Item} (hS : Sound E td p I) (hC : ConOK E rec p con) {s : TSpec}
    (hm : Item.typed .link s ∈ I) (r : Ret) (hu : s.uid ∉ Dict.keys r.vals) :
    readLink con (I.flatMap (lOf E td p)) s r = .ok ⟨r.vals ++ evT E td p .link s, r.objs⟩ := by
  have hown : ∀ x, own E p .link x = false := fun x => by simp [own]
  have hord : readOrder E td p .link s = vals E td p s := by
    simp [readOrder, hown]
  have heo : eoT E rec td p con .link s = [] := by simp [eoT, hown]
  have hBl : ∀ x ∈ vals E td p s, Built E rec p .link s x := by
    intro x _ h; rw [hown] at h; cases h
  have hcl := conList_subs hC hBl
  rw [hord, heo] at hcl
  -- the links of exactly the target type, if the name does not decide
  have hidx : (s.name = none ∨ vals E td p s = []) →
      Dict.get? (linkDt (I.flatMap (lOf E td p))) s.dt = ne? (subsOf E rec td p .link s) := by
    intro hc
    rw [linkDt_get]
    congr 1
    rw [filterMap_flatMap_single Item.uid hm hS.uids]
    · have hfil : (vals E td p s).filter (own E p .link) = [] :=
        List.filter_eq_nil_iff.2 (fun x _ => by rw [hown]; simp)
      simp only [lOf, tLnk, subsOf, hfil, List.map_nil, List.nil_append]
      refine filterMap_map_some (fun x hx => ?_)
      obtain ⟨hx1, _⟩ := List.mem_filter.1 hx
      rcases hc with hc | hc
      · simp [lnk, hS.ltype s hm hc x hx1]
      · rw [hc] at hx1; cases hx1
    · intro i hi hne
      refine filterMap_nil (fun q hq => ?_)
      cases i with
      | attr s => simp [lOf] at hq
      | dset u n as => simp [lOf] at hq
      | grp g => simp [lOf] at hq
      | typed k' t =>
        simp only [lOf, tLnk] at hq
        obtain ⟨x, hx, rfl⟩ := List.mem_map.1 hq
        obtain ⟨hx1, hx2⟩ := List.mem_filter.1 hx
        have := hS.lsep s hm hc k' t hi hne x hx1 (by simpa using hx2)
        simp [lnk, this]
  unfold readLink
  cases hn : s.name with
  | none =>
    simp only [Option.bind_none]
    rw [hidx (Or.inl hn), ne?_subs]
    cases hv : vals E td p s with
    | nil => simp [putList, evT, hv]
    | cons x l =>
      simp only [List.isEmpty_cons, Bool.false_eq_true, if_false, putList, hcl]
      show Except.ok _ = Except.ok _
      rw [dset_fresh_nat hu]
      have he : expT E td p .link s = flatten s.qty.isMany (vals E td p s) := by simp [expT, hn, hord]
      simp [evT, hv, he]
  | some n =>
    simp only [Option.bind_some]
    obtain ⟨h1, h2⟩ := hS.named .link s n hm hn
    have hnm : n ∈ Item.names E td p (.typed .link s) := by simp [Item.names, hn]
    cases hv : vals E td p s with
    | nil =>
      have hnone : Dict.get? (I.flatMap (lOf E td p)) n = none := by
        rw [Dict.get?_eq_none_iff, keys_flatMap]
        intro hmem
        obtain ⟨j, hj, hjn⟩ := List.mem_flatMap.1 hmem
        have := flatMap_unique hS.names hm hj hnm (mem_names_l hS hj hjn)
        subst this
        simp [lOf, tLnk, hv, Dict.keys] at hjn
      rw [hnone]
      simp only
      rw [hidx (Or.inr hv), ne?_subs, hv]
      simp [putList, evT, hv]
    | cons x l =>
      cases l with
      | cons y l => rw [hv] at h1; simp at h1
      | nil =>
        have hex : expT E td p .link s = .one x := by simp [expT, hn, hv]
        have hsome : Dict.get? (I.flatMap (lOf E td p)) n = some (lnk E x) := by
          refine Dict.get?_of_mem (links_nodup hS) (List.mem_flatMap.2 ⟨_, hm, ?_⟩)
          simp [lOf, tLnk, hv, hown, hn]
        rw [hsome]
        simp only [putOne, hC.link]
        show Except.ok _ = Except.ok _
        rw [dset_fresh_nat hu]
        simp [evT, hv, hex, lnk]

theorem readAttrs_ok (b : Bld) : ∀ (l : List ASpec) (r : Ret),
    (∀ s ∈ l, b.attrs.get? s.name = attrRes E td p s) → (Dict.keys r.vals ++ l.map ASpec.uid).Nodup →
    readAttrs b l r = ⟨r.vals ++ evA E td p l, r.objs⟩
  | [], r, _, _ => by simp [readAttrs, evA]
  | s :: l, r, hg, hu => by
    have hs := hg s (by simp)
    have hl : ∀ t ∈ l, b.attrs.get? t.name = attrRes E td p t := fun t ht => hg t (by simp [ht])
    simp only [readAttrs]
    cases hr : attrRes E td p s with
    | none =>
      rw [hr] at hs
      rw [hs]
      simp only
      rw [readAttrs_ok b l r hl (hu.sublist (by simp))]
      simp [evA, hr]
    | some v =>
      rw [hr] at hs
      rw [hs]
      have hf : s.uid ∉ Dict.keys r.vals := nat_fresh (l := l.map ASpec.uid) (by simpa using hu)
      have hput : ∀ w, (⟨r.vals ++ [(s.uid, (w, false))], r.objs⟩ : Ret) = r.put s.uid w false := by
        intro w; simp [Ret.put, dset_fresh_nat hf]
      have hn : ∀ w : FVal, (Dict.keys (r.vals ++ [(s.uid, (w, false))]) ++ l.map ASpec.uid).Nodup := by
        intro w; simpa [keys_append, Dict.keys] using hu
      cases v with
      | data d =>
        simp only
        rw [← hput, readAttrs_ok b l _ hl (hn _)]
        simp [evA, hr, toF]
      | ref x =>
        simp only
        rw [← hput, readAttrs_ok b l _ hl (hn _)]
        simp [evA, hr, toF]

theorem evA_keys (l : List ASpec) : (Dict.keys (evA E td p l)).Sublist (l.map ASpec.uid) := by
  induction l with
  | nil => simp [evA, Dict.keys]
  | cons s l ih =>
    unfold evA at ih ⊢
    cases hr : attrRes E td p s with
    | none => rw [List.filterMap_cons]; simp only [hr, Option.map_none]; exact ih.cons _
    | some v =>
      rw [List.filterMap_cons]
      simp only [hr, Option.map_some]
      simpa [Dict.keys] using ih

theorem evT_keys (k : Kind) (s : TSpec) : (Dict.keys (evT E td p k s)).Sublist [s.uid] := by
  unfold evT
  split <;> simp [Dict.keys]

theorem fresh_step {d : Dict Nat (FVal × Bool)} {e : Dict Nat (FVal × Bool)} {u v : List Nat}
    (h : (Dict.keys d ++ (u ++ v)).Nodup) (he : (Dict.keys e).Sublist u) : (Dict.keys (d ++ e) ++ v).Nodup := by
  refine h.sublist ?_
  rw [keys_append, List.append_assoc]
  exact (List.Sublist.refl _).append (he.append (List.Sublist.refl _))

theorem readLinks_ok {I : List Item} (hS : Sound E td p I) (hC : ConOK E rec p con) : ∀ (l : List TSpec) (r : Ret),
    (∀ s ∈ l, Item.typed .link s ∈ I) → (Dict.keys r.vals ++ l.map TSpec.uid).Nodup →
    readLinks con (I.flatMap (lOf E td p)) l r = .ok ⟨r.vals ++ l.flatMap (evT E td p .link), r.objs⟩
  | [], r, _, _ => by simp [readLinks]
  | s :: l, r, hi, hu => by
    simp only [readLinks]
    rw [readLink_ok hS hC (hi s (by simp)) r (nat_fresh (l := l.map TSpec.uid) (by simpa using hu))]
    have := readLinks_ok hS hC l ⟨r.vals ++ evT E td p .link s, r.objs⟩ (fun t ht => hi t (by simp [ht]))
      (fresh_step (u := [s.uid]) (by simpa using hu) (evT_keys _ _))
    show readLinks con _ l ⟨r.vals ++ evT E td p .link s, r.objs⟩ = _
    rw [this]
    simp

theorem get?_attrImg {l : List ASpec} (hn : (l.map ASpec.name).Nodup) {s : ASpec} (hs : s ∈ l) :
    Dict.get? (attrImg E td p l) s.name = attrRes E td p s := by
  cases hr : attrRes E td p s with
  | none =>
    rw [Dict.get?_eq_none_iff]
    intro hm
    obtain ⟨q, hq, e⟩ := List.mem_map.1 hm
    unfold attrImg at hq
    obtain ⟨t, ht, htq⟩ := List.mem_filterMap.1 hq
    have hte : t.name = s.name := by
      split at htq
      · cases htq; exact e
      · cases htq
    have : t = s := List.inj_on_of_nodup_map hn ht hs hte
    subst this
    unfold attrRes at hr
    split at hr
    · cases hr
    · rename_i hno
      split at htq
      · rename_i v hv; exact hno v hv
      · cases htq
  | some v =>
    refine Dict.get?_of_mem (hn.sublist (attrImg_keys l)) ?_
    unfold attrImg
    refine List.mem_filterMap.2 ⟨s, hs, ?_⟩
    unfold attrRes at hr
    split at hr
    · rename_i w hw
      simp only [Option.some.injEq] at hr
      simp [hw, hr]
    · cases hr

/-- The entries read for a dataset without data type. -/
def evU (E : Env) (td : TypeDef) (p : Oid) (uid : Nat) (name : String) (attrs : List ASpec) :
    Dict Nat (FVal × Bool) :=
  (uImg E td p uid name attrs).flatMap (fun q => evA E td p attrs ++ (match q.2.data with
    | some d => [(uid, (FVal.data d, false))]
    | none => []))

/-- The entries read for the datasets of a group. -/
def evD (E : Env) (td : TypeDef) (p : Oid) : List DS → Dict Nat (FVal × Bool)
  | [] => []
  | .untyped uid name _ attrs :: l => evU E td p uid name attrs ++ evD E td p l
  | .typed s :: l => evT E td p .dset s ++ evD E td p l

/-- The objects read for the datasets of a group. -/
def eoD (E : Env) (rec : Oid → List ASpec → Except BErr Bld) (td : TypeDef) (p : Oid)
    (con : Sub → Except BErr (Oid × List (Oid × Obj))) : List DS → List (Oid × Obj)
  | [] => []
  | .untyped _ _ _ _ :: l => eoD E rec td p con l
  | .typed s :: l => eoT E rec td p con .dset s ++ eoD E rec td p con l

/-- The identities of the specifications of datasets. -/
def dsU : List DS → List Nat
  | [] => []
  | .untyped uid _ _ attrs :: l => (attrs.map ASpec.uid ++ [uid]) ++ dsU l
  | .typed s :: l => [s.uid] ++ dsU l

theorem uImg_cases (uid : Nat) (name : String) (attrs : List ASpec) : uImg E td p uid name attrs = [] ∨
    ∃ d, uImg E td p uid name attrs = [(name, { Bld.dataset name d with attrs := attrImg E td p attrs })] := by
  unfold uImg
  split
  · split
    · exact Or.inr ⟨_, rfl⟩
    · exact Or.inl rfl
  · exact Or.inl rfl

theorem evU_keys (uid : Nat) (name : String) (attrs : List ASpec) :
    (Dict.keys (evU E td p uid name attrs)).Sublist (attrs.map ASpec.uid ++ [uid]) := by
  rcases uImg_cases (E := E) (td := td) (p := p) uid name attrs with h | ⟨d, h⟩
  · simp [evU, h, Dict.keys]
  · simp only [evU, h, Bld.dataset, List.flatMap_cons, List.flatMap_nil, List.append_nil, keys_append]
    exact (evA_keys attrs).append (by simp [Dict.keys])

theorem readDsets_ok {I : List Item} (hS : Sound E td p I) (hC : ConOK E rec p con)
    (hB : ∀ k s, Item.typed k s ∈ I → k ≠ .link → ∀ x ∈ vals E td p s, Built E rec p k s x) :
    ∀ (l : List DS) (r : Ret), (∀ d ∈ l, dsItem d ∈ I) → (Dict.keys r.vals ++ dsU l).Nodup →
    readDsets con (subDict E rec td p I .dset) (builderDt E (subDict E rec td p I .dset)) l r =
      .ok ⟨r.vals ++ evD E td p l, r.objs ++ eoD E rec td p con l⟩
  | [], r, _, _ => by simp [readDsets, evD, eoD]
  | .typed s :: l, r, hi, hu => by
    simp only [readDsets]
    simp only [dsU] at hu
    have hm : Item.typed .dset s ∈ I := hi (.typed s) (by simp)
    rw [readTyped_ok hS hC hm (by simp) hB r (nat_fresh (l := dsU l) (by simpa using hu))]
    have := readDsets_ok hS hC hB l ⟨r.vals ++ evT E td p .dset s, r.objs ++ eoT E rec td p con .dset s⟩
      (fun t ht => hi t (by simp [ht])) (fresh_step hu (evT_keys _ _))
    show readDsets con _ _ l ⟨r.vals ++ evT E td p .dset s, r.objs ++ eoT E rec td p con .dset s⟩ = _
    rw [this]
    simp [evD, eoD]
  | .untyped uid name req attrs :: l, r, hi, hu => by
    simp only [readDsets]
    simp only [dsU] at hu
    have hm : Item.dset uid name attrs ∈ I := hi (.untyped uid name req attrs) (by simp)
    have hnm : name ∈ Item.names E td p (.dset uid name attrs) := by simp [Item.names]
    have ih := fun r' hu' => readDsets_ok hS hC hB l r' (fun t ht => hi t (by simp [ht])) hu'
    rcases uImg_cases (E := E) (td := td) (p := p) uid name attrs with h | ⟨d, h⟩
    · rw [get_absent (rec := rec) hS .dset hm hnm (by simp [mOf, dOf, h]) (by simp [lOf])]
      simp only
      rw [ih r (by simpa using fresh_step (e := []) hu (by simp [Dict.keys]))]
      simp [evD, eoD, evU, h]
    · have hmem : (name, Sub.own { Bld.dataset name d with attrs := attrImg E td p attrs }) ∈
          subDict E rec td p I .dset :=
        (mem_subDict hS .dset).2 (Or.inl ⟨_, hm, _, by simp [mOf, dOf, h], rfl⟩)
      rw [get_present hS .dset hmem]
      simp only [Bld.dataset]
      have hra := readAttrs_ok (E := E) (td := td) (p := p) { Bld.dataset name d with attrs := attrImg E td p attrs }
        attrs r (fun s hs => get?_attrImg (hS.attrs _ _ _ hm).1 hs) (hu.sublist (by simp))
      simp only [Bld.dataset] at hra
      rw [hra]
      have hf1 : (Dict.keys (r.vals ++ evA E td p attrs) ++ (uid :: dsU l)).Nodup :=
        fresh_step (u := attrs.map ASpec.uid) (by simpa using hu) (evA_keys _)
      have hput : (⟨r.vals ++ evA E td p attrs, r.objs⟩ : Ret).put uid (.data d) false =
          ⟨r.vals ++ evU E td p uid name attrs, r.objs⟩ := by
        simp only [Ret.put, dset_fresh_nat (nat_fresh hf1)]
        simp [evU, h, Bld.dataset]
      rw [hput, ih _ (fresh_step hu (evU_keys uid name attrs))]
      simp [evD, eoD]

mutual
/-- The entries read for the subgroups of a group. -/
def evG (E : Env) (rec : Oid → List ASpec → Except BErr Bld) (td : TypeDef) (p : Oid) :
    GList → Dict Nat (FVal × Bool)
  | .nil => []
  | .typed s l => evT E td p .group s ++ evG E rec td p l
  | .untyped g l =>
    (if !isEmpty (inner E rec td p g) || g.required then evS E rec td p g else []) ++ evG E rec td p l
/-- The entries read for a group. -/
def evS (E : Env) (rec : Oid → List ASpec → Except BErr Bld) (td : TypeDef) (p : Oid) :
    GSpec → Dict Nat (FVal × Bool)
  | .mk _ _ _ attrs dsets groups links =>
    evA E td p attrs ++ (links.flatMap (evT E td p .link) ++ (evG E rec td p groups ++ evD E td p dsets))
end

mutual
/-- The objects read for the subgroups of a group. -/
def eoG (E : Env) (rec : Oid → List ASpec → Except BErr Bld) (td : TypeDef) (p : Oid)
    (con : Sub → Except BErr (Oid × List (Oid × Obj))) : GList → List (Oid × Obj)
  | .nil => []
  | .typed s l => eoT E rec td p con .group s ++ eoG E rec td p con l
  | .untyped g l =>
    (if !isEmpty (inner E rec td p g) || g.required then eoS E rec td p con g else []) ++ eoG E rec td p con l
/-- The objects read for a group. -/
def eoS (E : Env) (rec : Oid → List ASpec → Except BErr Bld) (td : TypeDef) (p : Oid)
    (con : Sub → Except BErr (Oid × List (Oid × Obj))) : GSpec → List (Oid × Obj)
  | .mk _ _ _ _ dsets groups _ => eoG E rec td p con groups ++ eoD E rec td p con dsets
end

mutual
/-- The identities of the specifications in the subgroups. -/
def gU : GList → List Nat
  | .nil => []
  | .typed s l => [s.uid] ++ gU l
  | .untyped g l => sU g ++ gU l
/-- The identities of the specifications in a group, in the order in which they are read. -/
def sU : GSpec → List Nat
  | .mk _ _ _ attrs dsets groups links =>
    attrs.map ASpec.uid ++ (links.map TSpec.uid ++ (gU groups ++ dsU dsets))
end

theorem evD_keys : ∀ l : List DS, (Dict.keys (evD E td p l)).Sublist (dsU l)
  | [] => by simp [evD, dsU, Dict.keys]
  | .untyped u n _ as :: l => by
    simp only [evD, dsU, keys_append]; exact (evU_keys u n as).append (evD_keys l)
  | .typed s :: l => by
    simp only [evD, dsU, keys_append]; exact (evT_keys _ s).append (evD_keys l)

theorem evL_keys (l : List TSpec) :
    (Dict.keys (l.flatMap (evT E td p .link))).Sublist (l.map TSpec.uid) := by
  induction l with
  | nil => simp [Dict.keys]
  | cons s l ih =>
    simp only [List.flatMap_cons, keys_append, List.map_cons]
    exact (evT_keys (E := E) (td := td) (p := p) .link s).append ih

mutual
theorem evG_keys : ∀ l : GList, (Dict.keys (evG E rec td p l)).Sublist (gU l)
  | .nil => by simp [evG, gU, Dict.keys]
  | .typed s l => by
    simp only [evG, gU, keys_append]; exact (evT_keys _ s).append (evG_keys l)
  | .untyped g l => by
    simp only [evG, gU, keys_append]
    refine List.Sublist.append ?_ (evG_keys l)
    split
    · exact evS_keys g
    · simp [Dict.keys]
theorem evS_keys : ∀ g : GSpec, (Dict.keys (evS E rec td p g)).Sublist (sU g)
  | .mk _ _ _ attrs dsets groups links => by
    simp only [evS, sU, keys_append]
    exact (evA_keys attrs).append ((evL_keys links).append ((evG_keys groups).append (evD_keys dsets)))
end

theorem sound_builtI {g : GSpec} {I : List Item}
    (hI : ∀ k s, Item.typed k s ∈ I → k ≠ .link → (k, s) ∈ typedS g)
    (hB : ∀ k s, (k, s) ∈ typedS g → ∀ x ∈ vals E td p s, Built E rec p k s x) :
    ∀ k s, Item.typed k s ∈ I → k ≠ .link → ∀ x ∈ vals E td p s, Built E rec p k s x :=
  fun k s hm hk => hB k s (hI k s hm hk)

theorem gItems_typed {k : Kind} {s : TSpec} : ∀ l : GList, Item.typed k s ∈ gItems l → (k, s) ∈ typedG l
  | .nil, h => by simp [gItems] at h
  | .typed t l, h => by
    simp only [gItems, List.mem_cons, Item.typed.injEq] at h
    simp only [typedG, List.mem_cons, Prod.mk.injEq]
    rcases h with h | h
    · exact Or.inl h
    · exact Or.inr (gItems_typed l h)
  | .untyped g l, h => by
    simp only [gItems, List.mem_cons, reduceCtorEq, false_or] at h
    simp only [typedG, List.mem_append]
    exact Or.inr (gItems_typed l h)

theorem dsItems_typed {k : Kind} {s : TSpec} {l : List DS} (h : Item.typed k s ∈ l.map dsItem) :
    k = .dset ∧ s ∈ dsTyped l := by
  induction l with
  | nil => simp at h
  | cons d l ih =>
    simp only [List.map_cons, List.mem_cons] at h
    rcases h with h | h
    · cases d with
      | untyped u n r as => simp [dsItem] at h
      | typed t => simp only [dsItem, Item.typed.injEq] at h; simp [dsTyped, h.1, h.2]
    · have := ih h
      cases d with
      | untyped u n r as => simpa [dsTyped] using this
      | typed t => exact ⟨this.1, by simp [dsTyped, this.2]⟩

theorem inner_typed (g : GSpec) : ∀ k s, Item.typed k s ∈ innerItems g → k ≠ .link → (k, s) ∈ typedS g := by
  intro k s hm hk
  cases g with
  | mk uid name req attrs dsets groups links =>
    simp only [innerItems, GSpec.dsets, GSpec.groups, GSpec.links, GSpec.attrs, List.mem_append] at hm
    simp only [typedS, List.mem_append, List.mem_map, Prod.mk.injEq]
    rcases hm with h | h | h | h
    · have := dsItems_typed h
      exact Or.inl ⟨s, this.2, this.1.symm, rfl⟩
    · obtain ⟨t, _, ht⟩ := List.mem_map.1 h
      cases ht; exact absurd rfl hk
    · exact Or.inr (gItems_typed groups h)
    · obtain ⟨t, _, ht⟩ := List.mem_map.1 h
      cases ht

theorem root_typed (g : GSpec) : ∀ k s, Item.typed k s ∈ rootItems g → k ≠ .link → (k, s) ∈ typedS g := by
  intro k s hm hk
  refine inner_typed g k s ?_ hk
  simp only [rootItems, innerItems, List.mem_append] at hm ⊢
  rcases hm with h | h | h | h
  · exact Or.inl h
  · exact Or.inr (Or.inr (Or.inl h))
  · exact Or.inr (Or.inl h)
  · exact Or.inr (Or.inr (Or.inr h))

theorem mOf_dset : mOf E rec td p .dset = dOf E rec td p := by funext i; simp [mOf]
theorem mOf_group : mOf E rec td p .group = gOf E rec td p := by funext i; simp [mOf]

mutual
theorem readGroups_ok {I : List Item} (hS : Sound E td p I) (hC : ConOK E rec p con)
    (hB : ∀ k s, Item.typed k s ∈ I → k ≠ .link → ∀ x ∈ vals E td p s, Built E rec p k s x) :
    ∀ (l : GList) (r : Ret), (∀ i ∈ gItems l, i ∈ I) → SoundGs E td p l →
    (∀ k s, (k, s) ∈ typedG l → ∀ x ∈ vals E td p s, Built E rec p k s x) →
    (Dict.keys r.vals ++ gU l).Nodup →
    readGroups E con (subDict E rec td p I .group) (builderDt E (subDict E rec td p I .group)) l r =
      .ok ⟨r.vals ++ evG E rec td p l, r.objs ++ eoG E rec td p con l⟩
  | .nil, r, _, _, _, _ => by simp [readGroups, evG, eoG]
  | .typed s l, r, hi, hG, hBl, hu => by
    simp only [readGroups]
    simp only [gU] at hu
    simp only [SoundGs] at hG
    simp only [gItems, List.mem_cons, forall_eq_or_imp] at hi
    rw [readTyped_ok hS hC hi.1 (by simp) hB r (nat_fresh (l := gU l) (by simpa using hu))]
    have := readGroups_ok hS hC hB l ⟨r.vals ++ evT E td p .group s, r.objs ++ eoT E rec td p con .group s⟩
      hi.2 hG (fun k t ht => hBl k t (by simp [typedG, ht])) (fresh_step hu (evT_keys _ _))
    show readGroups E con _ _ l ⟨r.vals ++ evT E td p .group s, r.objs ++ eoT E rec td p con .group s⟩ = _
    rw [this]
    simp [evG, eoG]
  | .untyped g l, r, hi, hG, hBl, hu => by
    simp only [readGroups]
    simp only [gU] at hu
    simp only [SoundGs] at hG
    simp only [gItems, List.mem_cons, forall_eq_or_imp] at hi
    have hnm : g.name ∈ Item.names E td p (.grp g) := by simp [Item.names]
    have ih := fun r' hu' => readGroups_ok hS hC hB l r' hi.2 hG.2 (fun k t ht => hBl k t (by simp [typedG, ht])) hu'
    by_cases hp : (!isEmpty (inner E rec td p g) || g.required) = true
    · have hmem : (g.name, Sub.own (inner E rec td p g)) ∈ subDict E rec td p I .group :=
        (mem_subDict hS .group).2 (Or.inl ⟨_, hi.1, inner E rec td p g, by simp only [mOf, gOf, hp]; simp, rfl⟩)
      rw [get_present hS .group hmem]
      simp only
      rw [readSpec_ok hC g r hG.1 (fun k t ht => hBl k t (by simp [typedG, ht])) (hu.sublist (by simp))]
      show readGroups E con _ _ l ⟨r.vals ++ evS E rec td p g, r.objs ++ eoS E rec td p con g⟩ = _
      rw [ih _ (fresh_step hu (evS_keys g))]
      simp [evG, eoG, hp]
    · rw [get_absent (rec := rec) hS .group hi.1 hnm (by simp only [mOf, gOf, hp]; simp) (by simp [lOf])]
      simp only
      rw [ih r (by simpa using fresh_step (e := []) hu (by simp [Dict.keys]))]
      simp [evG, eoG, hp]
theorem readSpec_ok (hC : ConOK E rec p con) : ∀ (g : GSpec) (r : Ret), SoundG E td p g →
    (∀ k s, (k, s) ∈ typedS g → ∀ x ∈ vals E td p s, Built E rec p k s x) →
    (Dict.keys r.vals ++ sU g).Nodup →
    readSpec E con (inner E rec td p g) g r = .ok ⟨r.vals ++ evS E rec td p g, r.objs ++ eoS E rec td p con g⟩
  | .mk uid name req attrs dsets groups links, r, hG, hBl, hu => by
    simp only [SoundG] at hG
    obtain ⟨hS, hGs⟩ := hG
    obtain ⟨i1, i2, i3, _, _⟩ := inner_img E rec td p (.mk uid name req attrs dsets groups links)
    simp only [GSpec.dsets, GSpec.groups, GSpec.links] at i1 i2 i3
    have hBI := sound_builtI (inner_typed (.mk uid name req attrs dsets groups links)) hBl
    simp only [sU] at hu
    simp only [readSpec, inner]
    rw [← i1, ← i2, ← i3]
    have hnm : (attrs.map ASpec.name).Nodup := by
      have := hS.names
      simp only [innerItems, GSpec.attrs, List.flatMap_append, attrs_names] at this
      exact this.sublist (((List.sublist_append_right _ _).trans (List.sublist_append_right _ _)).trans
        (List.sublist_append_right _ _))
    rw [readAttrs_ok (E := E) (td := td) (p := p) _ attrs r (fun s hs => get?_attrImg hnm hs) (hu.sublist (by simp))]
    have hu2 := fresh_step (u := attrs.map ASpec.uid) hu (evA_keys (E := E) (td := td) (p := p) attrs)
    rw [readLinks_ok hS hC links _ ?_ (hu2.sublist (by simp))]
    · have hu3 := fresh_step (u := links.map TSpec.uid) hu2 (evL_keys (E := E) (td := td) (p := p) links)
      show (readGroups E con _ _ groups _ >>= _) = _
      have hg := readGroups_ok hS hC hBI groups
        ⟨(r.vals ++ evA E td p attrs) ++ links.flatMap (evT E td p .link), r.objs⟩ ?_ hGs
        (fun k t ht => hBl k t (by simp [typedS, ht])) (hu3.sublist (by simp))
      · have e1 : subDict E rec td p (innerItems (.mk uid name req attrs dsets groups links)) .group =
            overlay ((innerItems (.mk uid name req attrs dsets groups links)).flatMap (gOf E rec td p))
              ((innerItems (.mk uid name req attrs dsets groups links)).flatMap (lOf E td p)) false := by
          unfold subDict; rw [mOf_group]; rfl
        have e2 : subDict E rec td p (innerItems (.mk uid name req attrs dsets groups links)) .dset =
            overlay ((innerItems (.mk uid name req attrs dsets groups links)).flatMap (dOf E rec td p))
              ((innerItems (.mk uid name req attrs dsets groups links)).flatMap (lOf E td p)) true := by
          unfold subDict; rw [mOf_dset]; rfl
        rw [e1] at hg
        rw [hg]
        have hu4 := fresh_step (u := gU groups) hu3 (evG_keys (E := E) (rec := rec) (td := td) (p := p) groups)
        have hd := readDsets_ok hS hC hBI dsets
          ⟨((r.vals ++ evA E td p attrs) ++ links.flatMap (evT E td p .link)) ++ evG E rec td p groups,
            r.objs ++ eoG E rec td p con groups⟩ ?_ hu4
        · rw [e2] at hd
          refine hd.trans ?_
          simp [evS, eoS]
        · intro d hd
          simp only [innerItems, GSpec.dsets, List.mem_append]
          exact Or.inl (List.mem_map_of_mem hd)
      · intro i hi
        simp only [innerItems, GSpec.groups, List.mem_append]
        exact Or.inr (Or.inr (Or.inl hi))
    · intro s hs
      simp only [innerItems, GSpec.links, List.mem_append]
      exact Or.inr (Or.inl (List.mem_map_of_mem hs))
end

end

end Verif.Mapper

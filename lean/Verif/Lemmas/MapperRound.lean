import Verif.Lemmas.MapperRead

/-! A container that is built and constructed again. -/

namespace Verif.Mapper

open Verif

/-! ### The values read, without regard to groups that are left out because they are empty -/

section
variable (E : Env) (rec : Oid → List ASpec → Except BErr Bld) (td : TypeDef) (p : Oid)
  (con : Sub → Except BErr (Oid × List (Oid × Obj)))

mutual
/-- The entries read for the subgroups of a group. -/
def ev0G : GList → Dict Nat (FVal × Bool)
  | .nil => []
  | .typed s l => evT E td p .group s ++ ev0G l
  | .untyped g l => ev0S g ++ ev0G l
/-- The entries read for a group. -/
def ev0S : GSpec → Dict Nat (FVal × Bool)
  | .mk _ _ _ attrs dsets groups links =>
    evA E td p attrs ++ (links.flatMap (evT E td p .link) ++ (ev0G groups ++ evD E td p dsets))
end

mutual
/-- The objects read for the subgroups of a group. -/
def eo0G : GList → List (Oid × Obj)
  | .nil => []
  | .typed s l => eoT E rec td p con .group s ++ eo0G l
  | .untyped g l => eo0S g ++ eo0G l
/-- The objects read for a group. -/
def eo0S : GSpec → List (Oid × Obj)
  | .mk _ _ _ _ dsets groups _ => eo0G groups ++ eoD E rec td p con dsets
end

end

section
variable {E : Env} {rec : Oid → List ASpec → Except BErr Bld} {td : TypeDef} {p : Oid}
  {con : Sub → Except BErr (Oid × List (Oid × Obj))}

theorem vals_nil {k : Kind} {s : TSpec} (h1 : (vals E td p s).filter (own E p k) = []) (h2 : tLnk E td p k s = []) :
    vals E td p s = [] := by
  unfold tLnk at h2
  rw [List.map_eq_nil_iff] at h2
  cases hv : vals E td p s with
  | nil => rfl
  | cons x l =>
    rw [hv] at h1 h2
    by_cases ho : own E p k x = true
    · simp [ho] at h1
    · simp [ho] at h2

theorem evT_nil {k : Kind} {s : TSpec} (h : vals E td p s = []) : evT E td p k s = [] := by simp [evT, h]
theorem eoT_nil {k : Kind} {s : TSpec} (h : vals E td p s = []) : eoT E rec td p con k s = [] := by simp [eoT, h]

theorem tOwn_nil {k : Kind} {s : TSpec} (h : tOwn E rec td p k s = []) : (vals E td p s).filter (own E p k) = [] := by
  unfold tOwn at h
  exact List.map_eq_nil_iff.1 h

theorem evA_nil {l : List ASpec} (h : attrImg E td p l = []) : evA E td p l = [] := by
  induction l with
  | nil => rfl
  | cons s l ih =>
    unfold attrImg evA at *
    rw [List.filterMap_cons] at h ⊢
    split at h
    · rename_i hn
      split at hn
      · cases hn
      · rename_i hno
        have : attrRes E td p s = none := by
          unfold attrRes
          split
          · rename_i v hv; exact absurd hv (hno v)
          · rfl
        simp only [this, Option.map_none]
        exact ih h
    · cases h

theorem evD_nil : ∀ l : List DS, dsImg E rec td p l = [] → dsLnk E td p l = [] →
    evD E td p l = [] ∧ eoD E rec td p con l = []
  | [], _, _ => ⟨rfl, rfl⟩
  | .untyped u n _ as :: l, h1, h2 => by
    simp only [dsImg, List.append_eq_nil_iff] at h1
    simp only [dsLnk] at h2
    obtain ⟨q1, q2⟩ := evD_nil l h1.2 h2
    simp [evD, eoD, evU, h1.1, q1, q2]
  | .typed s :: l, h1, h2 => by
    simp only [dsImg, List.append_eq_nil_iff] at h1
    simp only [dsLnk, List.append_eq_nil_iff] at h2
    obtain ⟨q1, q2⟩ := evD_nil l h1.2 h2.2
    have hv := vals_nil (tOwn_nil h1.1) h2.1
    simp [evD, eoD, evT_nil hv, eoT_nil hv, q1, q2]

theorem evL_nil : ∀ l : List TSpec, lLnk E td p l = [] → l.flatMap (evT E td p .link) = []
  | [], _ => rfl
  | s :: l, h => by
    simp only [lLnk, List.flatMap_cons, List.append_eq_nil_iff] at h
    have hf : (vals E td p s).filter (own E p .link) = [] :=
      List.filter_eq_nil_iff.2 (fun x _ => by simp [own])
    simp [evT_nil (vals_nil hf h.1), evL_nil l h.2]

theorem allEmpty_append (a b : List (String × Bld)) : allEmpty (a ++ b) = (allEmpty a && allEmpty b) := by
  induction a with
  | nil => simp [allEmpty]
  | cons q a ih => obtain ⟨n, g⟩ := q; simp [allEmpty, ih, Bool.and_assoc]

theorem not_empty_of_dt {b : Bld} {t : String} (h : Sub.dt (.own b) = some t) : isEmpty b = false := by
  cases b with
  | mk d n dat attrs ds gs ls =>
    cases attrs with
    | nil => simp [Sub.dt, textAttr] at h
    | cons a as => simp [isEmpty]

theorem tOwn_empty {s : TSpec} (hC : ConOK E rec p con) (hB : ∀ x ∈ vals E td p s, Built E rec p .group s x)
    (h : allEmpty (tOwn E rec td p .group s) = true) : (vals E td p s).filter (own E p .group) = [] := by
  cases hv : (vals E td p s).filter (own E p .group) with
  | nil => rfl
  | cons x l =>
    have hx : x ∈ (vals E td p s).filter (own E p .group) := by simp [hv]
    rw [List.mem_filter] at hx
    have hb := (hB x hx.1 hx.2).1
    have := not_empty_of_dt (hC.dt _ _ _ hb)
    simp [tOwn, hv, allEmpty, this] at h

mutual
theorem ev0G_nil (hC : ConOK E rec p con) : ∀ l : GList,
    (∀ k s, (k, s) ∈ typedG l → ∀ x ∈ vals E td p s, Built E rec p k s x) →
    allEmpty (gImg E rec td p l) = true → gLnk E rec td p l = [] →
    ev0G E td p l = [] ∧ eo0G E rec td p con l = []
  | .nil, _, _, _ => by simp [ev0G, eo0G]
  | .typed s l, hB, h1, h2 => by
    simp only [gImg, allEmpty_append, Bool.and_eq_true] at h1
    simp only [gLnk, List.append_eq_nil_iff] at h2
    obtain ⟨q1, q2⟩ := ev0G_nil hC l (fun k t ht => hB k t (by simp [typedG, ht])) h1.2 h2.2
    have hv := vals_nil (tOwn_empty hC (hB .group s (by simp [typedG])) h1.1) h2.1
    simp [ev0G, eo0G, evT_nil hv, eoT_nil hv, q1, q2]
  | .untyped g l, hB, h1, h2 => by
    simp only [gImg, allEmpty_append, Bool.and_eq_true] at h1
    simp only [gLnk] at h2
    obtain ⟨q1, q2⟩ := ev0G_nil hC l (fun k t ht => hB k t (by simp [typedG, ht])) h1.2 h2
    have he : isEmpty (inner E rec td p g) = true := by
      by_cases hp : (!isEmpty (inner E rec td p g) || g.required) = true
      · simpa [hp, allEmpty] using h1.1
      · simp at hp; exact hp.1
    obtain ⟨q3, q4⟩ := ev0S_nil hC g (fun k t ht => hB k t (by simp [typedG, ht])) he
    simp [ev0G, eo0G, q1, q2, q3, q4]
theorem ev0S_nil (hC : ConOK E rec p con) : ∀ g : GSpec,
    (∀ k s, (k, s) ∈ typedS g → ∀ x ∈ vals E td p s, Built E rec p k s x) →
    isEmpty (inner E rec td p g) = true → ev0S E td p g = [] ∧ eo0S E rec td p con g = []
  | .mk uid name req attrs dsets groups links, hB, h => by
    simp only [inner, isEmpty, Bool.and_eq_true, List.isEmpty_iff, List.append_eq_nil_iff] at h
    obtain ⟨⟨⟨h1, h2, h3, h4⟩, h5⟩, h6⟩ := h
    obtain ⟨q1, q2⟩ := evD_nil (con := con) dsets h1 h2
    obtain ⟨q3, q4⟩ := ev0G_nil hC groups (fun k t ht => hB k t (by simp [typedS, ht])) h6 h4
    simp [ev0S, eo0S, q1, q2, q3, q4, evA_nil h5, evL_nil links h3]
end

mutual
theorem evG_eq (hC : ConOK E rec p con) : ∀ l : GList,
    (∀ k s, (k, s) ∈ typedG l → ∀ x ∈ vals E td p s, Built E rec p k s x) →
    evG E rec td p l = ev0G E td p l ∧ eoG E rec td p con l = eo0G E rec td p con l
  | .nil, _ => by simp [evG, eoG, ev0G, eo0G]
  | .typed s l, hB => by
    obtain ⟨q1, q2⟩ := evG_eq hC l (fun k t ht => hB k t (by simp [typedG, ht]))
    simp [evG, eoG, ev0G, eo0G, q1, q2]
  | .untyped g l, hB => by
    obtain ⟨q1, q2⟩ := evG_eq hC l (fun k t ht => hB k t (by simp [typedG, ht]))
    have hBg : ∀ k s, (k, s) ∈ typedS g → ∀ x ∈ vals E td p s, Built E rec p k s x :=
      fun k t ht => hB k t (by simp [typedG, ht])
    obtain ⟨q3, q4⟩ := evS_eq hC g hBg
    by_cases hp : (!isEmpty (inner E rec td p g) || g.required) = true
    · simp [evG, eoG, ev0G, eo0G, q1, q2, q3, q4, hp]
    · have he : isEmpty (inner E rec td p g) = true := by simp at hp; exact hp.1
      obtain ⟨q5, q6⟩ := ev0S_nil hC g hBg he
      simp only [evG, eoG, ev0G, eo0G, q1, q2, q5, q6, if_neg hp, and_self]
theorem evS_eq (hC : ConOK E rec p con) : ∀ g : GSpec,
    (∀ k s, (k, s) ∈ typedS g → ∀ x ∈ vals E td p s, Built E rec p k s x) →
    evS E rec td p g = ev0S E td p g ∧ eoS E rec td p con g = eo0S E rec td p con g
  | .mk uid name req attrs dsets groups links, hB => by
    obtain ⟨q1, q2⟩ := evG_eq hC groups (fun k t ht => hB k t (by simp [typedS, ht]))
    simp [evS, eoS, ev0S, eo0S, q1, q2]
end

/-! ### The builder of a container -/

theorem fold_keys (l : List ASpec) (d : Dict String ASpec) (hd : (Dict.keys d).Nodup)
    (hk : ∀ q ∈ d, q.1 = q.2.name) :
    (Dict.keys (l.foldl (fun d a => Dict.set d a.name a) d)).Nodup ∧
      ∀ q ∈ l.foldl (fun d a => Dict.set d a.name a) d, q.1 = q.2.name := by
  induction l generalizing d with
  | nil => exact ⟨hd, hk⟩
  | cons a l ih =>
    refine ih _ (Dict.set_nodup hd) ?_
    intro q hq
    rcases Dict.set_mem hq with rfl | hq
    · rfl
    · exact hk q hq

theorem fold_keep (l : List ASpec) (d : Dict String ASpec) {n : String} (h : n ∉ l.map ASpec.name) :
    Dict.get? (l.foldl (fun d a => Dict.set d a.name a) d) n = Dict.get? d n := by
  induction l generalizing d with
  | nil => rfl
  | cons a l ih =>
    simp only [List.map_cons, List.mem_cons, not_or] at h
    rw [List.foldl_cons, ih _ h.2, Dict.get?_set_ne h.1]

theorem fold_get (l : List ASpec) (d : Dict String ASpec) (hn : (l.map ASpec.name).Nodup) {s : ASpec} (hs : s ∈ l) :
    Dict.get? (l.foldl (fun d a => Dict.set d a.name a) d) s.name = some s := by
  induction l generalizing d with
  | nil => cases hs
  | cons a l ih =>
    simp only [List.map_cons, List.nodup_cons] at hn
    rw [List.foldl_cons]
    rcases List.mem_cons.1 hs with rfl | hs
    · rw [fold_keep l _ hn.1, Dict.get?_set_self]
    · exact ih _ hn.2 hs

theorem allAttrs_names (own ext : List ASpec) : ((allAttrs own ext).map ASpec.name).Nodup := by
  unfold allAttrs
  have h := fold_keys (own ++ ext).reverse [] (by simp [Dict.keys]) (by simp)
  have e : (Dict.values ((own ++ ext).reverse.foldl (fun d a => Dict.set d a.name a) [])).map ASpec.name =
      Dict.keys ((own ++ ext).reverse.foldl (fun d a => Dict.set d a.name a) []) := by
    simp only [Dict.values, Dict.keys, List.map_map]
    exact List.map_congr_left (fun q hq => (h.2 q hq).symm)
  rw [e]
  exact h.1

theorem allAttrs_own {own ext : List ASpec} (hn : (own.map ASpec.name).Nodup) {s : ASpec} (hs : s ∈ own) :
    s ∈ allAttrs own ext := by
  unfold allAttrs
  rw [List.reverse_append, List.foldl_append]
  have := fold_get own.reverse (ext.reverse.foldl (fun d a => Dict.set d a.name a) [])
    (by rw [List.map_reverse]; exact List.nodup_reverse.2 hn) (List.mem_reverse.2 hs)
  exact List.mem_map.2 ⟨_, Dict.mem_of_get? this, rfl⟩

/-- The names of the attributes that every builder of a container carries. -/
def reserved : List String := ["namespace", "data_type", "object_id"]

/-- A builder made from a container. -/
structure RootOK (E : Env) (rec : Oid → List ASpec → Except BErr Bld) (o : Oid) (td : TypeDef) (b : Bld) : Prop where
  name : b.name = bname E o
  sort : b.isData = td.isData
  ns : textAttr b "namespace" = some "core"
  dt : textAttr b "data_type" = some (E.heap o).dt
  oid : textAttr b "object_id" = some o
  attrs : ∀ s ∈ td.body.attrs, b.attrs.get? s.name = attrRes E td o s
  data : td.isData = true → ∃ d d', (E.heap o).fields.get? "data" = some (.data d) ∧
    E.conv td.body.uid d = .ok d' ∧ b.data = some d'
  body : td.isData = false → b.dsets = (rootItems td.body).flatMap (dOf E rec td o) ∧
    b.groups = (rootItems td.body).flatMap (gOf E rec td o) ∧ b.links = (rootItems td.body).flatMap (lOf E td o) ∧
    ∀ k s, (k, s) ∈ typedS td.body → ∀ x ∈ vals E td o s, Built E rec o k s x

/-- What is assumed of the type of a container and of the values it holds. -/
structure TypeOK (E : Env) (td : TypeDef) (o : Oid) : Prop where
  fresh : Fresh E o
  attrs : (td.body.attrs.map ASpec.name).Nodup ∧ ∀ a ∈ td.body.attrs, a.name ∉ reserved
  body : td.isData = false → Sound E td o (rootItems td.body) ∧ SoundGs E td o td.body.groups

/-- The attributes every builder of a container gets last. -/
def stamp (A : Dict String AVal) (t o : String) : Dict String AVal :=
  ((A.set "namespace" (.data "core")).set "data_type" (.data t)).set "object_id" (.data o)

theorem buildObj_succ {n : Nat} {o : Oid} {ext : List ASpec} {b : Bld} (h : buildObj E (n + 1) o ext = .ok b) :
    ∃ td b1 b2, E.types (E.heap o).dt = some td ∧
      (if td.isData then do
            let d ← dataOf E td o
            .ok (Bld.dataset (bname E o) d)
          else do
            let b ← addDsets E (buildObj E n) td o td.body.dsets (Bld.empty (bname E o))
            let b ← addGroups E (buildObj E n) td o td.body.groups b
            addLinks E (buildObj E n) td o td.body.links b) = .ok b1 ∧
      addAttrs E td o (allAttrs td.body.attrs ext) b1 = .ok b2 ∧
      b = { b2 with attrs := stamp b2.attrs (E.heap o).dt o } := by
  simp only [buildObj] at h
  cases ht : E.types (E.heap o).dt with
  | none => rw [ht] at h; cases h
  | some td =>
    rw [ht] at h
    simp only at h
    split at h
    · cases h
    · obtain ⟨b1, h1, h2⟩ := bind_ok h
      obtain ⟨b2, h3, h4⟩ := bind_ok h2
      obtain ⟨b3, h5, h6⟩ := bind_ok h4
      obtain ⟨b4, h7, h8⟩ := bind_ok h6
      refine ⟨td, b1, b2, rfl, h1, h3, ?_⟩
      rw [setAttr_ok h8, setAttr_ok h7, setAttr_ok h5]
      rfl

theorem root_attrs {A : Dict String AVal} {t o : String} :
    ∀ n ∉ reserved, Dict.get? (stamp A t o) n = A.get? n := by
  intro n hn
  unfold stamp
  simp only [reserved, List.mem_cons, List.not_mem_nil, or_false, not_or] at hn
  rw [Dict.get?_set_ne hn.2.2, Dict.get?_set_ne hn.2.1, Dict.get?_set_ne hn.1]

theorem dataOf_ok {o : Oid} {d' : Dat} (h : dataOf E td o = .ok d') :
    ∃ d, (E.heap o).fields.get? "data" = some (.data d) ∧ E.conv td.body.uid d = .ok d' := by
  unfold dataOf at h
  split at h
  · rename_i d hd; exact ⟨d, hd, h⟩
  · cases h

theorem buildObj_root {n : Nat} (hN : NameOK E (buildObj E n)) {o : Oid} {ext : List ASpec} {b : Bld}
    (hT : ∀ td, E.types (E.heap o).dt = some td → TypeOK E td o)
    (h : buildObj E (n + 1) o ext = .ok b) :
    ∃ td, E.types (E.heap o).dt = some td ∧ RootOK E (buildObj E n) o td b := by
  obtain ⟨td, b1, b2, ht, h1, h2, rfl⟩ := buildObj_succ h
  refine ⟨td, ht, ?_⟩
  have hTd := hT td ht
  have core : b1.attrs = [] → b1.name = bname E o → b1.isData = td.isData →
      (td.isData = true → ∃ d d', (E.heap o).fields.get? "data" = some (.data d) ∧
        E.conv td.body.uid d = .ok d' ∧ b1.data = some d') →
      (td.isData = false → b1.dsets = (rootItems td.body).flatMap (dOf E (buildObj E n) td o) ∧
        b1.groups = (rootItems td.body).flatMap (gOf E (buildObj E n) td o) ∧
        b1.links = (rootItems td.body).flatMap (lOf E td o) ∧
        ∀ k s, (k, s) ∈ typedS td.body → ∀ x ∈ vals E td o s, Built E (buildObj E n) o k s x) →
      RootOK E (buildObj E n) o td { b2 with attrs := stamp b2.attrs (E.heap o).dt o } := by
    intro ha hnm hso hda hbo
    have hnn := allAttrs_names td.body.attrs ext
    have e2 := addAttrs_img E td o _ b1 b2 h2 (by rw [ha]; simpa [Dict.keys] using hnn.sublist (attrImg_keys _))
    rw [e2, ha]
    refine ⟨hnm, hso, ?_, ?_, ?_, ?_, hda, hbo⟩
    · simp only [textAttr, stamp]
      rw [Dict.get?_set_ne (by decide), Dict.get?_set_ne (by decide), Dict.get?_set_self]
    · simp only [textAttr, stamp]
      rw [Dict.get?_set_ne (by decide), Dict.get?_set_self]
    · simp only [textAttr, stamp]
      rw [Dict.get?_set_self]
    · intro s hs
      simp only
      rw [root_attrs _ (hTd.attrs.2 s hs), List.nil_append]
      exact get?_attrImg hnn (allAttrs_own hTd.attrs.1 hs)
  by_cases hd : td.isData = true
  · rw [if_pos hd] at h1
    obtain ⟨d', hd', h3⟩ := bind_ok h1
    have hb := (Except.ok.inj h3).symm
    obtain ⟨d, q1, q2⟩ := dataOf_ok hd'
    subst hb
    exact core rfl rfl hd.symm (fun _ => ⟨d, d', q1, q2, rfl⟩) (fun hf => by rw [hd] at hf; cases hf)
  · have hf : td.isData = false := by simpa using hd
    rw [if_neg hd] at h1
    obtain ⟨ba, ha, h3⟩ := bind_ok h1
    obtain ⟨bb, hb, h4⟩ := bind_ok h3
    obtain ⟨hS, hG⟩ := hTd.body hf
    obtain ⟨i1, i2, i3, i4, i5⟩ := root_img E (buildObj E n) td o td.body
    have hn := hS.nodup (rec := buildObj E n)
    rw [i3, i4, i5] at hn
    have c1 : NoClash (Bld.empty (bname E o)) (dsKeys E (buildObj E n) td o td.body.dsets ++ ([] ++ []))
        ([] ++ (gKeys E (buildObj E n) td o td.body.groups ++ []))
        (Dict.keys (dsLnk E td o td.body.dsets) ++ (Dict.keys (gLnk E (buildObj E n) td o td.body.groups) ++
          Dict.keys (lLnk E td o td.body.links))) := by
      refine ⟨?_, ?_, ?_⟩
      · simpa [Bld.empty, Dict.keys] using (List.nodup_append.1 hn).1
      · simpa [Bld.empty, Dict.keys] using (List.nodup_append.1 (List.nodup_append.1 hn).2.1).1
      · simpa [Bld.empty, Dict.keys] using (List.nodup_append.1 (List.nodup_append.1 hn).2.1).2.1
    obtain ⟨e2, q2⟩ := addDsets_img hTd.fresh hN td.body.dsets _ ba ha
      (dsAttrs_of (fun u n as hm => (hS.attrs u n as (by
        simp only [rootItems, List.mem_append]; exact Or.inl hm)).1)) c1.left
    have c2 := c1.right (dsImg_keys E (buildObj E n) td o td.body.dsets) (List.Sublist.refl (Dict.keys []))
      (List.Sublist.refl _)
    rw [← e2] at c2
    obtain ⟨e3, q3⟩ := addGroups_img hTd.fresh hN td.body.groups ba bb hb (imgOKs_of_sound _ hG) c2.left
    have hgk : (Dict.keys (gImg E (buildObj E n) td o td.body.groups)).Sublist
        (gKeys E (buildObj E n) td o td.body.groups) := by
      rw [← i2, ← i5, keys_flatMap]
      exact flatMap_sublist gOf_keys _
    have c3 := c2.right (List.Sublist.refl (Dict.keys [])) hgk (List.Sublist.refl _)
    rw [← e3] at c3
    have e4 := addLinks_img hTd.fresh hN td.body.links bb b1 h4 c3
    rw [e3, e2, grow_grow, grow_grow] at e4
    refine core ?_ ?_ ?_ (fun h => by rw [hf] at h; cases h) (fun _ => ⟨?_, ?_, ?_, ?_⟩)
    · rw [e4]; rfl
    · rw [e4]; rfl
    · rw [e4, hf]; rfl
    · rw [e4, i1]; simp [grow, Bld.empty]
    · rw [e4, i2]; simp [grow, Bld.empty]
    · rw [e4, i3]; simp [grow, Bld.empty]
    · intro k s hks
      have : (k, s) ∈ (dsTyped td.body.dsets).map (fun s => (Kind.dset, s)) ++ typedG td.body.groups := by
        cases hb : td.body with
        | mk => rw [hb] at hks; simpa [typedS, GSpec.dsets, GSpec.groups] using hks
      rcases List.mem_append.1 this with hm | hm
      · obtain ⟨t, htm, e⟩ := List.mem_map.1 hm
        cases e
        exact q2 _ htm
      · exact q3 k s hm

/-! ### Reading the builder of a container -/

theorem readRoot_ok {b : Bld} (hR : RootOK E rec p td b) (hf : td.isData = false) (hT : TypeOK E td p)
    (hC : ConOK E rec p con) (hu : (sU td.body).Nodup) :
    readSpec E con b td.body ⟨[], []⟩ = .ok ⟨ev0S E td p td.body, eo0S E rec td p con td.body⟩ := by
  obtain ⟨b1, b2, b3, hB⟩ := hR.body hf
  obtain ⟨hS, hG⟩ := hT.body hf
  have hBI := sound_builtI (root_typed td.body) hB
  obtain ⟨ee, eo⟩ := evS_eq hC td.body hB
  have hat := hR.attrs
  rw [← ee, ← eo]
  generalize hg : td.body = g at *
  cases g with
  | mk uid name req attrs dsets groups links =>
    simp only [sU] at hu
    simp only [GSpec.groups] at hG
    simp only [GSpec.attrs] at hat
    simp only [readSpec]
    rw [b1, b2, b3]
    rw [readAttrs_ok (E := E) (td := td) (p := p) _ attrs ⟨[], []⟩ hat (by
      simpa [Dict.keys] using (List.nodup_append.1 hu).1)]
    have hu0 : (Dict.keys ([] : Dict Nat (FVal × Bool)) ++ (attrs.map ASpec.uid ++ (links.map TSpec.uid ++
      (gU groups ++ dsU dsets)))).Nodup := by simpa [Dict.keys] using hu
    have hu2 := fresh_step (u := attrs.map ASpec.uid) hu0 (evA_keys (E := E) (td := td) (p := p) attrs)
    rw [readLinks_ok hS hC links _ ?_ (hu2.sublist (by simp))]
    · have hu3 := fresh_step (u := links.map TSpec.uid) hu2 (evL_keys (E := E) (td := td) (p := p) links)
      show (readGroups E con _ _ groups _ >>= _) = _
      have hg := readGroups_ok hS hC hBI groups
        ⟨([] ++ evA E td p attrs) ++ links.flatMap (evT E td p .link), []⟩ ?_ hG
        (fun k t ht => hB k t (by simp [typedS, ht])) (hu3.sublist (by simp))
      · have e1 : subDict E rec td p (rootItems (.mk uid name req attrs dsets groups links)) .group =
            overlay ((rootItems (.mk uid name req attrs dsets groups links)).flatMap (gOf E rec td p))
              ((rootItems (.mk uid name req attrs dsets groups links)).flatMap (lOf E td p)) false := by
          unfold subDict; rw [mOf_group]; rfl
        have e2 : subDict E rec td p (rootItems (.mk uid name req attrs dsets groups links)) .dset =
            overlay ((rootItems (.mk uid name req attrs dsets groups links)).flatMap (dOf E rec td p))
              ((rootItems (.mk uid name req attrs dsets groups links)).flatMap (lOf E td p)) true := by
          unfold subDict; rw [mOf_dset]; rfl
        rw [e1] at hg
        rw [hg]
        have hu4 := fresh_step (u := gU groups) hu3 (evG_keys (E := E) (rec := rec) (td := td) (p := p) groups)
        have hd := readDsets_ok hS hC hBI dsets
          ⟨(([] ++ evA E td p attrs) ++ links.flatMap (evT E td p .link)) ++ evG E rec td p groups,
            [] ++ eoG E rec td p con groups⟩ ?_ hu4
        · rw [e2] at hd
          refine hd.trans ?_
          simp [evS, eoS]
        · intro d hd
          simp only [rootItems, GSpec.dsets, List.mem_append]
          exact Or.inl (List.mem_map_of_mem hd)
      · intro i hi
        simp only [rootItems, GSpec.groups, List.mem_append]
        exact Or.inr (Or.inl hi)
    · intro s hs
      simp only [rootItems, GSpec.links, List.mem_append]
      exact Or.inr (Or.inr (Or.inl (List.mem_map_of_mem hs)))

end

/-! ### The values read, specification by specification -/

/-- A specification that has a value. -/
inductive Leaf where
  /-- an attribute of the container or of a group without data type -/
  | attr (s : ASpec)
  /-- an attribute of a dataset without data type -/
  | dattr (uid : Nat) (s : ASpec)
  /-- a dataset without data type -/
  | dset (uid : Nat)
  /-- a specification with data type -/
  | typed (k : Kind) (s : TSpec)

def Leaf.uid : Leaf → Nat
  | .attr s => s.uid
  | .dattr _ s => s.uid
  | .dset u => u
  | .typed _ s => s.uid

/-- The data stored for a dataset without data type. -/
def dsetOut (E : Env) (td : TypeDef) (p : Oid) (uid : Nat) : Option Dat :=
  match getAttrValue E td p uid none with
  | .ok (.data d) => (E.conv uid d).toOption
  | _ => none

/-- The value read for a specification, and whether it may be joined with other values. -/
def leafVal (E : Env) (td : TypeDef) (p : Oid) : Leaf → Option (FVal × Bool)
  | .attr s => (attrRes E td p s).map (fun v => (toF v, false))
  | .dattr uid s => (dsetOut E td p uid).bind (fun _ => (attrRes E td p s).map (fun v => (toF v, false)))
  | .dset uid => (dsetOut E td p uid).map (fun d => (.data d, false))
  | .typed k s => if (vals E td p s).isEmpty then none
    else some (expT E td p k s, decide (k ≠ .link) && s.qty.isMany)

def dsLeaves : List DS → List Leaf
  | [] => []
  | .untyped uid _ _ attrs :: l => attrs.map (.dattr uid) ++ [.dset uid] ++ dsLeaves l
  | .typed s :: l => .typed .dset s :: dsLeaves l

mutual
def gLeaves : GList → List Leaf
  | .nil => []
  | .typed s l => .typed .group s :: gLeaves l
  | .untyped g l => sLeaves g ++ gLeaves l
/-- The specifications of a group that have a value, in the order in which they are read. -/
def sLeaves : GSpec → List Leaf
  | .mk _ _ _ attrs dsets groups links =>
    attrs.map .attr ++ (links.map (.typed .link) ++ (gLeaves groups ++ dsLeaves dsets))
end

section
variable {E : Env} {rec : Oid → List ASpec → Except BErr Bld} {td : TypeDef} {p : Oid}
  {con : Sub → Except BErr (Oid × List (Oid × Obj))}

theorem dsLeaves_uid : ∀ l : List DS, (dsLeaves l).map Leaf.uid = dsU l
  | [] => rfl
  | .untyped uid _ _ attrs :: l => by
    simp [dsLeaves, dsU, dsLeaves_uid l, Function.comp_def, Leaf.uid]
  | .typed s :: l => by simp [dsLeaves, dsU, dsLeaves_uid l, Leaf.uid]

mutual
theorem gLeaves_uid : ∀ l : GList, (gLeaves l).map Leaf.uid = gU l
  | .nil => by simp [gLeaves, gU]
  | .typed s l => by simp [gLeaves, gU, gLeaves_uid l, Leaf.uid]
  | .untyped g l => by simp [gLeaves, gU, gLeaves_uid l, sLeaves_uid g]
theorem sLeaves_uid : ∀ g : GSpec, (sLeaves g).map Leaf.uid = sU g
  | .mk _ _ _ attrs dsets groups links => by
    simp [sLeaves, sU, gLeaves_uid groups, dsLeaves_uid dsets, Function.comp_def, Leaf.uid]
end

/-- The entry of a specification. -/
def entry (E : Env) (td : TypeDef) (p : Oid) (l : Leaf) : Option (Nat × FVal × Bool) :=
  (leafVal E td p l).map (fun v => (l.uid, v))

theorem evA_leaf (l : List ASpec) : evA E td p l = (l.map Leaf.attr).filterMap (entry E td p) := by
  unfold evA
  rw [List.filterMap_map]
  congr 1
  funext s
  simp [entry, leafVal, Leaf.uid, Option.map_map, Function.comp_def]

theorem evT_leaf (k : Kind) (s : TSpec) : evT E td p k s = [Leaf.typed k s].filterMap (entry E td p) := by
  simp only [evT, entry, leafVal, List.filterMap_cons, List.filterMap_nil, Leaf.uid]
  split <;> simp

theorem evL_leaf (l : List TSpec) :
    l.flatMap (evT E td p .link) = (l.map (Leaf.typed .link)).filterMap (entry E td p) := by
  induction l with
  | nil => rfl
  | cons s l ih =>
    rw [List.flatMap_cons, ih, evT_leaf, List.map_cons, ← List.filterMap_append]
    rfl

theorem uImg_dsetOut (uid : Nat) (name : String) (attrs : List ASpec) : uImg E td p uid name attrs =
    (match dsetOut E td p uid with
      | some d => [(name, { Bld.dataset name d with attrs := attrImg E td p attrs })]
      | none => []) := by
  unfold uImg dsetOut
  cases getAttrValue E td p uid none with
  | error e => rfl
  | ok v =>
    cases v with
    | data d =>
      simp only
      cases E.conv uid d <;> rfl
    | none => rfl
    | one x => rfl
    | many l => rfl

theorem evU_leaf (uid : Nat) (name : String) (attrs : List ASpec) : evU E td p uid name attrs =
    (attrs.map (Leaf.dattr uid) ++ [Leaf.dset uid]).filterMap (entry E td p) := by
  unfold evU
  rw [uImg_dsetOut, List.filterMap_append]
  cases h : dsetOut E td p uid with
  | none =>
    simp only [List.flatMap_nil]
    have : (attrs.map (Leaf.dattr uid)).filterMap (entry E td p) = [] := by
      refine filterMap_nil ?_
      intro x hx
      obtain ⟨s, _, rfl⟩ := List.mem_map.1 hx
      simp [entry, leafVal, h]
    rw [this]
    simp [entry, leafVal, h]
  | some d =>
    simp only [List.flatMap_cons, List.flatMap_nil, List.append_nil, Bld.dataset]
    congr 1
    · unfold evA
      rw [List.filterMap_map]
      congr 1
      funext s
      simp [entry, leafVal, h, Leaf.uid, Option.map_map, Function.comp_def]
    · simp [entry, leafVal, h, Leaf.uid]

theorem evD_leaf : ∀ l : List DS, evD E td p l = (dsLeaves l).filterMap (entry E td p)
  | [] => rfl
  | .untyped uid name _ attrs :: l => by
    rw [evD, dsLeaves, List.filterMap_append, evD_leaf l, evU_leaf]
  | .typed s :: l => by
    rw [evD, evD_leaf l, evT_leaf, dsLeaves, ← List.filterMap_append]
    rfl

mutual
theorem ev0G_leaf : ∀ l : GList, ev0G E td p l = (gLeaves l).filterMap (entry E td p)
  | .nil => by simp [ev0G, gLeaves]
  | .typed s l => by
    rw [ev0G, gLeaves, ev0G_leaf l, evT_leaf, ← List.filterMap_append]
    rfl
  | .untyped g l => by rw [ev0G, gLeaves, ev0G_leaf l, ev0S_leaf g, List.filterMap_append]
theorem ev0S_leaf : ∀ g : GSpec, ev0S E td p g = (sLeaves g).filterMap (entry E td p)
  | .mk _ _ _ attrs dsets groups links => by
    rw [ev0S, sLeaves, ev0G_leaf groups, evA_leaf, evL_leaf, evD_leaf, List.filterMap_append, List.filterMap_append,
      List.filterMap_append]
end

/-- One step of `constArgs`. -/
def argStep (td : TypeDef) (q : Nat × FVal × Bool) (d : Dict String FVal) : Dict String FVal :=
  match td.spec2carg.get? q.1 with
  | none => d
  | some c => Dict.set d c (mergeArg (Dict.get? d c) q.2.2 q.2.1)

theorem constArgs_cons (q : Nat × FVal × Bool) (l : Dict Nat (FVal × Bool)) (d : Dict String FVal) :
    constArgs td (q :: l) d = constArgs td l (argStep td q d) := by
  obtain ⟨u, v, m⟩ := q
  rfl

theorem constArgs_keep (c : String) : ∀ (l : Dict Nat (FVal × Bool)) (d : Dict String FVal),
    (∀ q ∈ l, td.spec2carg.get? q.1 ≠ some c) → Dict.get? (constArgs td l d) c = Dict.get? d c
  | [], _, _ => rfl
  | q :: l, d, h => by
    rw [constArgs_cons, constArgs_keep c l _ (fun q' hq => h q' (by simp [hq]))]
    unfold argStep
    have := h q (by simp)
    cases hc : td.spec2carg.get? q.1 with
    | none => rfl
    | some c' => exact Dict.get?_set_ne (fun e => this (by rw [hc, e]))

theorem constArgs_get {c : String} {u : Nat} {v : FVal} {m : Bool} : ∀ (l : Dict Nat (FVal × Bool))
    (d : Dict String FVal), (u, v, m) ∈ l → (Dict.keys l).Nodup → td.spec2carg.get? u = some c →
    (∀ q ∈ l, td.spec2carg.get? q.1 = some c → q.1 = u) → (m = false ∨ Dict.get? d c = none) →
    Dict.get? (constArgs td l d) c = some v
  | [], _, h, _, _, _, _ => by cases h
  | q :: l, d, h, hn, hc, hi, hd => by
    simp only [Dict.keys, List.map_cons, List.nodup_cons] at hn
    rw [constArgs_cons]
    rcases List.mem_cons.1 h with h | h
    · subst h
      rw [constArgs_keep c l]
      · simp only [argStep, hc]
        rw [Dict.get?_set_self]
        rcases hd with hd | hd
        · subst hd; simp [mergeArg]
        · rw [hd]; cases m <;> simp [mergeArg]
      · intro q' hq' he
        have := hi q' (by simp [hq']) he
        exact hn.1 (List.mem_map.2 ⟨q', hq', this⟩)
    · have hqu : q.1 ≠ u := fun e => hn.1 (e ▸ List.mem_map.2 ⟨_, h, rfl⟩)
      refine constArgs_get l _ h hn.2 hc (fun q' hq' => hi q' (by simp [hq'])) ?_
      refine hd.imp_right (fun hd => ?_)
      unfold argStep
      cases hc' : td.spec2carg.get? q.1 with
      | none => exact hd
      | some c' =>
        simp only
        rw [Dict.get?_set_ne ?_]
        · exact hd
        · intro e
          exact hqu (hi q (by simp) (by rw [hc', e]))

theorem entries_keys (L : List Leaf) :
    (Dict.keys (L.filterMap (entry E td p))).Sublist (L.map Leaf.uid) := by
  induction L with
  | nil => simp [Dict.keys]
  | cons l L ih =>
    rw [List.filterMap_cons]
    cases hv : leafVal E td p l with
    | none =>
      have : entry E td p l = none := by simp [entry, hv]
      rw [this]
      exact ih.cons _
    | some v =>
      have : entry E td p l = some (l.uid, v) := by simp [entry, hv]
      rw [this]
      simpa [Dict.keys] using ih

/-- What an argument of the constructor receives for a specification of its own. -/
theorem constArgs_leaf {L : List Leaf} (hn : (L.map Leaf.uid).Nodup)
    (hi : ∀ l ∈ L, ∀ l' ∈ L, ∀ c, td.spec2carg.get? l.uid = some c → td.spec2carg.get? l'.uid = some c → l.uid = l'.uid)
    {l : Leaf} (hl : l ∈ L) {c : String} (hc : td.spec2carg.get? l.uid = some c) (d : Dict String FVal)
    (hd : Dict.get? d c = none) :
    Dict.get? (constArgs td (L.filterMap (entry E td p)) d) c = (leafVal E td p l).map Prod.fst := by
  have hmem : ∀ q ∈ L.filterMap (entry E td p), ∃ l' ∈ L, l'.uid = q.1 ∧ leafVal E td p l' = some q.2 := by
    intro q hq
    obtain ⟨l', hl', he⟩ := List.mem_filterMap.1 hq
    unfold entry at he
    cases hv : leafVal E td p l' with
    | none => rw [hv] at he; cases he
    | some v => rw [hv] at he; cases he; exact ⟨l', hl', rfl, hv⟩
  cases hv : leafVal E td p l with
  | none =>
    rw [constArgs_keep, hd]
    · rfl
    · intro q hq hqc
      obtain ⟨l', hl', e, hv'⟩ := hmem q hq
      have hu := hi l' hl' l hl c (by rw [e]; exact hqc) hc
      have : l' = l := List.inj_on_of_nodup_map hn hl' hl hu
      rw [this, hv] at hv'
      cases hv'
  | some v =>
    refine constArgs_get (u := l.uid) (v := v.1) (m := v.2) _ d ?_ (hn.sublist (entries_keys L)) hc ?_ (Or.inr hd)
    · exact List.mem_filterMap.2 ⟨l, hl, by simp [entry, hv]⟩
    · intro q hq hqc
      obtain ⟨l', hl', e, _⟩ := hmem q hq
      rw [← e]
      exact hi l' hl' l hl c (by rw [e]; exact hqc) hc

end

/-! ### Constructing what was built -/

/-- The specifications of a type that have a value. -/
def leaves (td : TypeDef) : List Leaf := if td.isData then td.body.attrs.map .attr else sLeaves td.body

/-- The data stored for a `Data` container. -/
def dataOut (E : Env) (td : TypeDef) (o : Oid) : Option Dat :=
  match (E.heap o).fields.get? "data" with
  | some (.data d) => (E.conv td.body.uid d).toOption
  | _ => none

/-- The arguments with which a container is constructed again. -/
def cargsOf (E : Env) (td : TypeDef) (o : Oid) : Dict String FVal :=
  match td.isData, dataOut E td o with
  | true, some d => constArgs td ((leaves td).filterMap (entry E td o) ++ [(td.body.uid, (.data d, false))])
      [("data", .data d)]
  | _, _ => constArgs td ((leaves td).filterMap (entry E td o)) []

/-- The container that is constructed again. -/
def restored (E : Env) (o : Oid) (par : Option Oid) : Obj :=
  match E.types (E.heap o).dt with
  | some td => ⟨bname E o, (E.heap o).dt, par, E.source, false, initFields td (cargsOf E td o)⟩
  | none => default

/-- `x` is a child of `o`: it is held by an attribute of `o`, a specification of a dataset or group is responsible for
it, and `o` is its parent. -/
def Child (E : Env) (o x : Oid) : Prop :=
  ∃ td, E.types (E.heap o).dt = some td ∧ td.isData = false ∧
    ∃ k s, (k, s) ∈ typedS td.body ∧ x ∈ vals E td o s ∧ (E.heap x).parent = some o

/-- `x` lies below `o`. -/
inductive Below (E : Env) : Oid → Oid → Prop where
  | child {o x} : Child E o x → Below E o x
  | step {o x y} : Child E o x → Below E x y → Below E o y

/-- What is assumed of a container and its type so that it can be constructed again. -/
structure Sane (E : Env) (td : TypeDef) (o : Oid) : Prop where
  type : TypeOK E td o
  uids : ((leaves td).map Leaf.uid).Nodup ∧ td.body.uid ∉ (leaves td).map Leaf.uid
  inj : ∀ l ∈ leaves td, ∀ l' ∈ leaves td, ∀ c, td.spec2carg.get? l.uid = some c →
    td.spec2carg.get? l'.uid = some c → l.uid = l'.uid
  data : td.isData = true → td.spec2carg.get? td.body.uid = none ∧
    ∀ l ∈ leaves td, td.spec2carg.get? l.uid ≠ some "data"
  req : ∀ a, (a, true) ∈ td.args → a ≠ "name" → (td.isData = true ∧ a = "data") ∨
    ∃ l ∈ leaves td, td.spec2carg.get? l.uid = some a ∧ (leafVal E td o l).isSome

/-- `Sane` for every container, and a type hierarchy without repetitions. -/
structure SaneEnv (E : Env) : Prop where
  hier : ∀ t, (E.hier t).Nodup
  obj : ∀ o td, E.types (E.heap o).dt = some td → Sane E td o

section
variable {E : Env} {td : TypeDef} {o : Oid}

theorem nameOK (h : SaneEnv E) : ∀ n, NameOK E (buildObj E n)
  | 0 => by intro x l b hb; simp [buildObj] at hb
  | n + 1 => by
    intro x l b hb
    obtain ⟨td, _, hR⟩ := buildObj_root (nameOK h n) (fun td ht => (h.obj x td ht).type) hb
    exact hR.name

theorem buildObj_ok (h : SaneEnv E) {n : Nat} {ext : List ASpec} {b : Bld} (hb : buildObj E (n + 1) o ext = .ok b) :
    ∃ td, E.types (E.heap o).dt = some td ∧ RootOK E (buildObj E n) o td b :=
  buildObj_root (nameOK h n) (fun td ht => (h.obj o td ht).type) hb

theorem buildObj_dt (h : SaneEnv E) {n : Nat} {ext : List ASpec} {b : Bld} (hb : buildObj E n o ext = .ok b) :
    Sub.dt (.own b) = some (E.heap o).dt := by
  cases n with
  | zero => simp [buildObj] at hb
  | succ n =>
    obtain ⟨td, _, hR⟩ := buildObj_ok h hb
    simp [Sub.dt, hR.dt, hR.ns]

/-- How the sub-builders of a builder are constructed. -/
def conOf (E : Env) (n : Nat) (o : Oid) : Sub → Except BErr (Oid × List (Oid × Obj)) := fun s =>
  match s with
  | .own b => construct E n (some o) b
  | .lnk l => .ok (l.target, [])

theorem constArgs_append : ∀ (l l' : Dict Nat (FVal × Bool)) (d : Dict String FVal),
    constArgs td (l ++ l') d = constArgs td l' (constArgs td l d)
  | [], _, _ => rfl
  | q :: l, l', d => by
    rw [List.cons_append, constArgs_cons, constArgs_cons, constArgs_append l l']

theorem cargs_has (hS : Sane E td o) {a : String}
    (h : (td.isData = true ∧ a = "data" ∧ (dataOut E td o).isSome) ∨
      ∃ l ∈ leaves td, td.spec2carg.get? l.uid = some a ∧ (leafVal E td o l).isSome) :
    Dict.has (cargsOf E td o) a = true := by
  have key : ∀ d, (∃ l ∈ leaves td, td.spec2carg.get? l.uid = some a ∧ (leafVal E td o l).isSome) →
      Dict.get? d a = none → (Dict.get? (constArgs td ((leaves td).filterMap (entry E td o)) d) a).isSome := by
    rintro d ⟨l, hl, hc, hv⟩ hd
    rw [constArgs_leaf hS.uids.1 hS.inj hl hc d hd]
    simpa using hv
  unfold Dict.has cargsOf
  cases hd : td.isData with
  | false =>
    simp only [hd, Bool.false_eq_true, false_and, false_or] at h
    simp only
    exact key [] h rfl
  | true =>
    obtain ⟨q1, q2⟩ := hS.data hd
    cases hdo : dataOut E td o with
    | none =>
      simp only [hdo, Option.isSome_none, Bool.false_eq_true, and_false, false_or] at h
      simp only
      exact key [] h rfl
    | some d =>
      simp only [constArgs_append]
      have hkeep : ∀ D, Dict.get? (constArgs td [(td.body.uid, (FVal.data d, false))] D) a = Dict.get? D a := by
        intro D
        refine constArgs_keep a _ D ?_
        intro q hq
        simp only [List.mem_singleton] at hq
        rw [hq, q1]; simp
      rw [hkeep]
      rcases h with ⟨_, rfl, _⟩ | h
      · rw [constArgs_keep]
        · simp [Dict.get?]
        · intro q hq
          obtain ⟨l, hl, he⟩ := List.mem_filterMap.1 hq
          unfold entry at he
          cases hv : leafVal E td o l with
          | none => rw [hv] at he; cases he
          | some v => rw [hv] at he; cases he; exact q2 l hl
      · refine key _ h ?_
        obtain ⟨l, hl, hc, _⟩ := h
        have hne : "data" ≠ a := fun e => q2 l hl (by rw [hc, e])
        simp [Dict.get?, hne]

theorem eoD_mem {rec : Oid → List ASpec → Except BErr Bld} {con : Sub → Except BErr (Oid × List (Oid × Obj))}
    {q : Oid × Obj} : ∀ l : List DS, q ∈ eoD E rec td o con l ↔ ∃ s ∈ dsTyped l, ∃ x ∈ vals E td o s,
      own E o .dset x = true ∧ q ∈ os rec con x s.attrs
  | [] => by simp [eoD, dsTyped]
  | .untyped _ _ _ _ :: l => by rw [eoD, dsTyped]; exact eoD_mem l
  | .typed s :: l => by
    simp only [eoD, List.mem_append, eoD_mem l, dsTyped, List.mem_cons, exists_eq_or_imp]
    refine or_congr ?_ Iff.rfl
    simp only [eoT, List.mem_flatMap, List.mem_filter]
    constructor
    · rintro ⟨x, ⟨h1, h2⟩, h3⟩; exact ⟨x, h1, h2, h3⟩
    · rintro ⟨x, h1, h2, h3⟩; exact ⟨x, ⟨h1, h2⟩, h3⟩

mutual
theorem eo0G_mem {rec : Oid → List ASpec → Except BErr Bld} {con : Sub → Except BErr (Oid × List (Oid × Obj))}
    {q : Oid × Obj} : ∀ l : GList, q ∈ eo0G E rec td o con l ↔ ∃ k s, (k, s) ∈ typedG l ∧ ∃ x ∈ vals E td o s,
      own E o k x = true ∧ q ∈ os rec con x s.attrs
  | .nil => by simp [eo0G, typedG]
  | .typed s l => by
    simp only [eo0G, List.mem_append, eo0G_mem l, typedG, List.mem_cons, Prod.mk.injEq]
    simp only [eoT, List.mem_flatMap, List.mem_filter]
    constructor
    · rintro (⟨x, ⟨h1, h2⟩, h3⟩ | ⟨k, t, h1, h2⟩)
      · exact ⟨.group, s, Or.inl ⟨rfl, rfl⟩, x, h1, h2, h3⟩
      · exact ⟨k, t, Or.inr h1, h2⟩
    · rintro ⟨k, t, ⟨rfl, rfl⟩ | h1, x, h2, h3, h4⟩
      · exact Or.inl ⟨x, ⟨h2, h3⟩, h4⟩
      · exact Or.inr ⟨k, t, h1, x, h2, h3, h4⟩
  | .untyped g l => by
    simp only [eo0G, List.mem_append, eo0G_mem l, eo0S_mem g, typedG]
    constructor
    · rintro (⟨k, t, h1, h2⟩ | ⟨k, t, h1, h2⟩)
      · exact ⟨k, t, Or.inl h1, h2⟩
      · exact ⟨k, t, Or.inr h1, h2⟩
    · rintro ⟨k, t, h1 | h1, h2⟩
      · exact Or.inl ⟨k, t, h1, h2⟩
      · exact Or.inr ⟨k, t, h1, h2⟩
theorem eo0S_mem {rec : Oid → List ASpec → Except BErr Bld} {con : Sub → Except BErr (Oid × List (Oid × Obj))}
    {q : Oid × Obj} : ∀ g : GSpec, q ∈ eo0S E rec td o con g ↔ ∃ k s, (k, s) ∈ typedS g ∧ ∃ x ∈ vals E td o s,
      own E o k x = true ∧ q ∈ os rec con x s.attrs
  | .mk _ _ _ attrs dsets groups links => by
    simp only [eo0S, List.mem_append, eo0G_mem groups, eoD_mem dsets, typedS, List.mem_map, Prod.mk.injEq]
    constructor
    · rintro (⟨k, t, h1, h2⟩ | ⟨s, h1, h2⟩)
      · exact ⟨k, t, Or.inr h1, h2⟩
      · exact ⟨.dset, s, Or.inl ⟨s, h1, rfl, rfl⟩, h2⟩
    · rintro ⟨k, t, ⟨s, h1, rfl, rfl⟩ | h1, h2⟩
      · exact Or.inr ⟨s, h1, h2⟩
      · exact Or.inl ⟨k, t, h1, h2⟩
end

mutual
theorem typedG_kind : ∀ l : GList, ∀ k s, (k, s) ∈ typedG l → k ≠ .link
  | .nil, k, s, h => by simp [typedG] at h
  | .typed t l, k, s, h => by
    simp only [typedG, List.mem_cons, Prod.mk.injEq] at h
    rcases h with ⟨rfl, _⟩ | h
    · simp
    · exact typedG_kind l k s h
  | .untyped g l, k, s, h => by
    simp only [typedG, List.mem_append] at h
    rcases h with h | h
    · exact typedS_kind g k s h
    · exact typedG_kind l k s h
theorem typedS_kind : ∀ g : GSpec, ∀ k s, (k, s) ∈ typedS g → k ≠ .link
  | .mk _ _ _ attrs dsets groups links, k, s, h => by
    simp only [typedS, List.mem_append, List.mem_map, Prod.mk.injEq] at h
    rcases h with ⟨t, _, rfl, _⟩ | h
    · simp
    · exact typedG_kind groups k s h
end

/-- What the objects constructed for a container are. -/
structure Complete (E : Env) (o : Oid) (par : Option Oid) (objs : List (Oid × Obj)) : Prop where
  self : (o, restored E o par) ∈ objs
  only : ∀ q ∈ objs, q = (o, restored E o par) ∨ (Below E o q.1 ∧ q.2 = restored E q.1 (E.heap q.1).parent)
  all : ∀ x, Below E o x → ∃ ob, (x, ob) ∈ objs

theorem construct_build (h : SaneEnv E) : ∀ (n : Nat) (o : Oid) (ext : List ASpec) (b : Bld) (par : Option Oid),
    buildObj E n o ext = .ok b → ∃ objs, construct E n par b = .ok (o, objs) ∧ Complete E o par objs
  | 0, _, _, _, _, hb => by simp [buildObj] at hb
  | n + 1, o, ext, b, par, hb => by
    obtain ⟨td, ht, hR⟩ := buildObj_ok h hb
    have hS := h.obj o td ht
    have hres : restored E o par =
        ⟨bname E o, (E.heap o).dt, par, E.source, false, initFields td (cargsOf E td o)⟩ := by
      simp [restored, ht]
    simp only [construct, hR.dt, hR.oid, ht]
    by_cases hd : td.isData = true
    · -- a dataset
      obtain ⟨d, d', hf, hc, hbd⟩ := hR.data hd
      have hdo : dataOut E td o = some d' := by simp [dataOut, hf, hc, Except.toOption]
      have hlv : leaves td = td.body.attrs.map .attr := by simp [leaves, hd]
      have hreq : td.args.any (fun p => p.2 && decide (p.1 ≠ "name") && !Dict.has (cargsOf E td o) p.1) = false := by
        rw [List.any_eq_false]
        rintro ⟨a, r⟩ ha
        simp only [Bool.and_eq_true, not_and, Bool.not_eq_true, Bool.not_eq_false', decide_eq_true_eq]
        rintro ⟨rfl, hn⟩
        rcases hS.req a ha hn with ⟨_, rfl⟩ | hl
        · simpa using cargs_has hS (Or.inl ⟨hd, rfl, by rw [hdo]; rfl⟩)
        · simpa using cargs_has hS (Or.inr hl)
      have hkn : (Dict.keys ([] : Dict Nat (FVal × Bool)) ++ td.body.attrs.map ASpec.uid).Nodup := by
        have := hS.uids.1
        rw [hlv] at this
        simpa [Dict.keys, Function.comp_def, Leaf.uid] using this
      have hra := readAttrs_ok (E := E) (td := td) (p := o) b td.body.attrs ⟨[], []⟩ hR.attrs hkn
      have hput : (readAttrs b td.body.attrs ⟨[], []⟩).put td.body.uid (.data d') false =
          ⟨(leaves td).filterMap (entry E td o) ++ [(td.body.uid, (.data d', false))], []⟩ := by
        rw [hra]
        simp only [Ret.put, List.nil_append]
        rw [dset_fresh_nat, evA_leaf, hlv]
        intro hm
        refine hS.uids.2 ?_
        rw [hlv]
        have := (evA_keys (E := E) (td := td) (p := o) td.body.attrs).subset hm
        simpa [Function.comp_def, Leaf.uid] using this
      have hca : cargsOf E td o = constArgs td ((leaves td).filterMap (entry E td o) ++
          [(td.body.uid, (.data d', false))]) [("data", .data d')] := by
        simp only [cargsOf, hd, hdo]
      refine ⟨[(o, restored E o par)], ?_, ⟨by simp, fun q hq => Or.inl (by simpa using hq), ?_⟩⟩
      · rw [hres]
        simp only [hd, hbd, if_true, hput]
        show (if _ then _ else _) = _
        rw [hca] at hreq ⊢
        simp only [hreq, hR.name]
        rfl
      · intro x hx
        exfalso
        have key : ∀ y z, Below E y z → y = o → False := by
          intro y z hyz
          cases hyz with
          | child hc' =>
            rintro rfl
            obtain ⟨td', ht', hd', _⟩ := hc'
            rw [ht] at ht'; cases ht'
            rw [hd] at hd'; cases hd'
          | step hc' _ =>
            rintro rfl
            obtain ⟨td', ht', hd', _⟩ := hc'
            rw [ht] at ht'; cases ht'
            rw [hd] at hd'; cases hd'
        exact key o x hx rfl
    · -- a group
      have hf : td.isData = false := by simpa using hd
      have hlv : leaves td = sLeaves td.body := by simp [leaves, hf]
      have hC : ConOK E (buildObj E n) o (conOf E n o) := by
        refine ⟨?_, fun _ => rfl, fun x e b hb => buildObj_dt h hb, h.hier⟩
        intro x e hx _
        obtain ⟨objs, h1, _⟩ := construct_build h n x e _ (some o) hx
        have h2 : conOf E n o (.own (bo (buildObj E n) x e)) = .ok (x, objs) := h1
        rw [h2, os, h2]
      have hu : (sU td.body).Nodup := by
        have := hS.uids.1
        rwa [hlv, sLeaves_uid] at this
      have hread := readRoot_ok hR hf hS.type hC hu
      have hB := (hR.body hf).2.2.2
      have hca : cargsOf E td o = constArgs td (ev0S E td o td.body) [] := by
        simp only [cargsOf, hf, hlv, ev0S_leaf]
      have hreq : td.args.any (fun p => p.2 && decide (p.1 ≠ "name") && !Dict.has (cargsOf E td o) p.1) = false := by
        rw [List.any_eq_false]
        rintro ⟨a, r⟩ ha
        simp only [Bool.and_eq_true, not_and, Bool.not_eq_true, Bool.not_eq_false', decide_eq_true_eq]
        rintro ⟨rfl, hn⟩
        rcases hS.req a ha hn with ⟨hd', _⟩ | hl
        · exact absurd hd' hd
        · simpa using cargs_has hS (Or.inr hl)
      refine ⟨eo0S E (buildObj E n) td o (conOf E n o) td.body ++ [(o, restored E o par)], ?_, ⟨by simp, ?_, ?_⟩⟩
      · rw [hres]
        simp only [hf, Bool.false_eq_true, if_false]
        show (readSpec E (conOf E n o) b td.body ⟨[], []⟩ >>= _) = _
        rw [hread]
        show (if _ then _ else _) = _
        rw [hca] at hreq ⊢
        simp only [hreq, hR.name]
        rfl
      · intro q hq
        rcases List.mem_append.1 hq with hq | hq
        · refine Or.inr ?_
          rw [eo0S_mem] at hq
          obtain ⟨k, s, hks, x, hx, ho, hq⟩ := hq
          have hp := (own_not_link ho).2
          have hbx := (hB k s hks x hx ho).1
          obtain ⟨objs, h1, hcm⟩ := construct_build h n x s.attrs _ (some o) hbx
          have h2 : conOf E n o (.own (bo (buildObj E n) x s.attrs)) = .ok (x, objs) := h1
          rw [os, h2] at hq
          have hch : Child E o x := ⟨td, ht, hf, k, s, hks, hx, hp⟩
          rcases hcm.only q hq with rfl | ⟨h3, h4⟩
          · exact ⟨.child hch, by simp only [hp]⟩
          · exact ⟨.step hch h3, h4⟩
        · exact Or.inl (by simpa using hq)
      · have key : ∀ x, Child E o x → ∃ objs, (∀ q ∈ objs, q ∈ eo0S E (buildObj E n) td o (conOf E n o) td.body) ∧
            Complete E x (some o) objs := by
          rintro x ⟨td', ht', _, k, s, hks, hx, hp⟩
          rw [ht] at ht'; cases ht'
          have ho : own E o k x = true := by simp [own, hp, typedS_kind _ k s hks]
          have hbx := (hB k s hks x hx ho).1
          obtain ⟨objs, h1, hcm⟩ := construct_build h n x s.attrs _ (some o) hbx
          have h2 : conOf E n o (.own (bo (buildObj E n) x s.attrs)) = .ok (x, objs) := h1
          refine ⟨objs, fun q hq => ?_, hcm⟩
          rw [eo0S_mem]
          exact ⟨k, s, hks, x, hx, ho, by rw [os, h2]; exact hq⟩
        intro x hx
        cases hx with
        | child hc =>
          obtain ⟨objs, h1, h2⟩ := key x hc
          exact ⟨_, List.mem_append_left _ (h1 _ h2.self)⟩
        | step hc hb' =>
          obtain ⟨objs, h1, h2⟩ := key _ hc
          obtain ⟨ob, hob⟩ := h2.all x hb'
          exact ⟨ob, List.mem_append_left _ (h1 _ hob)⟩

end

end Verif.Mapper

import Verif.Lemmas.Mapper

/-! The members of one group, and what makes them distinguishable when the group is read. -/

namespace Verif.Mapper

open Verif

/-- A member specification of a group. -/
inductive Item where
  | attr (s : ASpec)
  | dset (uid : Nat) (name : String) (attrs : List ASpec)
  | grp (g : GSpec)
  | typed (k : Kind) (s : TSpec)

def dsItem : DS → Item
  | .untyped uid name _ attrs => .dset uid name attrs
  | .typed s => .typed .dset s

def gItems : GList → List Item
  | .nil => []
  | .typed s l => .typed .group s :: gItems l
  | .untyped g l => .grp g :: gItems l

/-- The members of the body of a type, in the order in which a build adds them. -/
def rootItems (g : GSpec) : List Item :=
  g.dsets.map dsItem ++ (gItems g.groups ++ (g.links.map (.typed .link) ++ g.attrs.map .attr))

/-- The members of a group without data type, in the order in which a build adds them. -/
def innerItems (g : GSpec) : List Item :=
  g.dsets.map dsItem ++ (g.links.map (.typed .link) ++ (gItems g.groups ++ g.attrs.map .attr))

def Item.uid : Item → Nat
  | .attr s => s.uid
  | .dset u _ _ => u
  | .grp g => g.uid
  | .typed _ s => s.uid

/-- The names of the members stored for a specification. -/
def Item.names (E : Env) (td : TypeDef) (p : Oid) : Item → List String
  | .attr s => [s.name]
  | .dset _ n _ => [n]
  | .grp g => [g.name]
  | .typed _ s => match s.name with
    | some n => [n]
    | none => (vals E td p s).map (bname E)

def dOf (E : Env) (rec : Oid → List ASpec → Except BErr Bld) (td : TypeDef) (p : Oid) : Item → List (String × Bld)
  | .dset uid name attrs => uImg E td p uid name attrs
  | .typed .dset s => tOwn E rec td p .dset s
  | _ => []

def gOf (E : Env) (rec : Oid → List ASpec → Except BErr Bld) (td : TypeDef) (p : Oid) : Item → List (String × Bld)
  | .grp g => if !isEmpty (inner E rec td p g) || g.required then [(g.name, inner E rec td p g)] else []
  | .typed .group s => tOwn E rec td p .group s
  | _ => []

def lOf (E : Env) (td : TypeDef) (p : Oid) : Item → Dict String Lnk
  | .typed k s => tLnk E td p k s
  | _ => []

def kd (E : Env) (rec : Oid → List ASpec → Except BErr Bld) (td : TypeDef) (p : Oid) : Item → List String
  | .dset _ name _ => [name]
  | .typed .dset s => Dict.keys (tOwn E rec td p .dset s)
  | _ => []

def kg (E : Env) (rec : Oid → List ASpec → Except BErr Bld) (td : TypeDef) (p : Oid) : Item → List String
  | .grp g => [g.name]
  | .typed .group s => Dict.keys (tOwn E rec td p .group s)
  | _ => []

section
variable (E : Env) (rec : Oid → List ASpec → Except BErr Bld) (td : TypeDef) (p : Oid)

theorem flatMap_nil_of {α β : Type} {f : α → List β} {l : List α} (h : ∀ x ∈ l, f x = []) : l.flatMap f = [] := by
  induction l with
  | nil => rfl
  | cons x l ih => rw [List.flatMap_cons, h x (by simp), ih (fun y hy => h y (by simp [hy]))]; rfl

theorem ds_d : ∀ l : List DS, (l.map dsItem).flatMap (dOf E rec td p) = dsImg E rec td p l
  | [] => rfl
  | .untyped _ _ _ _ :: l => by simp [dsItem, dOf, dsImg, ds_d l]
  | .typed _ :: l => by simp [dsItem, dOf, dsImg, ds_d l]

theorem ds_g : ∀ l : List DS, (l.map dsItem).flatMap (gOf E rec td p) = []
  | [] => rfl
  | .untyped _ _ _ _ :: l => by simpa [dsItem, gOf] using ds_g l
  | .typed _ :: l => by simpa [dsItem, gOf] using ds_g l

theorem ds_l : ∀ l : List DS, (l.map dsItem).flatMap (lOf E td p) = dsLnk E td p l
  | [] => rfl
  | .untyped _ _ _ _ :: l => by simpa [dsItem, lOf, dsLnk] using ds_l l
  | .typed _ :: l => by simpa [dsItem, lOf, dsLnk] using ds_l l

theorem ds_kd : ∀ l : List DS, (l.map dsItem).flatMap (kd E rec td p) = dsKeys E rec td p l
  | [] => rfl
  | .untyped _ _ _ _ :: l => by simpa [dsItem, kd, dsKeys] using ds_kd l
  | .typed _ :: l => by simpa [dsItem, kd, dsKeys] using ds_kd l

theorem ds_kg : ∀ l : List DS, (l.map dsItem).flatMap (kg E rec td p) = []
  | [] => rfl
  | .untyped _ _ _ _ :: l => by simpa [dsItem, kg] using ds_kg l
  | .typed _ :: l => by simpa [dsItem, kg] using ds_kg l

theorem g_d : ∀ l : GList, (gItems l).flatMap (dOf E rec td p) = []
  | .nil => rfl
  | .untyped _ l => by simpa [gItems, dOf] using g_d l
  | .typed _ l => by simpa [gItems, dOf] using g_d l

theorem g_g : ∀ l : GList, (gItems l).flatMap (gOf E rec td p) = gImg E rec td p l
  | .nil => by simp [gItems, gImg]
  | .untyped _ l => by simp [gItems, gOf, gImg, g_g l]
  | .typed _ l => by simp [gItems, gOf, gImg, g_g l]

theorem g_l : ∀ l : GList, (gItems l).flatMap (lOf E td p) = gLnk E rec td p l
  | .nil => by simp [gItems, gLnk]
  | .untyped _ l => by simpa [gItems, lOf, gLnk] using g_l l
  | .typed _ l => by simpa [gItems, lOf, gLnk] using g_l l

theorem g_kd : ∀ l : GList, (gItems l).flatMap (kd E rec td p) = []
  | .nil => rfl
  | .untyped _ l => by simpa [gItems, kd] using g_kd l
  | .typed _ l => by simpa [gItems, kd] using g_kd l

theorem g_kg : ∀ l : GList, (gItems l).flatMap (kg E rec td p) = gKeys E rec td p l
  | .nil => by simp [gItems, gKeys]
  | .untyped _ l => by simp [gItems, kg, gKeys, g_kg l]
  | .typed _ l => by simp [gItems, kg, gKeys, g_kg l]

theorem links_l (l : List TSpec) : (l.map (Item.typed .link)).flatMap (lOf E td p) = lLnk E td p l := by
  induction l with
  | nil => rfl
  | cons s l ih => simpa [lOf, lLnk] using ih

theorem links_nil (l : List TSpec) : (l.map (Item.typed .link)).flatMap (dOf E rec td p) = [] ∧
    (l.map (Item.typed .link)).flatMap (gOf E rec td p) = [] ∧
    (l.map (Item.typed .link)).flatMap (kd E rec td p) = [] ∧
    (l.map (Item.typed .link)).flatMap (kg E rec td p) = [] := by
  refine ⟨?_, ?_, ?_, ?_⟩ <;>
  · refine flatMap_nil_of ?_
    intro x hx
    obtain ⟨s, _, rfl⟩ := List.mem_map.1 hx
    rfl

theorem attrs_nil (l : List ASpec) : (l.map Item.attr).flatMap (dOf E rec td p) = [] ∧
    (l.map Item.attr).flatMap (gOf E rec td p) = [] ∧ (l.map Item.attr).flatMap (lOf E td p) = [] ∧
    (l.map Item.attr).flatMap (kd E rec td p) = [] ∧ (l.map Item.attr).flatMap (kg E rec td p) = [] := by
  refine ⟨?_, ?_, ?_, ?_, ?_⟩ <;>
  · refine flatMap_nil_of ?_
    intro x hx
    obtain ⟨s, _, rfl⟩ := List.mem_map.1 hx
    rfl

theorem root_img (g : GSpec) :
    (rootItems g).flatMap (dOf E rec td p) = dsImg E rec td p g.dsets ∧
    (rootItems g).flatMap (gOf E rec td p) = gImg E rec td p g.groups ∧
    (rootItems g).flatMap (lOf E td p) =
      dsLnk E td p g.dsets ++ (gLnk E rec td p g.groups ++ lLnk E td p g.links) ∧
    (rootItems g).flatMap (kd E rec td p) = dsKeys E rec td p g.dsets ∧
    (rootItems g).flatMap (kg E rec td p) = gKeys E rec td p g.groups := by
  obtain ⟨l1, l2, l3, l4⟩ := links_nil E rec td p g.links
  obtain ⟨a1, a2, a3, a4, a5⟩ := attrs_nil E rec td p g.attrs
  simp only [rootItems, List.flatMap_append, ds_d, ds_g, ds_l, ds_kd, ds_kg, g_d, g_g, g_l E rec, g_kd, g_kg, links_l,
    l1, l2, l3, l4, a1, a2, a3, a4, a5, List.append_nil, List.nil_append, and_self]

theorem inner_img (g : GSpec) :
    (innerItems g).flatMap (dOf E rec td p) = dsImg E rec td p g.dsets ∧
    (innerItems g).flatMap (gOf E rec td p) = gImg E rec td p g.groups ∧
    (innerItems g).flatMap (lOf E td p) =
      dsLnk E td p g.dsets ++ (lLnk E td p g.links ++ gLnk E rec td p g.groups) ∧
    (innerItems g).flatMap (kd E rec td p) = dsKeys E rec td p g.dsets ∧
    (innerItems g).flatMap (kg E rec td p) = gKeys E rec td p g.groups := by
  obtain ⟨l1, l2, l3, l4⟩ := links_nil E rec td p g.links
  obtain ⟨a1, a2, a3, a4, a5⟩ := attrs_nil E rec td p g.attrs
  simp only [innerItems, List.flatMap_append, ds_d, ds_g, ds_l, ds_kd, ds_kg, g_d, g_g, g_l E rec, g_kd, g_kg, links_l,
    l1, l2, l3, l4, a1, a2, a3, a4, a5, List.append_nil, List.nil_append, and_self]

end

/-- What makes the members of a group distinguishable when the group is read.

* `names`: no two members have the same name.
* `uids`: the specifications are different objects.
* `notype`: groups and datasets without data type do not declare an attribute `data_type`.
* `sort`: containers under a dataset specification are stored as datasets, those under a group specification as groups.
* `named`: a specification with a name selects at most one container, and a child of it has that name.
* `sep`: a container selected by another specification is not of the type of a specification without a name.
* `lsep`: a container linked to for another specification is not of the type of a link specification that has no name
  or selects nothing.
* `ltype`: a link specification without a name selects containers of exactly its type. -/
structure Sound (E : Env) (td : TypeDef) (p : Oid) (I : List Item) : Prop where
  names : (I.flatMap (Item.names E td p)).Nodup
  uids : (I.map Item.uid).Nodup
  attrs : ∀ u n as, Item.dset u n as ∈ I → (as.map ASpec.name).Nodup ∧ ∀ a ∈ as, a.name ≠ "data_type"
  gattrs : ∀ g, Item.grp g ∈ I → ∀ a ∈ g.attrs, a.name ≠ "data_type"
  sort : ∀ k s, Item.typed k s ∈ I → k ≠ .link → ∀ x ∈ vals E td p s, isData E x = decide (k = .dset)
  named : ∀ k s n, Item.typed k s ∈ I → s.name = some n →
    (vals E td p s).length ≤ 1 ∧ ∀ x ∈ vals E td p s, own E p k x = true → bname E x = n
  sep : ∀ k s, Item.typed k s ∈ I → k ≠ .link → s.name = none → ∀ k' t, Item.typed k' t ∈ I → t.uid ≠ s.uid →
    ∀ x ∈ vals E td p t, isData E x = decide (k = .dset) → s.dt ∉ E.hier (E.heap x).dt
  lsep : ∀ s, Item.typed .link s ∈ I → (s.name = none ∨ vals E td p s = []) → ∀ k' t, Item.typed k' t ∈ I →
    t.uid ≠ s.uid → ∀ x ∈ vals E td p t, own E p k' x = false → (E.heap x).dt ≠ s.dt
  ltype : ∀ s, Item.typed .link s ∈ I → s.name = none → ∀ x ∈ vals E td p s, (E.heap x).dt = s.dt

mutual
/-- Every group without data type below is sound. -/
def SoundGs (E : Env) (td : TypeDef) (p : Oid) : GList → Prop
  | .nil => True
  | .typed _ l => SoundGs E td p l
  | .untyped g l => SoundG E td p g ∧ SoundGs E td p l
/-- See `SoundGs`. -/
def SoundG (E : Env) (td : TypeDef) (p : Oid) : GSpec → Prop
  | .mk uid name req attrs dsets groups links =>
    Sound E td p (innerItems (.mk uid name req attrs dsets groups links)) ∧ SoundGs E td p groups
end

section
variable {E : Env} {rec : Oid → List ASpec → Except BErr Bld} {td : TypeDef} {p : Oid}

theorem keys_tOwn (k : Kind) (s : TSpec) : Dict.keys (tOwn E rec td p k s) =
    ((vals E td p s).filter (own E p k)).map (bname E) := by
  simp [tOwn, Dict.keys, Function.comp_def]

theorem keys_tLnk (k : Kind) (s : TSpec) : Dict.keys (tLnk E td p k s) =
    ((vals E td p s).filter (fun x => !own E p k x)).map (fun x => s.name.getD (bname E x)) := by
  simp [tLnk, Dict.keys, Function.comp_def]

theorem count_split (q : Oid → Bool) (f : Oid → String) (a : String) (l : List Oid) :
    ((l.filter q).map f).count a + ((l.filter (fun x => !q x)).map f).count a = (l.map f).count a := by
  induction l with
  | nil => rfl
  | cons x l ih =>
    by_cases h : q x = true
    · simp only [List.filter_cons, h, if_true, Bool.not_true, Bool.false_eq_true, if_false, List.map_cons,
        List.count_cons]
      omega
    · have h' : q x = false := by simpa using h
      simp only [List.filter_cons, h', Bool.false_eq_true, if_false, Bool.not_false, if_true, List.map_cons,
        List.count_cons]
      omega

theorem typed_count {I : List Item} (hS : Sound E td p I) {k : Kind} {s : TSpec} (hm : Item.typed k s ∈ I)
    (a : String) : (Dict.keys (tOwn E rec td p k s)).count a + (Dict.keys (tLnk E td p k s)).count a ≤
      (Item.names E td p (.typed k s)).count a := by
  rw [keys_tOwn, keys_tLnk]
  cases hn : s.name with
  | none =>
    simp only [Item.names, hn, Option.getD_none]
    exact Nat.le_of_eq (count_split _ _ _ _)
  | some n =>
    obtain ⟨h1, h2⟩ := hS.named k s n hm hn
    simp only [Item.names, hn, Option.getD_some]
    cases hv : vals E td p s with
    | nil => simp
    | cons x l =>
      cases l with
      | cons y l => rw [hv] at h1; simp at h1
      | nil =>
        by_cases ho : own E p k x = true
        · have := h2 x (by simp [hv]) ho
          simp [ho, this]
        · simp [ho]

theorem item_count {I : List Item} (hS : Sound E td p I) {i : Item} (hm : i ∈ I) (a : String) :
    (kd E rec td p i).count a + (kg E rec td p i).count a + (Dict.keys (lOf E td p i)).count a ≤
      (Item.names E td p i).count a := by
  cases i with
  | attr s => simp [kd, kg, lOf, Dict.keys]
  | dset u n as => simp [kd, kg, lOf, Dict.keys, Item.names]
  | grp g => simp [kd, kg, lOf, Dict.keys, Item.names]
  | typed k s =>
    have := typed_count (rec := rec) hS hm a
    cases k with
    | dset => simpa [kd, kg, lOf] using this
    | group => simpa [kd, kg, lOf] using this
    | link =>
      have h2 : (Dict.keys (lOf E td p (.typed .link s))).count a ≤ (Item.names E td p (.typed .link s)).count a := by
        simp only [lOf]; omega
      simpa [kd, kg] using h2

theorem keys_flatMap {α β : Type} (f : α → Dict String β) (l : List α) :
    Dict.keys (l.flatMap f) = l.flatMap (fun x => Dict.keys (f x)) := by
  induction l with
  | nil => rfl
  | cons x l ih => simp [keys_append, ih]

theorem items_count {I : List Item} (hS : Sound E td p I) (a : String) :
    (I.flatMap (kd E rec td p)).count a + (I.flatMap (kg E rec td p)).count a +
      (Dict.keys (I.flatMap (lOf E td p))).count a ≤ (I.flatMap (Item.names E td p)).count a := by
  rw [keys_flatMap]
  have key : ∀ J : List Item, (∀ i ∈ J, i ∈ I) →
      (J.flatMap (kd E rec td p)).count a + (J.flatMap (kg E rec td p)).count a +
      (J.flatMap (fun x => Dict.keys (lOf E td p x))).count a ≤ (J.flatMap (Item.names E td p)).count a := by
    intro J
    induction J with
    | nil => intro _; simp
    | cons i J ih =>
      intro h
      have h1 := ih (fun j hj => h j (by simp [hj]))
      have h2 := item_count (rec := rec) hS (h i (by simp)) a
      simp only [List.flatMap_cons, List.count_append]
      omega
  exact key I (fun i hi => hi)

theorem nodup_of_count {l : List String} (h : ∀ a, l.count a ≤ 1) : l.Nodup := List.nodup_iff_count_le_one.2 h

theorem Sound.nodup {I : List Item} (hS : Sound E td p I) :
    (I.flatMap (kd E rec td p) ++ (I.flatMap (kg E rec td p) ++ Dict.keys (I.flatMap (lOf E td p)))).Nodup := by
  refine nodup_of_count (fun a => ?_)
  have h1 := items_count (rec := rec) hS a
  have h2 := List.nodup_iff_count_le_one.1 hS.names a
  simp only [List.count_append]
  omega

theorem dOf_keys (i : Item) : (Dict.keys (dOf E rec td p i)).Sublist (kd E rec td p i) := by
  cases i with
  | attr s => simp [dOf, kd, Dict.keys]
  | dset u n as => exact uImg_keys E td p u n as
  | grp g => simp [dOf, kd, Dict.keys]
  | typed k s => cases k <;> simp [dOf, kd, Dict.keys]

theorem gOf_keys (i : Item) : (Dict.keys (gOf E rec td p i)).Sublist (kg E rec td p i) := by
  cases i with
  | attr s => simp [gOf, kg, Dict.keys]
  | dset u n as => simp [gOf, kg, Dict.keys]
  | grp g => simp only [gOf, kg]; split <;> simp [Dict.keys]
  | typed k s => cases k <;> simp [gOf, kg, Dict.keys]

theorem flatMap_sublist {α β : Type} {f g : α → List β} (h : ∀ x, (f x).Sublist (g x)) (l : List α) :
    (l.flatMap f).Sublist (l.flatMap g) := by
  induction l with
  | nil => simp
  | cons x l ih => simpa using (h x).append ih

theorem Sound.nodup_d {I : List Item} (hS : Sound E td p I) :
    (Dict.keys (I.flatMap (dOf E rec td p)) ++ Dict.keys (I.flatMap (lOf E td p))).Nodup := by
  refine (hS.nodup (rec := rec)).sublist ?_
  rw [keys_flatMap (dOf E rec td p)]
  refine (flatMap_sublist dOf_keys I).append ?_
  exact List.sublist_append_right _ _

theorem Sound.nodup_g {I : List Item} (hS : Sound E td p I) :
    (Dict.keys (I.flatMap (gOf E rec td p)) ++ Dict.keys (I.flatMap (lOf E td p))).Nodup := by
  refine (hS.nodup (rec := rec)).sublist ?_
  rw [keys_flatMap (gOf E rec td p)]
  refine List.Sublist.trans ?_ (List.sublist_append_right _ _)
  exact (flatMap_sublist gOf_keys I).append (List.Sublist.refl _)

theorem mem_names_d {I : List Item} (hS : Sound E td p I) {i : Item} (hi : i ∈ I) {a : String}
    (h : a ∈ Dict.keys (dOf E rec td p i)) : a ∈ Item.names E td p i := by
  have h1 : a ∈ kd E rec td p i := (dOf_keys i).subset h
  have := item_count (rec := rec) hS hi a
  have h2 : 0 < (kd E rec td p i).count a := List.count_pos_iff.2 h1
  exact List.count_pos_iff.1 (by omega)

theorem mem_names_g {I : List Item} (hS : Sound E td p I) {i : Item} (hi : i ∈ I) {a : String}
    (h : a ∈ Dict.keys (gOf E rec td p i)) : a ∈ Item.names E td p i := by
  have h1 : a ∈ kg E rec td p i := (gOf_keys i).subset h
  have := item_count (rec := rec) hS hi a
  have h2 : 0 < (kg E rec td p i).count a := List.count_pos_iff.2 h1
  exact List.count_pos_iff.1 (by omega)

theorem mem_names_l {I : List Item} (hS : Sound E td p I) {i : Item} (hi : i ∈ I) {a : String}
    (h : a ∈ Dict.keys (lOf E td p i)) : a ∈ Item.names E td p i := by
  have := item_count (rec := fun _ _ => .error .value) hS hi a
  have h2 : 0 < (Dict.keys (lOf E td p i)).count a := List.count_pos_iff.2 h
  exact List.count_pos_iff.1 (by omega)

theorem flatMap_unique {α β : Type} {L : List α} {f : α → List β} (hn : (L.flatMap f).Nodup) {i j : α} (hi : i ∈ L)
    (hj : j ∈ L) {a : β} (ha : a ∈ f i) (hb : a ∈ f j) : i = j := by
  induction L with
  | nil => cases hi
  | cons x L ih =>
    rw [List.flatMap_cons, List.nodup_append] at hn
    obtain ⟨_, h2, h3⟩ := hn
    rcases List.mem_cons.1 hi with hi' | hi'
    · rcases List.mem_cons.1 hj with hj' | hj'
      · rw [hi', hj']
      · exact absurd rfl (h3 a (hi' ▸ ha) a (List.mem_flatMap.2 ⟨j, hj', hb⟩))
    · rcases List.mem_cons.1 hj with hj' | hj'
      · exact absurd rfl (h3 a (hj' ▸ hb) a (List.mem_flatMap.2 ⟨i, hi', ha⟩))
      · exact ih h2 hi' hj'

theorem attrImg_keys (l : List ASpec) : (Dict.keys (attrImg E td p l)).Sublist (l.map ASpec.name) := by
  induction l with
  | nil => simp [attrImg, Dict.keys]
  | cons s l ih =>
    unfold attrImg at ih ⊢
    rw [List.filterMap_cons]
    split
    · exact ih.cons _
    · rename_i h
      split at h
      · cases h
        simpa [Dict.keys] using ih
      · cases h

theorem mem_dsItem {l : List DS} {s : TSpec} : Item.typed .dset s ∈ l.map dsItem ↔ s ∈ dsTyped l := by
  induction l with
  | nil => simp [dsTyped]
  | cons d l ih => cases d <;> simp_all [dsItem, dsTyped]

theorem dsAttrs_of {l : List DS} (h : ∀ u n as, Item.dset u n as ∈ l.map dsItem → (as.map ASpec.name).Nodup) :
    dsAttrs E td p l := by
  induction l with
  | nil => trivial
  | cons d l ih =>
    have := ih (fun u n as hm => h u n as (by simp only [List.map_cons, List.mem_cons]; exact Or.inr hm))
    cases d with
    | untyped u n r as =>
      exact ⟨(h u n as (by simp [dsItem])).sublist (attrImg_keys as), this⟩
    | typed s => exact this

theorem attrs_names (l : List ASpec) : (l.map Item.attr).flatMap (Item.names E td p) = l.map ASpec.name := by
  induction l with
  | nil => rfl
  | cons s l ih => simpa [Item.names] using ih

mutual
theorem imgOKs_of_sound : ∀ l : GList, SoundGs E td p l → ImgOKs E rec td p l
  | .nil, _ => by simp [ImgOKs]
  | .typed _ l, h => by
    simp only [SoundGs] at h
    simpa [ImgOKs] using imgOKs_of_sound l h
  | .untyped g l, h => by
    simp only [SoundGs] at h
    simp only [ImgOKs]
    exact ⟨imgOK_of_sound g h.1, imgOKs_of_sound l h.2⟩
theorem imgOK_of_sound : ∀ g : GSpec, SoundG E td p g → ImgOK E rec td p g
  | .mk uid name req attrs dsets groups links, h => by
    simp only [SoundG] at h
    obtain ⟨hS, hG⟩ := h
    obtain ⟨i1, i2, i3, i4, i5⟩ := inner_img E rec td p (.mk uid name req attrs dsets groups links)
    have hn := hS.nodup (rec := rec)
    rw [i3, i4, i5] at hn
    simp only [GSpec.dsets, GSpec.groups, GSpec.links] at hn
    simp only [ImgOK]
    refine ⟨?_, ?_, ?_, ?_, ?_, imgOKs_of_sound groups hG⟩
    · have hnm := hS.names
      simp only [innerItems, GSpec.attrs, List.flatMap_append, attrs_names] at hnm
      refine (hnm.sublist ?_).sublist (attrImg_keys attrs)
      exact ((List.sublist_append_right _ _).trans (List.sublist_append_right _ _)).trans
        (List.sublist_append_right _ _)
    · refine dsAttrs_of (fun u n as hm => (hS.attrs u n as ?_).1)
      simp only [innerItems, GSpec.dsets, List.mem_append]
      exact Or.inl hm
    · exact (List.nodup_append.1 hn).1
    · exact (List.nodup_append.1 (List.nodup_append.1 hn).2.1).1
    · exact (List.nodup_append.1 (List.nodup_append.1 hn).2.1).2.1
end

end

end Verif.Mapper

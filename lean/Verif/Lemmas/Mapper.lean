import Verif.Model.Mapper
import Mathlib.Data.List.Basic
import Mathlib.Data.List.Nodup

/-! Lemmas about `Model/Mapper.lean`. -/

namespace Verif.Mapper

open Verif

/-! ### Association lists -/

theorem dset_fresh {α : Type} {d : Dict String α} {k : String} {v : α} (h : k ∉ Dict.keys d) :
    Dict.set d k v = d ++ [(k, v)] := by
  induction d with
  | nil => rfl
  | cons p d ih =>
    obtain ⟨k', v'⟩ := p
    have h1 : k' ≠ k := fun e => h (by simp [Dict.keys, e])
    have h2 : k ∉ Dict.keys d := fun e => h (by simp only [Dict.keys, List.map_cons, List.mem_cons]; exact Or.inr e)
    simp only [Dict.set, h1, if_false, ih h2, List.cons_append]

theorem dset_fresh_nat {α : Type} {d : Dict Nat α} {k : Nat} {v : α} (h : k ∉ Dict.keys d) :
    Dict.set d k v = d ++ [(k, v)] := by
  induction d with
  | nil => rfl
  | cons p d ih =>
    obtain ⟨k', v'⟩ := p
    have h1 : k' ≠ k := fun e => h (by simp [Dict.keys, e])
    have h2 : k ∉ Dict.keys d := fun e => h (by simp only [Dict.keys, List.map_cons, List.mem_cons]; exact Or.inr e)
    simp only [Dict.set, h1, if_false, ih h2, List.cons_append]

theorem keys_append {κ α : Type} (a b : Dict κ α) : Dict.keys (a ++ b) = Dict.keys a ++ Dict.keys b := by
  simp [Dict.keys]

theorem dset_last {α : Type} {d : Dict String α} {k : String} {v w : α} (h : k ∉ Dict.keys d) :
    Dict.set (d ++ [(k, v)]) k w = d ++ [(k, w)] := by
  induction d with
  | nil => simp [Dict.set]
  | cons p d ih =>
    obtain ⟨k', v'⟩ := p
    have h1 : k' ≠ k := fun e => h (by simp [Dict.keys, e])
    have h2 : k ∉ Dict.keys d := fun e => h (by simp only [Dict.keys, List.map_cons, List.mem_cons]; exact Or.inr e)
    simp only [List.cons_append, Dict.set, h1, if_false, ih h2]

theorem get?_append {κ α : Type} [DecidableEq κ] (a b : Dict κ α) (k : κ) :
    Dict.get? (a ++ b) k = (Dict.get? a k).or (Dict.get? b k) := by
  induction a with
  | nil => simp
  | cons p a ih =>
    obtain ⟨k', v⟩ := p
    by_cases h : k' = k <;> simp [Dict.get?, h, ih]

/-! ### What a build puts into a group -/

/-- The entries of the attributes. -/
def attrImg (E : Env) (td : TypeDef) (o : Oid) (l : List ASpec) : Dict String AVal :=
  l.filterMap (fun s => match attrOut E td o s with
    | .ok (some v) => some (s.name, v)
    | _ => none)

theorem setAttr_ok {b b' : Bld} {n : String} {v : AVal} (h : setAttr b n v = .ok b') :
    b' = { b with attrs := b.attrs.set n v } := by
  unfold setAttr at h
  split at h
  · cases h
  · exact (Except.ok.inj h).symm

theorem setDset_ok {b b' sb : Bld} (h : setDset b sb = .ok b') :
    sb.isData = true ∧ b' = { b with dsets := Dict.set b.dsets sb.name sb } := by
  unfold setDset at h
  split at h
  · cases h
  · split at h
    · cases h
    · rename_i h1 _
      exact ⟨by simpa using h1, (Except.ok.inj h).symm⟩

theorem setGroup_ok {b b' sb : Bld} (h : setGroup b sb = .ok b') :
    sb.isData = false ∧ b' = { b with groups := Dict.set b.groups sb.name sb } := by
  unfold setGroup at h
  split at h
  · cases h
  · split at h
    · cases h
    · rename_i h1 _
      exact ⟨by simpa using h1, (Except.ok.inj h).symm⟩

theorem setLink_ok {b b' : Bld} {n : String} {l : Lnk} (h : setLink b n l = .ok b') :
    b' = { b with links := b.links.set n l } := by
  unfold setLink at h
  split at h
  · cases h
  · exact (Except.ok.inj h).symm

theorem bind_ok {ε α β : Type} {x : Except ε α} {f : α → Except ε β} {c : β} (h : (x >>= f) = .ok c) :
    ∃ a, x = .ok a ∧ f a = .ok c := by
  cases x with
  | error e => cases h
  | ok a => exact ⟨a, rfl, h⟩

theorem addAttrs_img (E : Env) (td : TypeDef) (o : Oid) : ∀ (l : List ASpec) (b b' : Bld),
    addAttrs E td o l b = .ok b' → (Dict.keys b.attrs ++ Dict.keys (attrImg E td o l)).Nodup →
    b' = { b with attrs := b.attrs ++ attrImg E td o l }
  | [], b, b', h, _ => by
    simp only [addAttrs] at h
    rw [← Except.ok.inj h]
    cases b; simp [attrImg]
  | s :: l, b, b', h, hn => by
    simp only [addAttrs] at h
    obtain ⟨v, hv, hh⟩ := bind_ok h
    obtain ⟨b1, hb1, h2⟩ := bind_ok hh
    clear h hh
    cases v with
    | none =>
      have he : attrImg E td o (s :: l) = attrImg E td o l := by simp [attrImg, hv]
      rw [he] at hn ⊢
      rw [← Except.ok.inj (show Except.ok b = _ from hb1)] at h2
      exact addAttrs_img E td o l b b' h2 hn
    | some v =>
      have he : attrImg E td o (s :: l) = (s.name, v) :: attrImg E td o l := by simp [attrImg, hv]
      rw [he] at hn ⊢
      have h1 := setAttr_ok hb1
      have hf : s.name ∉ Dict.keys b.attrs := by
        intro hm
        rw [List.nodup_append] at hn
        exact hn.2.2 _ hm _ (by simp [Dict.keys]) rfl
      rw [dset_fresh hf] at h1
      have hn1 : (Dict.keys b1.attrs ++ Dict.keys (attrImg E td o l)).Nodup := by
        rw [h1]
        simpa [keys_append, Dict.keys] using hn
      rw [addAttrs_img E td o l b1 b' h2 hn1, h1]
      simp

/-- The containers a specification with data type selects. -/
def vals (E : Env) (td : TypeDef) (o : Oid) (s : TSpec) : List Oid :=
  match getAttrValue E td o s.uid (some s.dt) with
  | .ok (.one x) => [x]
  | .ok (.many xs) => xs
  | _ => []

/-- A container stored inside the group, rather than linked to. -/
def own (E : Env) (p : Oid) (k : Kind) (x : Oid) : Bool := decide (k ≠ .link ∧ (E.heap x).parent = some p)

/-- The builder of a child. -/
def bo (rec : Oid → List ASpec → Except BErr Bld) (x : Oid) (l : List ASpec) : Bld :=
  match rec x l with
  | .ok b => b
  | .error _ => Bld.empty ""

/-- The sub-builders one specification with data type adds. -/
def tOwn (E : Env) (rec : Oid → List ASpec → Except BErr Bld) (td : TypeDef) (p : Oid) (k : Kind) (s : TSpec) :
    List (String × Bld) :=
  ((vals E td p s).filter (own E p k)).map (fun x => (bname E x, bo rec x s.attrs))

/-- The links one specification with data type adds. -/
def tLnk (E : Env) (td : TypeDef) (p : Oid) (k : Kind) (s : TSpec) : Dict String Lnk :=
  ((vals E td p s).filter (fun x => !own E p k x)).map (fun x => (s.name.getD (bname E x), lnk E x))

/-- Every child is built from scratch. -/
def Fresh (E : Env) (p : Oid) : Prop :=
  ∀ x, (E.heap x).parent = some p → ((E.heap x).modified || E.export_) = true

/-- Builders of children are named like `bname`. -/
def NameOK (E : Env) (rec : Oid → List ASpec → Except BErr Bld) : Prop :=
  ∀ x l b, rec x l = .ok b → b.name = bname E x

/-- A builder with more members. -/
def grow (b : Bld) (ds gs : List (String × Bld)) (ls : Dict String Lnk) : Bld :=
  { b with dsets := b.dsets ++ ds, groups := b.groups ++ gs, links := b.links ++ ls }

@[simp] theorem grow_nil (b : Bld) : grow b [] [] [] = b := by cases b; simp [grow]

theorem grow_grow (b : Bld) (ds ds' gs gs' : List (String × Bld)) (ls ls' : Dict String Lnk) :
    grow (grow b ds gs ls) ds' gs' ls' = grow b (ds ++ ds') (gs ++ gs') (ls ++ ls') := by simp [grow]

/-- The new names do not clash. -/
def NoClash (b : Bld) (ds gs ls : List String) : Prop :=
  (Dict.keys b.dsets ++ ds).Nodup ∧ (Dict.keys b.groups ++ gs).Nodup ∧ (Dict.keys b.links ++ ls).Nodup

theorem NoClash.left {b : Bld} {ds ds' gs gs' ls ls' : List String}
    (h : NoClash b (ds ++ ds') (gs ++ gs') (ls ++ ls')) : NoClash b ds gs ls := by
  obtain ⟨h1, h2, h3⟩ := h
  simp only [← List.append_assoc] at h1 h2 h3
  exact ⟨(List.nodup_append.1 h1).1, (List.nodup_append.1 h2).1, (List.nodup_append.1 h3).1⟩

theorem NoClash.right {b : Bld} {ds ds' gs gs' ls ls' : List String} {di gi : List (String × Bld)}
    {li : Dict String Lnk} (h : NoClash b (ds ++ ds') (gs ++ gs') (ls ++ ls'))
    (hd : (Dict.keys di).Sublist ds) (hg : (Dict.keys gi).Sublist gs) (hl : (Dict.keys li).Sublist ls) :
    NoClash (grow b di gi li) ds' gs' ls' := by
  obtain ⟨h1, h2, h3⟩ := h
  refine ⟨h1.sublist ?_, h2.sublist ?_, h3.sublist ?_⟩
  · simpa [grow, keys_append] using hd
  · simpa [grow, keys_append] using hg
  · simpa [grow, keys_append] using hl

theorem fresh_of_nodup {κ α : Type} {a : Dict κ α} {k : κ} {c : List κ}
    (h : (Dict.keys a ++ (k :: c)).Nodup) : k ∉ Dict.keys a := by
  intro hm
  rw [List.nodup_append] at h
  exact h.2.2 _ hm _ (by simp) rfl

/-- Only where the specification has the given kind. -/
def atKind (k k' : Kind) (l : List (String × Bld)) : List (String × Bld) := if k = k' then l else []

/-- What one container adds. -/
def oneOwn (E : Env) (rec : Oid → List ASpec → Except BErr Bld) (p : Oid) (k : Kind) (s : TSpec) (x : Oid) :
    List (String × Bld) := if own E p k x then [(bname E x, bo rec x s.attrs)] else []

/-- What one container adds. -/
def oneLnk (E : Env) (p : Oid) (k : Kind) (s : TSpec) (x : Oid) : Dict String Lnk :=
  if own E p k x then [] else [(s.name.getD (bname E x), lnk E x)]

/-- The child was built, and is of the right sort. -/
def Built (E : Env) (rec : Oid → List ASpec → Except BErr Bld) (p : Oid) (k : Kind) (s : TSpec) (x : Oid) : Prop :=
  own E p k x = true → rec x s.attrs = .ok (bo rec x s.attrs) ∧ (bo rec x s.attrs).isData = decide (k = .dset)

theorem addContainer_img {E : Env} {rec : Oid → List ASpec → Except BErr Bld} {p : Oid} {k : Kind} {s : TSpec}
    {x : Oid} {b b' : Bld} (hF : Fresh E p) (hN : NameOK E rec) (h : addContainer E rec p k s x b = .ok b')
    (hc : NoClash b (Dict.keys (atKind k .dset (oneOwn E rec p k s x)))
      (Dict.keys (atKind k .group (oneOwn E rec p k s x))) (Dict.keys (oneLnk E p k s x))) :
    b' = grow b (atKind k .dset (oneOwn E rec p k s x)) (atKind k .group (oneOwn E rec p k s x))
      (oneLnk E p k s x) ∧ Built E rec p k s x := by
  obtain ⟨c1, c2, c3⟩ := hc
  unfold addContainer at h
  split at h
  · cases h
  · rename_i horph
    by_cases hown : own E p k x = true
    · -- a child
      have ⟨hk, hp⟩ : k ≠ .link ∧ (E.heap x).parent = some p := by simpa [own] using hown
      have hm : ((E.heap x).modified || E.export_) = true := hF x hp
      rw [if_pos hm, if_neg (by simp [hk, hp])] at h
      obtain ⟨nb, hnb, h⟩ := bind_ok h
      have hbo : bo rec x s.attrs = nb := by simp [bo, hnb]
      have hname : nb.name = bname E x := hN _ _ _ hnb
      have ho : oneOwn E rec p k s x = [(bname E x, nb)] := by simp [oneOwn, hown, hbo]
      have hl : oneLnk E p k s x = [] := by simp [oneLnk, hown]
      rw [ho] at c1 c2
      rw [ho, hl]
      cases k with
      | link => exact absurd rfl hk
      | dset =>
        simp only [atKind, if_true, Dict.keys, List.map_cons, List.map_nil] at h c1
        obtain ⟨hd, hb⟩ := setDset_ok h
        rw [hname, dset_fresh (fresh_of_nodup c1)] at hb
        refine ⟨by rw [hb]; simp [grow, atKind], fun _ => ⟨by rw [hbo]; exact hnb, by rw [hbo, hd]; simp⟩⟩
      | group =>
        simp only [atKind, reduceCtorEq, if_true, if_false, Dict.keys, List.map_cons, List.map_nil] at h c2
        obtain ⟨hd, hb⟩ := setGroup_ok h
        rw [hname, dset_fresh (fresh_of_nodup c2)] at hb
        refine ⟨by rw [hb]; simp [grow, atKind], fun _ => ⟨by rw [hbo]; exact hnb, by rw [hbo, hd]; simp⟩⟩
    · -- a link
      have hno : own E p k x = false := by simpa using hown
      have hor : k = .link ∨ (E.heap x).parent ≠ some p := by
        by_cases hk : k = .link
        · exact Or.inl hk
        · refine Or.inr (fun hp => hown ?_)
          simp [own, hk, hp]
      have ho : oneOwn E rec p k s x = [] := by simp [oneOwn, hno]
      have hl : oneLnk E p k s x = [(s.name.getD (bname E x), lnk E x)] := by simp [oneLnk, hno]
      rw [hl] at c3
      rw [ho, hl]
      have key : setLink b (s.name.getD (bname E x)) (lnk E x) = .ok b' → b' = grow b [] []
          [(s.name.getD (bname E x), lnk E x)] := by
        intro h
        have hb := setLink_ok h
        rw [dset_fresh (fresh_of_nodup c3)] at hb
        rw [hb]; simp [grow]
      refine ⟨?_, fun hc => absurd hc hown⟩
      simp only [atKind, ite_self]
      rw [if_pos hor] at h
      split at h
      · exact key h
      · split at h
        · split at h
          · exact key h
          · rename_i hm _ hns
            exfalso
            have hp : (E.heap x).parent = some p := by
              by_cases hp : (E.heap x).parent = some p
              · exact hp
              · exact absurd (Or.inr hp) hns
            exact hm (hF x hp)
        · cases h

theorem addList_img {E : Env} {rec : Oid → List ASpec → Except BErr Bld} {p : Oid} {k : Kind} {s : TSpec}
    (hF : Fresh E p) (hN : NameOK E rec) : ∀ (l : List Oid) (b b' : Bld), addList E rec p k s l b = .ok b' →
    NoClash b (Dict.keys (atKind k .dset (l.flatMap (oneOwn E rec p k s))))
      (Dict.keys (atKind k .group (l.flatMap (oneOwn E rec p k s)))) (Dict.keys (l.flatMap (oneLnk E p k s))) →
    b' = grow b (atKind k .dset (l.flatMap (oneOwn E rec p k s)))
      (atKind k .group (l.flatMap (oneOwn E rec p k s))) (l.flatMap (oneLnk E p k s)) ∧
      ∀ x ∈ l, Built E rec p k s x
  | [], b, b', h, _ => by
    simp only [addList] at h
    rw [← Except.ok.inj h]
    simp [atKind]
  | x :: l, b, b', h, hc => by
    simp only [addList] at h
    obtain ⟨b1, hb1, h⟩ := bind_ok h
    have split1 : ∀ k', atKind k k' ((x :: l).flatMap (oneOwn E rec p k s)) =
        atKind k k' (oneOwn E rec p k s x) ++ atKind k k' (l.flatMap (oneOwn E rec p k s)) := by
      intro k'
      unfold atKind
      split <;> simp
    have split3 : (x :: l).flatMap (oneLnk E p k s) = oneLnk E p k s x ++ l.flatMap (oneLnk E p k s) := by simp
    rw [split1, split1, split3] at hc ⊢
    simp only [keys_append] at hc
    obtain ⟨e1, q1⟩ := addContainer_img hF hN hb1 hc.left
    have hc2 := hc.right (List.Sublist.refl _) (List.Sublist.refl _) (List.Sublist.refl _)
    rw [← e1] at hc2
    obtain ⟨e2, q2⟩ := addList_img hF hN l b1 b' h hc2
    refine ⟨?_, ?_⟩
    · rw [e2, e1, grow_grow]
    · intro y hy
      rcases List.mem_cons.1 hy with rfl | hy
      · exact q1
      · exact q2 y hy

theorem flatMap_oneOwn (E : Env) (rec : Oid → List ASpec → Except BErr Bld) (p : Oid) (k : Kind) (s : TSpec)
    (l : List Oid) : l.flatMap (oneOwn E rec p k s) =
      (l.filter (own E p k)).map (fun x => (bname E x, bo rec x s.attrs)) := by
  induction l with
  | nil => rfl
  | cons x l ih =>
    rw [List.flatMap_cons, ih]
    by_cases h : own E p k x = true <;> simp [oneOwn, h]

theorem flatMap_oneLnk (E : Env) (p : Oid) (k : Kind) (s : TSpec) (l : List Oid) : l.flatMap (oneLnk E p k s) =
    (l.filter (fun x => !own E p k x)).map (fun x => (s.name.getD (bname E x), lnk E x)) := by
  induction l with
  | nil => rfl
  | cons x l ih =>
    rw [List.flatMap_cons, ih]
    by_cases h : own E p k x = true
    · simp [oneLnk, h]
    · simp [oneLnk, h]

theorem addTyped_img {E : Env} {rec : Oid → List ASpec → Except BErr Bld} {td : TypeDef} {p : Oid} {k : Kind}
    {s : TSpec} {b b' : Bld} (hF : Fresh E p) (hN : NameOK E rec) (h : addTyped E rec td p k s b = .ok b')
    (hc : NoClash b (Dict.keys (atKind k .dset (tOwn E rec td p k s)))
      (Dict.keys (atKind k .group (tOwn E rec td p k s))) (Dict.keys (tLnk E td p k s))) :
    b' = grow b (atKind k .dset (tOwn E rec td p k s)) (atKind k .group (tOwn E rec td p k s)) (tLnk E td p k s) ∧
      ∀ x ∈ vals E td p s, Built E rec p k s x := by
  unfold addTyped at h
  obtain ⟨v, hv, h⟩ := bind_ok h
  cases v with
  | none =>
    have : vals E td p s = [] := by simp [vals, hv]
    simp only at h
    rw [← Except.ok.inj h]
    simp [tOwn, tLnk, this, atKind]
  | data d => cases h
  | one x =>
    have : vals E td p s = [x] := by simp [vals, hv]
    have e1 : tOwn E rec td p k s = oneOwn E rec p k s x := by
      rw [tOwn, this, ← flatMap_oneOwn]; simp
    have e2 : tLnk E td p k s = oneLnk E p k s x := by
      rw [tLnk, this, ← flatMap_oneLnk]; simp
    rw [e1, e2] at hc ⊢
    obtain ⟨q1, q2⟩ := addContainer_img hF hN h hc
    exact ⟨q1, by rw [this]; simpa using q2⟩
  | many xs =>
    have : vals E td p s = xs := by simp [vals, hv]
    have e1 : tOwn E rec td p k s = xs.flatMap (oneOwn E rec p k s) := by rw [tOwn, this, ← flatMap_oneOwn]
    have e2 : tLnk E td p k s = xs.flatMap (oneLnk E p k s) := by rw [tLnk, this, ← flatMap_oneLnk]
    rw [e1, e2] at hc ⊢
    obtain ⟨q1, q2⟩ := addList_img hF hN xs b b' h hc
    exact ⟨q1, by rw [this]; exact q2⟩

/-- The sub-builder a dataset without data type adds. -/
def uImg (E : Env) (td : TypeDef) (p : Oid) (uid : Nat) (name : String) (attrs : List ASpec) : List (String × Bld) :=
  match getAttrValue E td p uid none with
  | .ok (.data d) =>
    match E.conv uid d with
    | .ok d' => [(name, { Bld.dataset name d' with attrs := attrImg E td p attrs })]
    | .error _ => []
  | _ => []

theorem addUntyped_img {E : Env} {td : TypeDef} {p : Oid} {uid : Nat} {name : String} {attrs : List ASpec}
    {b b' : Bld} (h : addUntyped E td p uid name attrs b = .ok b')
    (ha : (Dict.keys (attrImg E td p attrs)).Nodup)
    (hc : NoClash b [name] [] []) :
    b' = grow b (uImg E td p uid name attrs) [] [] := by
  unfold addUntyped at h
  obtain ⟨v, hv, h2⟩ := bind_ok h
  clear h
  cases v with
  | none =>
    simp only at h2
    rw [← Except.ok.inj h2]
    simp [uImg, hv]
  | one x => cases h2
  | many l => cases h2
  | data d =>
    simp only at h2
    have hf : name ∉ Dict.keys b.dsets := fresh_of_nodup hc.1
    have hg : Dict.get? b.dsets name = none := Dict.get?_eq_none_iff.2 hf
    rw [hg] at h2
    simp only at h2
    obtain ⟨d', hcv, h3⟩ := bind_ok h2
    have hu : uImg E td p uid name attrs =
        [(name, { Bld.dataset name d' with attrs := attrImg E td p attrs })] := by simp [uImg, hv, hcv]
    rw [hu]
    obtain ⟨b1, hb1, h4⟩ := bind_ok h3
    obtain ⟨sb, hsb, h5⟩ := bind_ok h4
    have hb := (setDset_ok hb1).2
    have hsb' := addAttrs_img E td p attrs _ sb hsb (by simpa [Bld.dataset, Dict.keys] using ha)
    rw [← Except.ok.inj h5, hb, hsb']
    simp only [grow, Bld.dataset, List.nil_append, List.append_nil]
    rw [dset_fresh hf, dset_last hf]

/-- The members and links the datasets of a group add, and the names they take up. -/
def dsImg (E : Env) (rec : Oid → List ASpec → Except BErr Bld) (td : TypeDef) (p : Oid) : List DS → List (String × Bld)
  | [] => []
  | .untyped uid name _ attrs :: l => uImg E td p uid name attrs ++ dsImg E rec td p l
  | .typed s :: l => tOwn E rec td p .dset s ++ dsImg E rec td p l

/-- See `dsImg`. -/
def dsLnk (E : Env) (td : TypeDef) (p : Oid) : List DS → Dict String Lnk
  | [] => []
  | .untyped _ _ _ _ :: l => dsLnk E td p l
  | .typed s :: l => tLnk E td p .dset s ++ dsLnk E td p l

/-- See `dsImg`. -/
def dsKeys (E : Env) (rec : Oid → List ASpec → Except BErr Bld) (td : TypeDef) (p : Oid) : List DS → List String
  | [] => []
  | .untyped _ name _ _ :: l => name :: dsKeys E rec td p l
  | .typed s :: l => Dict.keys (tOwn E rec td p .dset s) ++ dsKeys E rec td p l

/-- The attributes of the datasets without data type have different names. -/
def dsAttrs (E : Env) (td : TypeDef) (p : Oid) : List DS → Prop
  | [] => True
  | .untyped _ _ _ attrs :: l => (Dict.keys (attrImg E td p attrs)).Nodup ∧ dsAttrs E td p l
  | .typed _ :: l => dsAttrs E td p l

/-- The specifications with data type among datasets. -/
def dsTyped : List DS → List TSpec
  | [] => []
  | .untyped _ _ _ _ :: l => dsTyped l
  | .typed s :: l => s :: dsTyped l

theorem uImg_keys (E : Env) (td : TypeDef) (p : Oid) (uid : Nat) (name : String) (attrs : List ASpec) :
    (Dict.keys (uImg E td p uid name attrs)).Sublist [name] := by
  unfold uImg
  split
  · split <;> simp [Dict.keys]
  · simp [Dict.keys]

theorem dsImg_keys (E : Env) (rec : Oid → List ASpec → Except BErr Bld) (td : TypeDef) (p : Oid) : ∀ l : List DS,
    (Dict.keys (dsImg E rec td p l)).Sublist (dsKeys E rec td p l)
  | [] => by simp [dsImg, dsKeys, Dict.keys]
  | .untyped u n _ a :: l => by
    simp only [dsImg, dsKeys, keys_append]
    exact (uImg_keys E td p u n a).append (dsImg_keys E rec td p l)
  | .typed s :: l => by
    simp only [dsImg, dsKeys, keys_append]
    exact (List.Sublist.refl _).append (dsImg_keys E rec td p l)

theorem addDsets_img {E : Env} {rec : Oid → List ASpec → Except BErr Bld} {td : TypeDef} {p : Oid}
    (hF : Fresh E p) (hN : NameOK E rec) : ∀ (l : List DS) (b b' : Bld), addDsets E rec td p l b = .ok b' →
    dsAttrs E td p l → NoClash b (dsKeys E rec td p l) [] (Dict.keys (dsLnk E td p l)) →
    b' = grow b (dsImg E rec td p l) [] (dsLnk E td p l) ∧
      ∀ s ∈ dsTyped l, ∀ x ∈ vals E td p s, Built E rec p .dset s x
  | [], b, b', h, _, _ => by
    simp only [addDsets] at h
    rw [← Except.ok.inj h]
    simp [dsImg, dsLnk, dsTyped]
  | .untyped uid name r attrs :: l, b, b', h, ha, hc => by
    simp only [addDsets] at h
    obtain ⟨b1, hb1, h2⟩ := bind_ok h
    have hc' : NoClash b ([name] ++ dsKeys E rec td p l) ([] ++ []) ([] ++ Dict.keys (dsLnk E td p l)) := hc
    have e1 := addUntyped_img hb1 ha.1 hc'.left
    have hc2 := hc'.right (uImg_keys E td p uid name attrs) (List.Sublist.refl (Dict.keys []))
      (List.Sublist.refl (Dict.keys []))
    rw [← e1] at hc2
    obtain ⟨e2, q⟩ := addDsets_img hF hN l b1 b' h2 ha.2 hc2
    exact ⟨by rw [e2, e1, grow_grow]; rfl, q⟩
  | .typed s :: l, b, b', h, ha, hc => by
    simp only [addDsets] at h
    obtain ⟨b1, hb1, h2⟩ := bind_ok h
    have hc' : NoClash b (Dict.keys (tOwn E rec td p .dset s) ++ dsKeys E rec td p l) ([] ++ [])
        (Dict.keys (tLnk E td p .dset s) ++ Dict.keys (dsLnk E td p l)) := by
      simpa [dsKeys, dsLnk, keys_append] using hc
    obtain ⟨e1, q1⟩ := addTyped_img hF hN hb1 hc'.left
    have e1' : b1 = grow b (tOwn E rec td p .dset s) [] (tLnk E td p .dset s) := e1
    have hc2 := hc'.right (List.Sublist.refl _) (List.Sublist.refl (Dict.keys []))
      (List.Sublist.refl _)
    rw [← e1'] at hc2
    obtain ⟨e2, q2⟩ := addDsets_img hF hN l b1 b' h2 ha hc2
    refine ⟨by rw [e2, e1', grow_grow]; rfl, ?_⟩
    intro t ht
    rcases List.mem_cons.1 ht with rfl | ht
    · exact q1
    · exact q2 t ht

/-- The links the link specifications of a group add. -/
def lLnk (E : Env) (td : TypeDef) (p : Oid) (l : List TSpec) : Dict String Lnk := l.flatMap (tLnk E td p .link)

theorem addLinks_img {E : Env} {rec : Oid → List ASpec → Except BErr Bld} {td : TypeDef} {p : Oid}
    (hF : Fresh E p) (hN : NameOK E rec) : ∀ (l : List TSpec) (b b' : Bld), addLinks E rec td p l b = .ok b' →
    NoClash b [] [] (Dict.keys (lLnk E td p l)) → b' = grow b [] [] (lLnk E td p l)
  | [], b, b', h, _ => by
    simp only [addLinks] at h
    rw [← Except.ok.inj h]
    simp [lLnk]
  | s :: l, b, b', h, hc => by
    simp only [addLinks] at h
    obtain ⟨b1, hb1, h2⟩ := bind_ok h
    have hc' : NoClash b ([] ++ []) ([] ++ []) (Dict.keys (tLnk E td p .link s) ++ Dict.keys (lLnk E td p l)) := by
      simpa [lLnk, keys_append] using hc
    obtain ⟨e1, _⟩ := addTyped_img hF hN hb1 hc'.left
    have e1' : b1 = grow b [] [] (tLnk E td p .link s) := e1
    have hc2 := hc'.right (List.Sublist.refl (Dict.keys [])) (List.Sublist.refl (Dict.keys [])) (List.Sublist.refl _)
    rw [← e1'] at hc2
    rw [addLinks_img hF hN l b1 b' h2 hc2, e1', grow_grow]
    simp [lLnk]

mutual
/-- The members the subgroups of a group add. -/
def gImg (E : Env) (rec : Oid → List ASpec → Except BErr Bld) (td : TypeDef) (p : Oid) : GList → List (String × Bld)
  | .nil => []
  | .typed s l => tOwn E rec td p .group s ++ gImg E rec td p l
  | .untyped g l =>
    (if !isEmpty (inner E rec td p g) || g.required then [(g.name, inner E rec td p g)] else []) ++ gImg E rec td p l
/-- The links the subgroups of a group add. -/
def gLnk (E : Env) (rec : Oid → List ASpec → Except BErr Bld) (td : TypeDef) (p : Oid) : GList → Dict String Lnk
  | .nil => []
  | .typed s l => tLnk E td p .group s ++ gLnk E rec td p l
  | .untyped _ l => gLnk E rec td p l
/-- The builder of a group without data type. -/
def inner (E : Env) (rec : Oid → List ASpec → Except BErr Bld) (td : TypeDef) (p : Oid) : GSpec → Bld
  | .mk _ name _ attrs dsets groups links =>
    ⟨false, name, none, attrImg E td p attrs, dsImg E rec td p dsets, gImg E rec td p groups,
      dsLnk E td p dsets ++ (lLnk E td p links ++ gLnk E rec td p groups)⟩
end

/-- The names the subgroups of a group take up. -/
def gKeys (E : Env) (rec : Oid → List ASpec → Except BErr Bld) (td : TypeDef) (p : Oid) : GList → List String
  | .nil => []
  | .typed s l => Dict.keys (tOwn E rec td p .group s) ++ gKeys E rec td p l
  | .untyped g l => g.name :: gKeys E rec td p l

mutual
/-- No name is taken up twice in any group without data type below. -/
def ImgOKs (E : Env) (rec : Oid → List ASpec → Except BErr Bld) (td : TypeDef) (p : Oid) : GList → Prop
  | .nil => True
  | .typed _ l => ImgOKs E rec td p l
  | .untyped g l => ImgOK E rec td p g ∧ ImgOKs E rec td p l
/-- See `ImgOKs`. -/
def ImgOK (E : Env) (rec : Oid → List ASpec → Except BErr Bld) (td : TypeDef) (p : Oid) : GSpec → Prop
  | .mk _ _ _ attrs dsets groups links =>
    (Dict.keys (attrImg E td p attrs)).Nodup ∧ dsAttrs E td p dsets ∧ (dsKeys E rec td p dsets).Nodup ∧
    (gKeys E rec td p groups).Nodup ∧
    (Dict.keys (dsLnk E td p dsets ++ (lLnk E td p links ++ gLnk E rec td p groups))).Nodup ∧
    ImgOKs E rec td p groups
end

mutual
/-- All specifications with data type below, and their kind. -/
def typedG : GList → List (Kind × TSpec)
  | .nil => []
  | .typed s l => (.group, s) :: typedG l
  | .untyped g l => typedS g ++ typedG l
/-- See `typedG`. -/
def typedS : GSpec → List (Kind × TSpec)
  | .mk _ _ _ _ dsets groups _ => (dsTyped dsets).map (fun s => (Kind.dset, s)) ++ typedG groups
end

theorem NoClash.mono {b : Bld} {ds ds' gs gs' ls ls' : List String} (h : NoClash b ds gs ls) (hd : ds'.Sublist ds)
    (hg : gs'.Sublist gs) (hl : ls'.Sublist ls) : NoClash b ds' gs' ls' :=
  ⟨h.1.sublist (by simpa using hd), h.2.1.sublist (by simpa using hg), h.2.2.sublist (by simpa using hl)⟩

mutual
theorem addGroups_img {E : Env} {rec : Oid → List ASpec → Except BErr Bld} {td : TypeDef} {p : Oid}
    (hF : Fresh E p) (hN : NameOK E rec) : ∀ (l : GList) (b b' : Bld), addGroups E rec td p l b = .ok b' →
    ImgOKs E rec td p l → NoClash b [] (gKeys E rec td p l) (Dict.keys (gLnk E rec td p l)) →
    b' = grow b [] (gImg E rec td p l) (gLnk E rec td p l) ∧
      ∀ k s, (k, s) ∈ typedG l → ∀ x ∈ vals E td p s, Built E rec p k s x
  | .nil, b, b', h, _, _ => by
    simp only [addGroups] at h
    rw [← Except.ok.inj h]
    simp [gImg, gLnk, typedG]
  | .typed s l, b, b', h, ho, hc => by
    simp only [addGroups] at h
    obtain ⟨b1, hb1, h2⟩ := bind_ok h
    have hc' : NoClash b ([] ++ []) (Dict.keys (tOwn E rec td p .group s) ++ gKeys E rec td p l)
        (Dict.keys (tLnk E td p .group s) ++ Dict.keys (gLnk E rec td p l)) := by
      simpa [gKeys, gLnk, keys_append] using hc
    obtain ⟨e1, q1⟩ := addTyped_img hF hN hb1 hc'.left
    have e1' : b1 = grow b [] (tOwn E rec td p .group s) (tLnk E td p .group s) := e1
    have hc2 := hc'.right (List.Sublist.refl (Dict.keys [])) (List.Sublist.refl _) (List.Sublist.refl _)
    rw [← e1'] at hc2
    obtain ⟨e2, q2⟩ := addGroups_img hF hN l b1 b' h2 (by simpa [ImgOKs] using ho) hc2
    refine ⟨by rw [e2, e1', grow_grow]; simp [gImg, gLnk], ?_⟩
    intro k t ht
    simp only [typedG, List.mem_cons, Prod.mk.injEq] at ht
    rcases ht with ⟨rfl, rfl⟩ | ht
    · exact q1
    · exact q2 k t ht
  | .untyped g l, b, b', h, ho, hc => by
    simp only [addGroups] at h
    simp only [ImgOKs] at ho
    obtain ⟨sb, hsb, h2⟩ := bind_ok h
    obtain ⟨b1, hb1, h3⟩ := bind_ok h2
    have hc' : NoClash b ([] ++ []) ([g.name] ++ gKeys E rec td p l) ([] ++ Dict.keys (gLnk E rec td p l)) := by
      simpa [gKeys, gLnk, keys_append] using hc
    have hf : g.name ∉ Dict.keys b.groups := fresh_of_nodup hc'.left.2.1
    have hg : Dict.get? b.groups g.name = none := Dict.get?_eq_none_iff.2 hf
    rw [hg] at hsb
    obtain ⟨e0, q0⟩ := addInner_img hF hN g sb hsb ho.1
    have hname : sb.name = g.name := by rw [e0]; cases g; simp [inner, GSpec.name]
    have e1 : b1 = grow b [] (if !isEmpty (inner E rec td p g) || g.required then
        [(g.name, inner E rec td p g)] else []) [] := by
      unfold placeGroup at hb1
      rw [← e0]
      split at hb1
      · rename_i hp
        rw [if_pos hp]
        rw [hname, Dict.has_false_iff.2 hf] at hb1
        simp only [Bool.false_eq_true, if_false] at hb1
        have := (setGroup_ok hb1).2
        rw [hname, dset_fresh hf] at this
        rw [this]; simp [grow]
      · rename_i hp
        rw [if_neg hp, ← Except.ok.inj hb1]; simp
    have hk : (Dict.keys (if !isEmpty (inner E rec td p g) || g.required then
        [(g.name, inner E rec td p g)] else [])).Sublist [g.name] := by
      split <;> simp [Dict.keys]
    have hc2 := hc'.right (List.Sublist.refl (Dict.keys [])) hk (List.Sublist.refl (Dict.keys []))
    rw [← e1] at hc2
    obtain ⟨e2, q2⟩ := addGroups_img hF hN l b1 b' h3 ho.2 hc2
    refine ⟨by rw [e2, e1, grow_grow]; simp [gImg, gLnk], ?_⟩
    intro k t ht
    simp only [typedG, List.mem_append] at ht
    rcases ht with ht | ht
    · exact q0 k t ht
    · exact q2 k t ht
theorem addInner_img {E : Env} {rec : Oid → List ASpec → Except BErr Bld} {td : TypeDef} {p : Oid}
    (hF : Fresh E p) (hN : NameOK E rec) : ∀ (g : GSpec) (b' : Bld),
    addInner E rec td p g (Bld.empty g.name) = .ok b' → ImgOK E rec td p g →
    b' = inner E rec td p g ∧ ∀ k s, (k, s) ∈ typedS g → ∀ x ∈ vals E td p s, Built E rec p k s x
  | .mk uid name req attrs dsets groups links, b', h, ho => by
    simp only [addInner] at h
    simp only [ImgOK] at ho
    obtain ⟨o1, o2, o3, o4, o5, o6⟩ := ho
    obtain ⟨b1, h1, h⟩ := bind_ok h
    obtain ⟨b2, h2, h⟩ := bind_ok h
    obtain ⟨b3, h3, h⟩ := bind_ok h
    have e1 := addAttrs_img E td p attrs _ b1 h1 (by simpa [Bld.empty, Dict.keys] using o1)
    have c1 : NoClash b1 (dsKeys E rec td p dsets ++ ([] ++ [])) ([] ++ ([] ++ gKeys E rec td p groups))
        (Dict.keys (dsLnk E td p dsets) ++ (Dict.keys (lLnk E td p links) ++ Dict.keys (gLnk E rec td p groups))) := by
      rw [e1]
      refine ⟨by simpa [Bld.empty, Dict.keys] using o3, by simpa [Bld.empty, Dict.keys] using o4, ?_⟩
      simpa [Bld.empty, keys_append, Dict.keys] using o5
    obtain ⟨e2, q2⟩ := addDsets_img hF hN dsets b1 b2 h2 o2 c1.left
    have c2 := c1.right (dsImg_keys E rec td p dsets) (List.Sublist.refl (Dict.keys [])) (List.Sublist.refl _)
    rw [← e2] at c2
    have e3 := addLinks_img hF hN links b2 b3 h3 c2.left
    have c3 := c2.right (List.Sublist.refl (Dict.keys [])) (List.Sublist.refl (Dict.keys [])) (List.Sublist.refl _)
    rw [← e3] at c3
    obtain ⟨e4, q4⟩ := addGroups_img hF hN groups b3 b' h o6 c3
    refine ⟨?_, ?_⟩
    · rw [e4, e3, e2, e1]
      simp [grow, Bld.empty, inner, GSpec.name]
    · intro k t ht
      simp only [typedS, List.mem_append, List.mem_map, Prod.mk.injEq] at ht
      rcases ht with ⟨s, hs, rfl, rfl⟩ | ht
      · exact q2 s hs
      · exact q4 k t ht
end

/-! ### Indexing the members of a group that is being read -/

theorem overlay_eq (own : List (String × Bld)) (links : Dict String Lnk) (data : Bool)
    (h : (Dict.keys own ++ Dict.keys links).Nodup) : overlay own links data =
      own.map (fun p => (p.1, Sub.own p.2)) ++
        (links.filter (fun p => decide (p.2.isData = data))).map (fun p => (p.1, Sub.lnk p.2)) := by
  unfold overlay
  have key : ∀ (l : Dict String Lnk) (d : Dict String Sub), (Dict.keys d ++ Dict.keys l).Nodup →
      l.foldl (fun d p => if p.2.isData = data then Dict.set d p.1 (Sub.lnk p.2) else d) d =
        d ++ (l.filter (fun p => decide (p.2.isData = data))).map (fun p => (p.1, Sub.lnk p.2)) := by
    intro l
    induction l with
    | nil => intro d _; simp
    | cons q l ih =>
      intro d hn
      obtain ⟨n, k⟩ := q
      simp only [List.foldl_cons]
      by_cases hk : k.isData = data
      · simp only [hk, if_true]
        have hf : n ∉ Dict.keys d := fresh_of_nodup (c := Dict.keys l) hn
        rw [dset_fresh hf, ih]
        · simp [hk]
        · simpa [keys_append, Dict.keys] using hn
      · simp only [hk, if_false]
        rw [ih]
        · simp [hk]
        · refine hn.sublist ?_
          simp [Dict.keys]
  rw [key]
  have : Dict.keys (own.map (fun p => (p.1, Sub.own p.2))) = Dict.keys own := by
    simp [Dict.keys, Function.comp_def]
  rw [this]; exact h

/-- `some` of a list that is not empty. -/
def ne? {α : Type} (l : List α) : Option (List α) := if l.isEmpty then none else some l

theorem ne?_append_one {α : Type} (l : List α) (x : α) : some ((ne? l).getD [] ++ [x]) = ne? (l ++ [x]) := by
  cases l <;> simp [ne?]

/-- A sub-builder that is of the given type. -/
def ofType (E : Env) (a : String) (s : Sub) : Option Sub :=
  match s.dt with
  | none => none
  | some t => if a ∈ E.hier t then some s else none

theorem hier_fold (a : String) (s : Sub) : ∀ (l : List String) (d : Dict String (List Sub)), l.Nodup →
    Dict.get? (l.foldl (fun d a => Dict.set d a ((Dict.get? d a).getD [] ++ [s])) d) a =
      if a ∈ l then some ((Dict.get? d a).getD [] ++ [s]) else Dict.get? d a
  | [], d, _ => by simp
  | c :: l, d, hn => by
    rw [List.foldl_cons, hier_fold a s l _ (List.nodup_cons.1 hn).2]
    have hc := (List.nodup_cons.1 hn).1
    by_cases hac : a = c
    · subst hac
      simp [hc]
    · rw [Dict.get?_set_ne hac]
      simp [hac]

theorem builderDt_get {E : Env} (hh : ∀ t, (E.hier t).Nodup) (subs : Dict String Sub) (a : String) :
    Dict.get? (builderDt E subs) a = ne? (subs.filterMap (fun p => ofType E a p.2)) := by
  unfold builderDt
  have key : ∀ (l : Dict String Sub) (d : Dict String (List Sub)) (m : List Sub), Dict.get? d a = ne? m →
      Dict.get? (l.foldl (fun d p => indexSub E d p.2) d) a = ne? (m ++ l.filterMap (fun p => ofType E a p.2)) := by
    intro l
    induction l with
    | nil => intro d m hd; simpa using hd
    | cons q l ih =>
      intro d m hd
      rw [List.foldl_cons]
      cases ht : q.2.dt with
      | none =>
        have ho : ofType E a q.2 = none := by simp [ofType, ht]
        have hi : indexSub E d q.2 = d := by simp [indexSub, ht]
        rw [List.filterMap_cons, ho, hi]
        exact ih d m hd
      | some t =>
        have hi : indexSub E d q.2 =
            (E.hier t).foldl (fun d a => Dict.set d a ((Dict.get? d a).getD [] ++ [q.2])) d := by simp [indexSub, ht]
        rw [hi]
        by_cases hm : a ∈ E.hier t
        · have ho : ofType E a q.2 = some q.2 := by simp [ofType, ht, hm]
          rw [List.filterMap_cons, ho]
          simp only
          have := ih ((E.hier t).foldl (fun d a => Dict.set d a ((Dict.get? d a).getD [] ++ [q.2])) d) (m ++ [q.2]) (by
            rw [hier_fold a q.2 _ d (hh t), if_pos hm, hd, ne?_append_one])
          simpa using this
        · have ho : ofType E a q.2 = none := by simp [ofType, ht, hm]
          rw [List.filterMap_cons, ho]
          simp only
          exact ih _ m (by rw [hier_fold a q.2 _ d (hh t), if_neg hm, hd])
  simpa using key subs [] [] (by simp [ne?])

theorem linkDt_get (links : Dict String Lnk) (a : String) : Dict.get? (linkDt links) a =
    ne? (links.filterMap (fun p => if p.2.dt = a then some (Sub.lnk p.2) else none)) := by
  unfold linkDt
  have key : ∀ (l : Dict String Lnk) (d : Dict String (List Sub)) (m : List Sub), Dict.get? d a = ne? m →
      Dict.get? (l.foldl (fun d p => Dict.set d p.2.dt ((Dict.get? d p.2.dt).getD [] ++ [Sub.lnk p.2])) d) a =
      ne? (m ++ l.filterMap (fun p => if p.2.dt = a then some (Sub.lnk p.2) else none)) := by
    intro l
    induction l with
    | nil => intro d m hd; simpa using hd
    | cons q l ih =>
      intro d m hd
      rw [List.foldl_cons, List.filterMap_cons]
      by_cases ha : q.2.dt = a
      · simp only [ha, if_true]
        have := ih (Dict.set d a ((Dict.get? d a).getD [] ++ [Sub.lnk q.2])) (m ++ [Sub.lnk q.2]) (by
          rw [Dict.get?_set_self, hd, ne?_append_one])
        simpa using this
      · simp only [ha, if_false]
        exact ih _ m (by rw [Dict.get?_set_ne (Ne.symm ha), hd])
  simpa using key links [] [] (by simp [ne?])

theorem filterMap_flatMap_none {α β γ : Type} {L : List α} {f : α → List β} {P : β → Option γ}
    (h : ∀ t ∈ L, (f t).filterMap P = []) : (L.flatMap f).filterMap P = [] := by
  induction L with
  | nil => rfl
  | cons t L ih =>
    rw [List.flatMap_cons, List.filterMap_append, h t (by simp), ih (fun u hu => h u (by simp [hu]))]
    rfl

theorem filterMap_flatMap_single {α β γ : Type} (key : α → Nat) {L : List α} {f : α → List β} {P : β → Option γ}
    {s : α} (hs : s ∈ L) (hn : (L.map key).Nodup) (h : ∀ t ∈ L, key t ≠ key s → (f t).filterMap P = []) :
    (L.flatMap f).filterMap P = (f s).filterMap P := by
  induction L with
  | nil => cases hs
  | cons t L ih =>
    rw [List.flatMap_cons, List.filterMap_append]
    simp only [List.map_cons, List.nodup_cons] at hn
    rcases List.mem_cons.1 hs with rfl | hs
    · rw [filterMap_flatMap_none, List.append_nil]
      intro u hu
      refine h u (by simp [hu]) (fun e => hn.1 ?_)
      rw [← e]; exact List.mem_map_of_mem hu
    · rw [h t (by simp), List.nil_append, ih hs hn.2 (fun u hu => h u (by simp [hu]))]
      intro e
      exact hn.1 (e ▸ List.mem_map_of_mem hs)

end Verif.Mapper

import Verif.Model.H5RoundTrip
import Verif.Props.H5Read
import Verif.Props.H5Write

/-!
# Opening a file that was written: lemmas
-/

namespace Verif.H5RoundTrip

open Verif H5Write

/-! ## Trees -/

mutual
theorem nodes_sub (E : Env) : ∀ (t : Bld) (p : Path), List.Sublist ((nodesAt p t).map Prod.fst) (Dict.keys (entries E p t))
  | .node id name isData attrs data links subs, p => by
    unfold nodesAt entries
    cases isData with
    | true => simp [Dict.keys]
    | false =>
      simp only [Bool.false_eq_true, if_false, List.map_cons, Dict.keys, List.map_append]
      refine List.Sublist.cons_cons _ ?_
      exact (nodesL_sub E subs p).trans (List.sublist_append_left ..)

theorem nodesL_sub (E : Env) : ∀ (l : List Bld) (p : Path),
    List.Sublist ((nodesAtL p l).map Prod.fst) (Dict.keys (entriesL E p l))
  | [], p => by simp [nodesAtL, entriesL, Dict.keys]
  | t :: l, p => by
    unfold nodesAtL entriesL
    simp only [Dict.keys, List.map_append]
    exact List.Sublist.append (nodes_sub E t _) (nodesL_sub E l p)
end

theorem node_unique {E : Env} {root : Bld} (hg : Good E root) {q : Path} {a b : Bld} (ha : (q, a) ∈ nodesAt [] root)
    (hb : (q, b) ∈ nodesAt [] root) : a = b := by
  have hn : (Dict.keys (nodesAt [] root)).Nodup := (nodes_sub E root []).nodup (entries_nodup E root [] hg)
  have h1 := Dict.get?_of_mem (d := nodesAt [] root) hn ha
  rw [Dict.get?_of_mem (d := nodesAt [] root) hn hb] at h1
  exact (Option.some.inj h1).symm

mutual
theorem child_up : ∀ (t : Bld) (p : Path), ∀ x ∈ nodesAt p t, x = (p, t) ∨
    ∃ nd q, (q, nd) ∈ nodesAt p t ∧ nd.isData = false ∧ x.2 ∈ nd.subs ∧ x.1 = x.2.name :: q
  | .node id name isData attrs data links subs, p => by
    intro x hx
    unfold nodesAt at hx ⊢
    rcases List.mem_cons.1 hx with hx | hx
    · exact Or.inl hx
    · cases isData with
      | true => cases hx
      | false =>
        simp only [Bool.false_eq_true, if_false] at hx ⊢
        rcases childL_up subs p x hx with ⟨s, hs, rfl⟩ | ⟨nd, q, h1, h2⟩
        · exact Or.inr ⟨_, p, List.mem_cons_self .., rfl, hs, rfl⟩
        · exact Or.inr ⟨nd, q, List.mem_cons_of_mem _ h1, h2⟩

theorem childL_up : ∀ (l : List Bld) (p : Path), ∀ x ∈ nodesAtL p l, (∃ s ∈ l, x = (s.name :: p, s)) ∨
    ∃ nd q, (q, nd) ∈ nodesAtL p l ∧ nd.isData = false ∧ x.2 ∈ nd.subs ∧ x.1 = x.2.name :: q
  | [], p => by intro x hx; cases hx
  | t :: l, p => by
    intro x hx
    unfold nodesAtL at hx ⊢
    rcases List.mem_append.1 hx with hx | hx
    · rcases child_up t _ x hx with h | ⟨nd, q, h1, h2⟩
      · exact Or.inl ⟨t, List.mem_cons_self .., h⟩
      · exact Or.inr ⟨nd, q, List.mem_append_left _ h1, h2⟩
    · rcases childL_up l p x hx with ⟨s, hs, h⟩ | ⟨nd, q, h1, h2⟩
      · exact Or.inl ⟨s, List.mem_cons_of_mem _ hs, h⟩
      · exact Or.inr ⟨nd, q, List.mem_append_right _ h1, h2⟩
end

theorem nodeL_top : ∀ (l : List Bld) (p : Path), ∀ s ∈ l, (s.name :: p, s) ∈ nodesAtL p l := by
  intro l p
  induction l with
  | nil => intro s hs; cases hs
  | cons t l ih =>
    intro s hs
    unfold nodesAtL
    rcases List.mem_cons.1 hs with rfl | hs
    · refine List.mem_append_left _ ?_
      obtain ⟨id, name, isData, attrs, data, links, subs⟩ := s
      exact List.mem_cons_self ..
    · exact List.mem_append_right _ (ih s hs)

mutual
theorem child_down : ∀ (t : Bld) (p : Path), ∀ x ∈ nodesAt p t, x.2.isData = false → ∀ s ∈ x.2.subs,
    (s.name :: x.1, s) ∈ nodesAt p t
  | .node id name isData attrs data links subs, p => by
    intro x hx hd s hs
    unfold nodesAt at hx ⊢
    rcases List.mem_cons.1 hx with rfl | hx
    · simp only [Bld.isData] at hd
      subst hd
      exact List.mem_cons_of_mem _ (nodeL_top subs p s hs)
    · refine List.mem_cons_of_mem _ ?_
      cases isData with
      | true => cases hx
      | false => exact childL_down subs p x hx hd s hs

theorem childL_down : ∀ (l : List Bld) (p : Path), ∀ x ∈ nodesAtL p l, x.2.isData = false → ∀ s ∈ x.2.subs,
    (s.name :: x.1, s) ∈ nodesAtL p l
  | [], p => by intro x hx; cases hx
  | t :: l, p => by
    intro x hx hd s hs
    unfold nodesAtL at hx ⊢
    rcases List.mem_append.1 hx with hx | hx
    · exact List.mem_append_left _ (child_down t _ x hx hd s hs)
    · exact List.mem_append_right _ (childL_down l p x hx hd s hs)
end

/-! ## What is in the file -/

/-- the file holds the tree -/
structure Wrote (E : Env) (root : Bld) (f : Dict Path Obj) : Prop where
  node : ∀ q nd, (q, nd) ∈ nodesAt [] root → f.get? q = some (finalObj E nd)
  link : ∀ q l, LinkAt (nodesAt [] root) q l → f.get? q = some (linkObj E l)
  only : ∀ q o, f.get? q = some o → (∃ nd, (q, nd) ∈ nodesAt [] root) ∨ ∃ l, LinkAt (nodesAt [] root) q l
  nodup : (Dict.keys f).Nodup

theorem wrote_new {E : Env} {root : Bld} (hd : root.grp) (hg : Good E root) (hid : (ids root).Nodup)
    (hc : Closed E root) : ∃ N, ∀ n, N ≤ n → (writeBuilder E n root newFile).err = none ∧
      Wrote E root (writeBuilder E n root newFile).file := by
  refine ⟨turns ((calls [] root).map (fun c => (c, false))) + 1, fun n hn => ?_⟩
  have h := write_new hd hg hid hc (n := n) (by omega)
  rw [h]
  refine ⟨rfl, fun q nd hm => apply_node hg hm, fun q l hl => apply_link hg hl, ?_, ?_⟩
  · intro q o ho
    have hk := Dict.mem_keys_of_mem (Dict.mem_of_get? ho)
    rw [keys_applyAll] at hk
    obtain ⟨⟨a, b⟩, hm, rfl⟩ := List.mem_map.1 hk
    rcases entries_cases E root [] _ hm with ⟨nd, h1, _⟩ | ⟨l, h1, _⟩
    · exact Or.inl ⟨nd, h1⟩
    · exact Or.inr ⟨l, h1⟩
  · rw [keys_applyAll]
    exact entries_nodup E root [] hg

theorem hardB_iff {k : HKind} : hardB k = true ↔ (∀ p, k ≠ .soft p) ∧ ∀ s p, k ≠ .ext s p := by
  cases k <;> simp [hardB]

theorem final_hard (E : Env) (nd : Bld) : hardB (finalObj E nd).kind = true := by
  rw [hardB_iff]
  unfold finalObj
  split
  · exact kindOf_hard nd.data
  · simp

theorem link_hard {E : Env} {root : Bld} (hg : Good E root) {q : Path} {l : WLink} (hl : LinkAt (nodesAt [] root) q l) :
    hardB (linkObj E l).kind = false := by
  obtain ⟨p, nd, hm, hdd, hl', _⟩ := hl
  have hk := good_links E root [] hg _ hm hdd l hl'
  cases hkl : linkKind E l with
  | none => exact absurd hkl hk
  | some k =>
    rcases linkKind_soft hkl with ⟨p, rfl⟩ | ⟨s, p, rfl⟩ <;> simp [linkObj, hkl, hardB]

theorem open_node {E : Env} {root : Bld} {f : Dict Path Obj} (hw : Wrote E root f) {q : Path} {nd : Bld}
    (hm : (q, nd) ∈ nodesAt [] root) : (openFile f).objs q = some (openNode f q (finalObj E nd)) := by
  simp [openFile, hw.node q nd hm, final_hard]

theorem open_only {E : Env} {root : Bld} {f : Dict Path Obj} (hg : Good E root) (hw : Wrote E root f) {q : Path}
    {N : H5Read.Node} (h : (openFile f).objs q = some N) :
    ∃ nd, (q, nd) ∈ nodesAt [] root ∧ N = openNode f q (finalObj E nd) := by
  cases ho : f.get? q with
  | none => simp [openFile, ho] at h
  | some o =>
    rcases hw.only q o ho with ⟨nd, hm⟩ | ⟨l, hl⟩
    · refine ⟨nd, hm, ?_⟩
      rw [open_node hw hm] at h
      exact (Option.some.inj h).symm
    · have h1 := link_hard (E := E) hg hl
      simp [openFile, hw.link q l hl, h1] at h

theorem there_iff {E : Env} {root : Bld} {f : Dict Path Obj} (hg : Good E root) (hw : Wrote E root f) {q : Path} :
    there f q = true ↔ ∃ nd, (q, nd) ∈ nodesAt [] root := by
  unfold there
  constructor
  · intro h
    cases ho : f.get? q with
    | none => simp [ho] at h
    | some o =>
      rcases hw.only q o ho with h1 | ⟨l, hl⟩
      · exact h1
      · rw [hw.link q l hl] at h
        simp [link_hard hg hl] at h
  · rintro ⟨nd, hm⟩
    simp [hw.node q nd hm, final_hard]

theorem mem_members {f : Dict Path Obj} {p : Path} {k : String} {e : H5Read.Entry} :
    (k, e) ∈ members f p ↔ ∃ o, (k :: p, o) ∈ f ∧ e = openEntry f (k :: p) o.kind := by
  unfold members
  rw [List.mem_filterMap]
  constructor
  · rintro ⟨⟨q, o⟩, hm, h⟩
    cases q with
    | nil => simp [member] at h
    | cons k' q =>
      simp only [member] at h
      split at h
      · rename_i hq
        subst hq
        simp only [Option.some.injEq, Prod.mk.injEq] at h
        obtain ⟨rfl, rfl⟩ := h
        exact ⟨o, hm, rfl⟩
      · cases h
  · rintro ⟨o, hm, rfl⟩
    exact ⟨_, hm, by simp [member]⟩

theorem members_nodup {f : Dict Path Obj} (p : Path) : ∀ (g : Dict Path Obj), (Dict.keys g).Nodup →
    (Dict.keys (g.filterMap (member f p))).Nodup := by
  intro g
  induction g with
  | nil => intro _; simp [Dict.keys]
  | cons x g ih =>
    intro hn
    obtain ⟨q, o⟩ := x
    simp only [Dict.keys, List.map_cons, List.nodup_cons] at hn
    rw [List.filterMap_cons]
    split
    · exact ih hn.2
    · rename_i y hy
      cases q with
      | nil => simp [member] at hy
      | cons k q =>
        simp only [member] at hy
        split at hy
        · rename_i hq
          subst hq
          cases hy
          simp only [Dict.keys, List.map_cons, List.nodup_cons]
          refine ⟨fun hk => ?_, ih hn.2⟩
          obtain ⟨⟨k', e⟩, hm, hkk⟩ := List.mem_map.1 hk
          simp only at hkk
          subst hkk
          obtain ⟨⟨q', o'⟩, hm', h'⟩ := List.mem_filterMap.1 hm
          cases q' with
          | nil => simp [member] at h'
          | cons k2 q2 =>
            simp only [member] at h'
            split at h'
            · rename_i hq2
              subst hq2
              cases h'
              exact hn.1 (List.mem_map.2 ⟨_, hm', rfl⟩)
            · cases h'
        · cases hy

/-! ## The members of a group are those of the tree -/

/-- the goal of a link is in the file that is written, in the file that is exported, or in that of the link -/
def SameFile (E : Env) (l : WLink) : Prop :=
  (E.info l.target).source = some E.fname ∨ (∃ s, E.exportSource = some s ∧ (E.info l.target).source = some s) ∨
    (E.exportSource = none ∧ (E.info l.target).source = E.linkSource l.id)

theorem sameFile_kind {E : Env} {l : WLink} (h : SameFile E l) : linkKind E l = some (.soft (getPath E l.target)) := by
  unfold linkKind
  rw [if_pos]
  unfold writeSource
  rcases h with h | ⟨s, h1, h2⟩ | ⟨h1, h2⟩
  · exact Or.inr h
  · left; rw [h1]; exact h2
  · left; rw [h1]; exact h2

/-- the links of the tree lead to groups and datasets of the tree, within the file -/
def Inside (E : Env) (root : Bld) : Prop :=
  ∀ q l, LinkAt (nodesAt [] root) q l → SameFile E l ∧ ∃ nd, (getPath E l.target, nd) ∈ nodesAt [] root

theorem member_hard {E : Env} {root : Bld} {f : Dict Path Obj} (hg : Good E root) (hw : Wrote E root f) {q : Path}
    {nd : Bld} (hm : (q, nd) ∈ nodesAt [] root) (hd : nd.isData = false) {k : String} {o : Path} :
    (k, H5Read.Entry.hard o) ∈ members f q ↔ o = k :: q ∧ ∃ s ∈ nd.subs, s.name = k := by
  rw [mem_members]
  constructor
  · rintro ⟨ob, hob, he⟩
    have ho := Dict.get?_of_mem hw.nodup hob
    rcases hw.only _ _ ho with ⟨nd', hm'⟩ | ⟨l, hl⟩
    · rw [hw.node _ _ hm'] at ho
      cases ho
      have hh := final_hard E nd'
      have : openEntry f (k :: q) (finalObj E nd').kind = .hard (k :: q) := by
        cases hk : (finalObj E nd').kind <;> simp_all [openEntry, hardB]
      rw [this] at he
      cases he
      refine ⟨rfl, ?_⟩
      rcases child_up root [] _ hm' with h | ⟨nd2, q2, h1, h2, h3, h4⟩
      · cases h
      · simp only [List.cons.injEq] at h4
        obtain ⟨h4, rfl⟩ := h4
        obtain rfl := node_unique hg hm h1
        exact ⟨nd', h3, h4.symm⟩
    · rw [hw.link _ _ hl] at ho
      cases ho
      have hh := link_hard hg hl
      exfalso
      cases hk : (linkObj E l).kind <;> simp_all [openEntry, hardB]
  · rintro ⟨rfl, s, hs, rfl⟩
    have h1 := child_down root [] _ hm hd s hs
    refine ⟨_, Dict.mem_of_get? (hw.node _ _ h1), ?_⟩
    have hh := final_hard E s
    cases hk : (finalObj E s).kind <;> simp_all [openEntry, hardB]

theorem member_link {E : Env} {root : Bld} {f : Dict Path Obj} (hg : Good E root) (hw : Wrote E root f)
    (hi : Inside E root) {q : Path}
    {nd : Bld} (hm : (q, nd) ∈ nodesAt [] root) (hd : nd.isData = false) {k b : String} {t : Option Path} :
    (k, H5Read.Entry.link b t) ∈ members f q ↔ ∃ l ∈ nd.links, l.name = k ∧ b = (getPath E l.target).headD "" ∧
      t = some (getPath E l.target) := by
  have hlink : ∀ l, LinkAt (nodesAt [] root) (k :: q) l →
      openEntry f (k :: q) (linkObj E l).kind = .link ((getPath E l.target).headD "") (some (getPath E l.target)) := by
    intro l hl
    obtain ⟨h1, h2⟩ := hi _ _ hl
    simp [linkObj, sameFile_kind h1, openEntry, (there_iff hg hw).2 h2]
  rw [mem_members]
  constructor
  · rintro ⟨ob, hob, he⟩
    have ho := Dict.get?_of_mem hw.nodup hob
    rcases hw.only _ _ ho with ⟨nd', hm'⟩ | ⟨l, hl⟩
    · rw [hw.node _ _ hm'] at ho
      cases ho
      have hh := final_hard E nd'
      exfalso
      cases hk : (finalObj E nd').kind <;> simp_all [openEntry, hardB]
    · rw [hw.link _ _ hl] at ho
      cases ho
      rw [hlink l hl] at he
      cases he
      obtain ⟨p, nd', h1, h2, h3, h4⟩ := hl
      cases h4
      obtain rfl := node_unique hg hm h1
      exact ⟨l, h3, rfl, rfl, rfl⟩
  · rintro ⟨l, hl, rfl, rfl, rfl⟩
    have h1 : LinkAt (nodesAt [] root) (l.name :: q) l := ⟨q, nd, hm, hd, hl, rfl⟩
    exact ⟨_, Dict.mem_of_get? (hw.link _ _ h1), (hlink l h1).symm⟩

/-! ## The attributes -/

theorem mem_final_data {E : Env} {nd : Bld} {k d : String} :
    (k, HVal.data d) ∈ (finalObj E nd).attrs ↔ (k, WAttr.data d) ∈ nd.attrs := by
  simp only [finalObj, List.mem_append, dataAttrs, refAttrs, List.mem_filterMap]
  constructor
  · rintro (⟨⟨k', v⟩, hm, hv⟩ | ⟨⟨k', v⟩, hm, hv⟩)
    · cases v with
      | data d' => simp at hv; obtain ⟨rfl, rfl⟩ := hv; exact hm
      | ref t => simp at hv
    · cases v <;> simp at hv
  · intro h
    exact Or.inl ⟨_, h, rfl⟩

theorem mem_final_ref {E : Env} {nd : Bld} {k : String} {p : Path} :
    (k, HVal.ref p) ∈ (finalObj E nd).attrs ↔ ∃ t, (k, WAttr.ref t) ∈ nd.attrs ∧ p = getPath E t := by
  simp only [finalObj, List.mem_append, dataAttrs, refAttrs, List.mem_filterMap]
  constructor
  · rintro (⟨⟨k', v⟩, hm, hv⟩ | ⟨⟨k', v⟩, hm, hv⟩)
    · cases v <;> simp at hv
    · cases v with
      | data d' => simp at hv
      | ref t => simp at hv; obtain ⟨rfl, rfl⟩ := hv; exact ⟨t, hm, rfl⟩
  · rintro ⟨t, h, rfl⟩
    exact Or.inr ⟨_, h, rfl⟩

theorem final_nodup {E : Env} {nd : Bld} (hn : (Dict.keys nd.attrs).Nodup) : (Dict.keys (finalObj E nd).attrs).Nodup := by
  simp only [finalObj]
  generalize nd.attrs = l at hn
  have hd : ∀ l : Dict String WAttr, List.Sublist (Dict.keys (dataAttrs l)) (Dict.keys l) := by
    intro l
    induction l with
    | nil => simp [dataAttrs, Dict.keys]
    | cons x l ih =>
      obtain ⟨k, v⟩ := x
      cases v with
      | data d => exact List.Sublist.cons_cons _ ih
      | ref t => exact List.Sublist.cons _ ih
  have hr : ∀ l : Dict String WAttr, List.Sublist (Dict.keys (refAttrs E l)) (Dict.keys l) := by
    intro l
    induction l with
    | nil => simp [refAttrs, Dict.keys]
    | cons x l ih =>
      obtain ⟨k, v⟩ := x
      cases v with
      | data d => exact List.Sublist.cons _ ih
      | ref t => exact List.Sublist.cons_cons _ ih
  have : Dict.keys (dataAttrs l ++ refAttrs E l) = Dict.keys (dataAttrs l) ++ Dict.keys (refAttrs E l) := by
    simp [Dict.keys]
  rw [this, List.nodup_append]
  refine ⟨(hd l).nodup hn, (hr l).nodup hn, ?_⟩
  rintro a ha b hb rfl
  obtain ⟨⟨k, v⟩, hm, rfl⟩ := List.mem_map.1 ha
  obtain ⟨⟨k', v'⟩, hm', hk⟩ := List.mem_map.1 hb
  simp only at hk
  subst hk
  simp only [dataAttrs, refAttrs, List.mem_filterMap] at hm hm'
  obtain ⟨⟨k1, v1⟩, h1, e1⟩ := hm
  obtain ⟨⟨k2, v2⟩, h2, e2⟩ := hm'
  cases v1 with
  | ref t => simp at e1
  | data d =>
    cases v2 with
    | data d => simp at e2
    | ref t =>
      simp at e1 e2
      obtain ⟨rfl, _⟩ := e1
      obtain ⟨rfl, _⟩ := e2
      have := Dict.get?_of_mem hn h1
      rw [Dict.get?_of_mem hn h2] at this
      cases this

theorem open_keys {f : Dict Path Obj} {q : Path} {o : Obj} : Dict.keys (openNode f q o).attrs = Dict.keys o.attrs := by
  simp [openNode, Dict.keys, Function.comp_def]

theorem mem_open_data {f : Dict Path Obj} {E : Env} {nd : Bld} {q : Path} {k d : String} :
    (k, H5Read.HVal.data d) ∈ (openNode f q (finalObj E nd)).attrs ↔ (k, WAttr.data d) ∈ nd.attrs := by
  rw [← mem_final_data (E := E)]
  simp only [openNode, List.mem_map]
  constructor
  · rintro ⟨⟨k', v⟩, hm, h⟩
    cases v with
    | data d' => simp [openVal] at h; obtain ⟨rfl, rfl⟩ := h; exact hm
    | ref p => simp [openVal] at h
  · intro h
    exact ⟨_, h, rfl⟩

theorem mem_open_ref {f : Dict Path Obj} {E : Env} {nd : Bld} {q p : Path} {k : String} :
    (k, H5Read.HVal.ref p) ∈ (openNode f q (finalObj E nd)).attrs ↔ ∃ t, (k, WAttr.ref t) ∈ nd.attrs ∧ p = getPath E t := by
  rw [← mem_final_ref]
  simp only [openNode, List.mem_map]
  constructor
  · rintro ⟨⟨k', v⟩, hm, h⟩
    cases v with
    | data d' => simp [openVal] at h
    | ref p => simp [openVal] at h; obtain ⟨rfl, rfl⟩ := h; exact hm
  · intro h
    exact ⟨_, h, rfl⟩

theorem open_isData {f : Dict Path Obj} {E : Env} {nd : Bld} {q : Path} :
    (openNode f q (finalObj E nd)).isData = nd.isData := by
  simp only [openNode, finalObj]
  cases hd : nd.isData with
  | true =>
    simp only [if_true]
    cases nd.data <;> simp [kindOf]
  | false => simp

theorem open_members {f : Dict Path Obj} {E : Env} {nd : Bld} {q : Path} (hd : nd.isData = false) :
    (openNode f q (finalObj E nd)).members = members f q := by
  simp [openNode, finalObj, hd]

theorem open_members_data {f : Dict Path Obj} {E : Env} {nd : Bld} {q : Path} (hd : nd.isData = true) :
    (openNode f q (finalObj E nd)).members = [] := by
  have : (finalObj E nd).kind ≠ .group := by
    simp only [finalObj, hd, if_true]
    cases nd.data <;> simp [kindOf]
  simp [openNode, this]

theorem open_data {f : Dict Path Obj} {E : Env} {nd : Bld} {q : Path} (hd : nd.isData = true) :
    (openNode f q (finalObj E nd)).data = (match nd.data with
      | .data d => .data d
      | .refs l => .refs (l.map (getPath E))
      | .sref t => .sref (getPath E t)) := by
  simp only [openNode, finalObj, hd, if_true]
  cases nd.data <;> rfl

theorem kindOf_eq {E : Env} {d : WData} : kindOf E d = (match d with
      | .data d => .data d
      | .refs l => .refs (l.map (getPath E))
      | .sref t => .sref (getPath E t)) := by
  cases d <;> rfl

/-! ## The file can be read -/

theorem open_canon {E : Env} {root : Bld} {f : Dict Path Obj} (hg : Good E root) (hw : Wrote E root f)
    (hi : Inside E root) : H5Read.Canon (openFile f) := by
  constructor
  · intro o N k p np ho hm hp
    obtain ⟨nd, h1, rfl⟩ := open_only hg hw ho
    obtain ⟨nd', h2, rfl⟩ := open_only hg hw hp
    cases hd : nd.isData with
    | true => rw [open_members_data hd] at hm; cases hm
    | false =>
      rw [open_members hd, member_hard hg hw h1 hd] at hm
      obtain ⟨rfl, _⟩ := hm
      rfl
  · intro o N k b p np ho hm hp
    obtain ⟨nd, h1, rfl⟩ := open_only hg hw ho
    obtain ⟨nd', h2, rfl⟩ := open_only hg hw hp
    cases hd : nd.isData with
    | true => rw [open_members_data hd] at hm; cases hm
    | false =>
      rw [open_members hd, member_link hg hw hi h1 hd] at hm
      obtain ⟨l, _, _, rfl, h3⟩ := hm
      cases h3
      rfl

theorem open_below {E : Env} {root : Bld} {f : Dict Path Obj} (hg : Good E root) (hw : Wrote E root f) :
    ∀ (q : Path) (nd : Bld), (q, nd) ∈ nodesAt [] root → q = [] ∨ H5Read.Below (openFile f) [] q := by
  intro q
  induction q with
  | nil => intro nd _; exact Or.inl rfl
  | cons k q ih =>
    intro nd hm
    right
    rcases child_up root [] _ hm with h | ⟨nd', q', h1, h2, h3, h4⟩
    · cases h
    · simp only [List.cons.injEq] at h4
      obtain ⟨h4, rfl⟩ := h4
      refine H5Read.below_step (ih nd' h1) ⟨_, open_node hw h1, Or.inr (Or.inr ⟨?_, rfl, k, Or.inl ?_⟩)⟩
      · rw [open_isData]; exact h2
      · rw [open_members h2]
        exact (member_hard hg hw h1 h2).2 ⟨rfl, nd, h3, h4.symm⟩

end Verif.H5RoundTrip

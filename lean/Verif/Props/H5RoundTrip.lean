import Verif.Lemmas.H5RoundTrip

/-!
# Writing a file and reading it: properties
-/

namespace Verif.H5RoundTrip

open Verif H5Write

/-! ## Lemmas on what was read -/

/-- the builder of an object, with its name -/
theorem read_named {F : H5Read.File} (hF : H5Read.Canon F) {n : Nat} {root : Path} {r : Nat × H5Read.St}
    (h : H5Read.readBuilder F n root = .ok r) {o : Path} (ho : o = root ∨ H5Read.Below F root o) {N : H5Read.Node}
    (hN : F.objs o = some N) :
    ∃ b, H5Read.builderAt root r o = some b ∧ H5Read.Img F r.2 (if o = root then "root" else N.name) o b := by
  obtain ⟨_, hi, nd, b, h1, h2, h3⟩ := H5Read.readObj_recH hF n root (some "root") ⟨[], []⟩ r.1 r.2 h
    (H5Read.empty_closed F) (H5Read.empty_inv F)
  rcases ho with rfl | ho
  · exact ⟨b, by simp [H5Read.builderAt, h2], by simpa using h3⟩
  · have hne : o ≠ root := fun e => H5Read.read_root h (e ▸ ho)
    obtain ⟨x, hx⟩ : ∃ x, r.2.built.get? o = some x := by
      have := (H5Read.read_below h).1 ho
      cases hg : r.2.built.get? o with
      | none => exact absurd this (Dict.get?_eq_none_iff.1 hg)
      | some x => exact ⟨x, rfl⟩
    obtain ⟨nd', b', h4, h5, h6⟩ := hi o x hx
    rw [hN] at h4; cases h4
    exact ⟨b', by simp [H5Read.builderAt, hne, H5Read.getBuilder_iff.2 hx, h5], by simpa [hne] using h6⟩

theorem mkGroup_name {nm : String} {a : Dict String H5Read.BAttr} {p : H5Read.Parts} {b : H5Read.BNode}
    (h : H5Read.mkGroup nm a p = .ok b) : b.name = nm ∧ ∃ g d l, b = .group nm a g d l := by
  simp only [H5Read.mkGroup] at h
  split at h
  · cases h; exact ⟨rfl, _, _, _, rfl⟩
  · cases h

/-- no group has two links whose goals have the same name -/
def Goals (E : Env) (root : Bld) : Prop :=
  ∀ q nd, (q, nd) ∈ nodesAt [] root → nd.isData = false → ∀ l ∈ nd.links, ∀ l' ∈ nd.links,
    (getPath E l.target).headD "" = (getPath E l'.target).headD "" → l.name = l'.name

/-- the name of a builder that was read -/
def nameAt (q : Path) : String := match q with
  | [] => "root"
  | k :: _ => k

/-! ## C135 -/

/-- What was read shows a builder of the tree that was written: it is of the same kind and has its name, its data, its
attributes, its groups, its datasets and its links, and no others.  `x` is the builder of the object at a path. -/
structure Same (E : Env) (r : Nat × H5Read.St) (q : Path) (nd : Bld) (b : H5Read.BNode) : Prop where
  name : b.name = nameAt q
  attrData : ∀ k d, b.attrs.get? k = some (.data d) ↔ nd.attrs.get? k = some (.data d)
  attrRef : ∀ k x, b.attrs.get? k = some (.bldr x) ↔
    ∃ t, nd.attrs.get? k = some (.ref t) ∧ H5Read.getBuilder r.2 (getPath E t) = .ok x
  groups : ∀ k x, b.groups.get? k = some x ↔
    nd.isData = false ∧ ∃ s ∈ nd.subs, s.name = k ∧ s.isData = false ∧ H5Read.getBuilder r.2 (k :: q) = .ok x
  dsets : ∀ k x, b.dsets.get? k = some x ↔
    nd.isData = false ∧ ∃ s ∈ nd.subs, s.name = k ∧ s.isData = true ∧ H5Read.getBuilder r.2 (k :: q) = .ok x
  links : ∀ k x, b.links.get? k = some x ↔
    nd.isData = false ∧ ∃ l ∈ nd.links, l.name = k ∧ H5Read.getBuilder r.2 (getPath E l.target) = .ok x
  group : nd.isData = false → ∃ a g d l, b = .group (nameAt q) a g d l
  data : nd.isData = true → ∃ a d, b = .dset (nameAt q) a d ∧
    (∀ s, nd.data = .data s → d = .data s) ∧
    (∀ l, nd.data = .refs l → d = .refs (l.map (getPath E))) ∧
    (∀ t, nd.data = .sref t → ∃ x a' d', d = .ref x ∧ r.2.heap[x]? = some (.dset ((getPath E t).headD "") a' d'))

/-- A tree of builders is written to a new file, and the file is opened and read: every builder of the tree comes back, at
its place, with its data, attributes, members and links; what a reference or link leads to is the builder at that place.

Missing: that it can be read at all, which is `C135_readable_partial`; the failures are below.  Links to other files are left
out. -/
theorem C135_round_trip_partial (E : Env) (root : Bld) (hd : root.grp) (hg : Good E root) (hid : (ids root).Nodup)
    (hc : Closed E root) (hi : Inside E root) (hl : Goals E root)
    (hs : ∀ q nd, (q, nd) ∈ nodesAt [] root → ".specloc" ∉ Dict.keys nd.attrs) : ∃ N, ∀ n, N ≤ n →
    ∀ m r, H5Read.readBuilder (openFile (writeBuilder E n root newFile).file) m [] = .ok r →
    ∀ q nd, (q, nd) ∈ nodesAt [] root → ∃ b, H5Read.builderAt [] r q = some b ∧ Same E r q nd b := by
  obtain ⟨N, hN⟩ := wrote_new hd hg hid hc
  refine ⟨N, fun n hn m r hr q nd hm => ?_⟩
  obtain ⟨_, hw⟩ := hN n hn
  generalize (writeBuilder E n root newFile).file = f at hr hw
  have hF := open_canon hg hw hi
  have ho := open_below hg hw q nd hm
  have hobj := open_node hw hm
  have han : (Dict.keys (openNode f q (finalObj E nd)).attrs).Nodup := by
    rw [open_keys]; exact final_nodup (good_attrs E root [] hg _ hm)
  have hn0 := good_attrs E root [] hg _ hm
  obtain ⟨b, hb, himg⟩ := read_named hF hr ho hobj
  have hnm : (if q = [] then "root" else (openNode f q (finalObj E nd)).name) = nameAt q := by
    cases q <;> simp [nameAt, openNode]
  rw [hnm] at himg
  have hbb : ∀ b', H5Read.builderAt [] r q = some b' → b' = b := fun b' h => by
    rw [hb] at h; exact (Option.some.inj h).symm
  obtain ⟨nd', h1, h2, h3⟩ := himg
  rw [hobj] at h1
  cases h1
  rw [open_isData] at h2 h3
  have hspec : ∀ k, k ∈ Dict.keys nd.attrs → k ≠ ".specloc" := fun k hk h => hs q nd hm (h ▸ hk)
  have hgrp : nd.isData = false → ∃ a g d l, b = .group (nameAt q) a g d l := fun hdd => by
    obtain ⟨_, g, d, l, h⟩ := mkGroup_name (h3 hdd)
    exact ⟨_, g, d, l, h⟩
  have hdat : nd.isData = true → b.groups = [] ∧ b.dsets = [] ∧ b.links = [] := fun hdd => by
    obtain ⟨d, h, _⟩ := h2 hdd
    rw [h]
    exact ⟨rfl, rfl, rfl⟩
  have hmn : nd.isData = false → (Dict.keys (openNode f q (finalObj E nd)).members).Nodup := fun hdd => by
    rw [open_members hdd]
    exact members_nodup q f hw.nodup
  refine ⟨b, hb, ⟨?_, ?_, ?_, ?_, ?_, ?_, hgrp, ?_⟩⟩
  · cases hdd : nd.isData with
    | true => obtain ⟨d, h, _⟩ := h2 hdd; rw [h]; rfl
    | false => exact (mkGroup_name (h3 hdd)).1
  · intro k d
    obtain ⟨b', hb', h4, _⟩ := H5Read.C127_attributes _ hF m [] r hr q ho _ hobj han k
    obtain rfl := hbb b' hb'
    rw [h4 d, mem_open_data]
    constructor
    · rintro ⟨_, h⟩; exact Dict.get?_of_mem hn0 h
    · intro h
      have h := Dict.mem_of_get? h
      exact ⟨hspec k (Dict.mem_keys_of_mem h), h⟩
  · intro k x
    obtain ⟨b', hb', _, h4⟩ := H5Read.C127_attributes _ hF m [] r hr q ho _ hobj han k
    obtain rfl := hbb b' hb'
    rw [h4 x]
    constructor
    · rintro ⟨_, p, hp, hx⟩
      obtain ⟨t, ht, rfl⟩ := mem_open_ref.1 hp
      exact ⟨t, Dict.get?_of_mem hn0 ht, hx⟩
    · rintro ⟨t, ht, hx⟩
      have ht := Dict.mem_of_get? ht
      exact ⟨hspec k (Dict.mem_keys_of_mem ht), _, mem_open_ref.2 ⟨t, ht, rfl⟩, hx⟩
  · intro k x
    cases hdd : nd.isData with
    | true => rw [(hdat hdd).1]; simp
    | false =>
      obtain ⟨b', hb', h4⟩ := H5Read.C127_groups _ hF m [] r hr q ho _ hobj (by rw [open_isData]; exact hdd) (hmn hdd) k x
      obtain rfl := hbb b' hb'
      rw [h4, open_members hdd]
      constructor
      · rintro ⟨p, hp, _, hnp, hx⟩
        obtain ⟨rfl, s, hs', rfl⟩ := (member_hard hg hw hm hdd).1 hp
        have h5 := open_node hw (child_down root [] _ hm hdd s hs')
        refine ⟨rfl, s, hs', rfl, ?_, hx⟩
        have := hnp _ h5
        rwa [open_isData] at this
      · rintro ⟨_, s, hs', rfl, hsd, hx⟩
        refine ⟨_, (member_hard hg hw hm hdd).2 ⟨rfl, s, hs', rfl⟩, rfl, ?_, hx⟩
        intro np hnp
        rw [open_node hw (child_down root [] _ hm hdd s hs')] at hnp
        cases hnp
        rwa [open_isData]
  · intro k x
    cases hdd : nd.isData with
    | true => rw [(hdat hdd).2.1]; simp
    | false =>
      obtain ⟨b', hb', h4⟩ := H5Read.C127_datasets _ hF m [] r hr q ho _ hobj (by rw [open_isData]; exact hdd) (hmn hdd) k x
      obtain rfl := hbb b' hb'
      rw [h4, open_members hdd]
      constructor
      · rintro ⟨p, np, hp, _, hnp, hnd, hx⟩
        obtain ⟨rfl, s, hs', rfl⟩ := (member_hard hg hw hm hdd).1 hp
        rw [open_node hw (child_down root [] _ hm hdd s hs')] at hnp
        cases hnp
        rw [open_isData] at hnd
        exact ⟨rfl, s, hs', rfl, hnd, hx⟩
      · rintro ⟨_, s, hs', rfl, hsd, hx⟩
        exact ⟨_, _, (member_hard hg hw hm hdd).2 ⟨rfl, s, hs', rfl⟩, rfl, open_node hw (child_down root [] _ hm hdd s hs'),
          by rw [open_isData]; exact hsd, hx⟩
  · intro k x
    cases hdd : nd.isData with
    | true => rw [(hdat hdd).2.2]; simp
    | false =>
      have hln : H5Read.LinkNames (openFile f) (openNode f q (finalObj E nd)).members := by
        intro k k' base o o' h4 h5 _ _
        rw [open_members hdd] at h4 h5
        obtain ⟨l, hl1, rfl, hb1, _⟩ := (member_link hg hw hi hm hdd).1 h4
        obtain ⟨l', hl2, rfl, hb2, _⟩ := (member_link hg hw hi hm hdd).1 h5
        exact hl q nd hm hdd l hl1 l' hl2 (hb1.symm.trans hb2)
      obtain ⟨b', hb', h4⟩ := H5Read.C127_links_partial _ hF m [] r hr q ho _ hobj (by rw [open_isData]; exact hdd)
        (hmn hdd) hln k x
      obtain rfl := hbb b' hb'
      rw [h4, open_members hdd]
      constructor
      · rintro ⟨base, p, hp, _, hx⟩
        obtain ⟨l, hl1, rfl, _, ht⟩ := (member_link hg hw hi hm hdd).1 hp
        cases ht
        exact ⟨rfl, l, hl1, rfl, hx⟩
      · rintro ⟨_, l, hl1, rfl, hx⟩
        exact ⟨_, _, (member_link hg hw hi hm hdd).2 ⟨l, hl1, rfl, rfl, rfl⟩, rfl, hx⟩
  · intro hdd
    obtain ⟨d, h4, h5⟩ := h2 hdd
    rw [open_data hdd] at h5
    refine ⟨_, d, h4, ?_, ?_, ?_⟩
    · intro s h6; rw [h6] at h5; exact h5
    · intro l h6; rw [h6] at h5; exact h5
    · intro t h6
      rw [h6] at h5
      obtain ⟨a, np, e, h7, h8, h9⟩ := h5
      obtain ⟨nd2, _, rfl⟩ := open_only hg hw h7
      exact ⟨a, _, e, h8, h9⟩

/-- what reading an object makes it read next, in terms of the tree: what its attributes refer to, what it refers to as a
scalar dataset, what it holds and what its links lead to -/
def Wants (E : Env) (root : Bld) (p q : Path) : Prop :=
  ∃ nd, (p, nd) ∈ nodesAt [] root ∧
    ((∃ k t, (k, WAttr.ref t) ∈ nd.attrs ∧ q = getPath E t) ∨
     (nd.isData = true ∧ ∃ t, nd.data = .sref t ∧ q = getPath E t) ∨
     (nd.isData = false ∧ ((∃ s ∈ nd.subs, q = s.name :: p) ∨ ∃ l ∈ nd.links, q = getPath E l.target)))

theorem needs_wants {E : Env} {root : Bld} {f : Dict Path Obj} (hg : Good E root) (hw : Wrote E root f)
    (hi : Inside E root) {p q : Path} (h : H5Read.Needs (openFile f) p q) : Wants E root p q := by
  obtain ⟨N, hN, h⟩ := h
  obtain ⟨nd, hm, rfl⟩ := open_only hg hw hN
  refine ⟨nd, hm, ?_⟩
  rcases h with ⟨k, hk, _⟩ | ⟨h1, h2⟩ | ⟨h1, _, k, h2 | ⟨b, h2⟩⟩
  · obtain ⟨t, ht, rfl⟩ := mem_open_ref.1 hk
    exact Or.inl ⟨k, t, ht, rfl⟩
  · rw [open_isData] at h1
    rw [open_data h1] at h2
    refine Or.inr (Or.inl ⟨h1, ?_⟩)
    cases hd : nd.data with
    | data d => rw [hd] at h2; cases h2
    | refs l => rw [hd] at h2; cases h2
    | sref t => rw [hd] at h2; cases h2; exact ⟨t, rfl, rfl⟩
  · rw [open_isData] at h1
    rw [open_members h1] at h2
    obtain ⟨rfl, s, hs, rfl⟩ := (member_hard hg hw hm h1).1 h2
    exact Or.inr (Or.inr ⟨h1, Or.inl ⟨s, hs, rfl⟩⟩)
  · rw [open_isData] at h1
    rw [open_members h1] at h2
    obtain ⟨l, hl, rfl, _, ht⟩ := (member_link hg hw hi hm h1).1 h2
    cases ht
    exact Or.inr (Or.inr ⟨h1, Or.inr ⟨l, hl, rfl⟩⟩)

/-- A tree of builders that is written to a new file can be read again, if it has no endless chain of members, links and
references, no group has an attribute and a member of one name, and no scalar dataset refers to a group.

Missing: that every tree that can be written can be read; see the failures below. -/
theorem C135_readable_partial (E : Env) (root : Bld) (hd : root.grp) (hg : Good E root) (hid : (ids root).Nodup)
    (hc : Closed E root) (hi : Inside E root)
    (hclash : ∀ q nd, (q, nd) ∈ nodesAt [] root → nd.isData = false → ∀ k ∈ Dict.keys nd.attrs,
      k ∉ nd.subs.map Bld.name ∧ k ∉ nd.links.map WLink.name)
    (hsref : ∀ q nd t, (q, nd) ∈ nodesAt [] root → nd.isData = true → nd.data = .sref t →
      ∀ nd', (getPath E t, nd') ∈ nodesAt [] root → nd'.isData = true)
    (hends : ¬ ∃ g : Nat → Path, g 0 = [] ∧ ∀ i, Wants E root (g i) (g (i + 1))) : ∃ N, ∀ n, N ≤ n →
    (writeBuilder E n root newFile).err = none ∧
    ∃ m r, ∀ m', m ≤ m' → H5Read.readBuilder (openFile (writeBuilder E n root newFile).file) m' [] = .ok r := by
  obtain ⟨N, hN⟩ := wrote_new hd hg hid hc
  refine ⟨N, fun n hn => ?_⟩
  obtain ⟨he, hw⟩ := hN n hn
  refine ⟨he, ?_⟩
  generalize (writeBuilder E n root newFile).file = f at hw
  have hroot : ([], root) ∈ nodesAt [] root := by rw [nodes_cons root hd]; exact List.mem_cons_self ..
  refine H5Read.C125_total_partial _ (open_canon hg hw hi) ⟨?_, ?_, ?_, ?_, ?_⟩ [] (by rw [open_node hw hroot]; simp) ?_
  · intro o p h
    obtain ⟨nd, hm, h⟩ := needs_wants hg hw hi h
    have key : ∃ nd', (p, nd') ∈ nodesAt [] root := by
      rcases h with ⟨k, t, ht, rfl⟩ | ⟨h1, t, ht, rfl⟩ | ⟨h1, ⟨s, hs, rfl⟩ | ⟨l, hl, rfl⟩⟩
      · exact hc t ⟨o, nd, hm, Or.inl ⟨k, ht⟩⟩
      · exact hc t ⟨o, nd, hm, Or.inr ⟨h1, by rw [ht]; simp [WData.targets]⟩⟩
      · exact ⟨s, child_down root [] _ hm h1 s hs⟩
      · exact (hi _ l ⟨o, nd, hm, h1, hl, rfl⟩).2
    obtain ⟨nd', hm'⟩ := key
    rw [open_node hw hm']
    simp
  · intro o N k p ho hk
    obtain ⟨nd, hm, rfl⟩ := open_only hg hw ho
    simp only [openNode, List.mem_map] at hk
    obtain ⟨⟨k', v⟩, _, h⟩ := hk
    cases v <;> simp [openVal] at h
  · intro o N p np ho hdd hp hnp
    obtain ⟨nd, hm, rfl⟩ := open_only hg hw ho
    obtain ⟨nd', hm', rfl⟩ := open_only hg hw hnp
    rw [open_isData] at hdd
    rw [open_data hdd] at hp
    rw [open_isData]
    cases hdt : nd.data with
    | data d => rw [hdt] at hp; cases hp
    | refs l => rw [hdt] at hp; cases hp
    | sref t => rw [hdt] at hp; cases hp; exact hsref o nd t hm hdd hdt nd' hm'
  · intro o N ho
    obtain ⟨nd, hm, rfl⟩ := open_only hg hw ho
    cases hdd : nd.isData with
    | true => rw [open_members_data hdd]; simp [Dict.keys]
    | false => rw [open_members hdd]; exact members_nodup o f hw.nodup
  · intro o N k ho hdd hk hkm
    obtain ⟨nd, hm, rfl⟩ := open_only hg hw ho
    rw [open_isData] at hdd
    rw [open_members hdd] at hkm
    obtain ⟨⟨k', e⟩, he', hke⟩ := List.mem_map.1 hkm
    simp only at hke
    subst hke
    have hka : k' ∈ Dict.keys nd.attrs := by
      rw [open_keys] at hk
      obtain ⟨⟨k2, v⟩, h4, h5⟩ := List.mem_map.1 hk
      simp only at h5
      subst h5
      cases v with
      | data d => exact Dict.mem_keys_of_mem (mem_final_data.1 h4)
      | ref p => obtain ⟨t, ht, _⟩ := mem_final_ref.1 h4; exact Dict.mem_keys_of_mem ht
    obtain ⟨h6, h7⟩ := hclash o nd hm hdd k' hka
    cases e with
    | hard p =>
      obtain ⟨_, s, hs, rfl⟩ := (member_hard hg hw hm hdd).1 he'
      exact h6 (List.mem_map_of_mem hs)
    | link b t =>
      obtain ⟨l, hl, rfl, _⟩ := (member_link hg hw hi hm hdd).1 he'
      exact h7 (List.mem_map_of_mem hl)
  · rintro ⟨g, h0, hstep⟩
    exact hends ⟨g, h0, fun i => needs_wants hg hw hi (hstep i)⟩

/-! ### Examples -/

/-- A root with a group `g` that holds a dataset `d`, a dataset `t` that refers to `g`, a dataset `r` of references, a
dataset `s` that is a reference, and a link `l` to `/g/d`. -/
def rtTree : Bld :=
  .node 0 "root" false [("v", .data "1")] (.data "") [⟨6, "l", 2⟩]
    [.node 1 "g" false [("unit", .data "mV")] (.data "") []
      [.node 2 "d" true [] (.data "[1, 2]") [] []],
     .node 3 "t" true [("up", .ref 1)] (.data "5") [] [],
     .node 4 "r" true [("n", .data "2")] (.refs [1, 2]) [] [],
     .node 5 "s" true [] (.sref 3) [] []]

theorem rtTree_good : Good exEnv rtTree := by
  simp [rtTree, Good, GoodL, Dict.keys, Bld.name, linkKind, writeSource, exEnv, exMeta]

theorem rtTree_closed : Closed exEnv rtTree := closed_of (by decide +kernel)

theorem rtTree_inside : Inside exEnv rtTree := by
  have h : ∀ x ∈ nodesAt [] rtTree, x.2.isData = false → ∀ l ∈ x.2.links,
      (exEnv.info l.target).source = some exEnv.fname ∧ getPath exEnv l.target ∈ (nodesAt [] rtTree).map Prod.fst := by
    decide +kernel
  rintro q l ⟨p, nd, hm, hd, hl, rfl⟩
  obtain ⟨h1, h2⟩ := h _ hm hd l hl
  obtain ⟨⟨a, b⟩, h3, h4⟩ := List.mem_map.1 h2
  exact ⟨Or.inl h1, b, by simp only at h4; rw [← h4]; exact h3⟩

theorem rtTree_goals : Goals exEnv rtTree := by
  have h : ∀ x ∈ nodesAt [] rtTree, x.2.isData = false → ∀ l ∈ x.2.links, ∀ l' ∈ x.2.links,
      (getPath exEnv l.target).headD "" = (getPath exEnv l'.target).headD "" → l.name = l'.name := by decide +kernel
  intro q nd hm
  exact h _ hm

theorem rtTree_spec : ∀ q nd, (q, nd) ∈ nodesAt [] rtTree → ".specloc" ∉ Dict.keys nd.attrs := by
  have h : ∀ x ∈ nodesAt [] rtTree, ".specloc" ∉ Dict.keys x.2.attrs := by decide +kernel
  intro q nd hm
  exact h _ hm

/-- how far an object is from one that needs no other -/
def rtRank : Path → Nat
  | [] => 5
  | ["s"] => 4
  | ["t"] => 3
  | ["g"] => 2
  | _ => 1

/-- what an object wants, as a list -/
def wantsOf (E : Env) (p : Path) (nd : Bld) : List Path :=
  nd.attrs.filterMap (fun q => match q.2 with | .data _ => none | .ref t => some (getPath E t)) ++
    (if nd.isData then (match nd.data with | .sref t => [getPath E t] | _ => [])
     else nd.subs.map (fun s => s.name :: p) ++ nd.links.map (fun l => getPath E l.target))

theorem mem_wantsOf {E : Env} {root : Bld} {p q : Path} (h : Wants E root p q) :
    ∃ nd, (p, nd) ∈ nodesAt [] root ∧ q ∈ wantsOf E p nd := by
  obtain ⟨nd, hm, h⟩ := h
  refine ⟨nd, hm, ?_⟩
  unfold wantsOf
  rcases h with ⟨k, t, ht, rfl⟩ | ⟨h1, t, ht, rfl⟩ | ⟨h1, ⟨s, hs, rfl⟩ | ⟨l, hl, rfl⟩⟩
  · exact List.mem_append_left _ (List.mem_filterMap.2 ⟨_, ht, rfl⟩)
  · exact List.mem_append_right _ (by simp [h1, ht])
  · exact List.mem_append_right _ (by simp [h1]; exact Or.inl ⟨s, hs, rfl⟩)
  · exact List.mem_append_right _ (by simp [h1]; exact Or.inr ⟨l, hl, rfl⟩)

theorem rtTree_ends : ¬ ∃ g : Nat → Path, g 0 = [] ∧ ∀ i, Wants exEnv rtTree (g i) (g (i + 1)) := by
  have h : ∀ x ∈ nodesAt [] rtTree, ∀ q ∈ wantsOf exEnv x.1 x.2, rtRank q < rtRank x.1 := by decide +kernel
  rintro ⟨g, _, hs⟩
  have hlt : ∀ i, rtRank (g (i + 1)) < rtRank (g i) := fun i => by
    obtain ⟨nd, hm, hq⟩ := mem_wantsOf (hs i)
    exact h _ hm _ hq
  have hle : ∀ i, rtRank (g i) + i ≤ rtRank (g 0) := by
    intro i
    induction i with
    | zero => simp
    | succ i ih => have := hlt i; omega
  have := hle (rtRank (g 0) + 1)
  omega

example : ∃ N, ∀ n, N ≤ n → (writeBuilder exEnv n rtTree newFile).err = none ∧
    ∃ m r, ∀ m', m ≤ m' → H5Read.readBuilder (openFile (writeBuilder exEnv n rtTree newFile).file) m' [] = .ok r := by
  refine C135_readable_partial exEnv rtTree rfl rtTree_good (by decide +kernel) rtTree_closed rtTree_inside ?_ ?_ rtTree_ends
  · have h : ∀ x ∈ nodesAt [] rtTree, x.2.isData = false → ∀ k ∈ Dict.keys x.2.attrs,
        k ∉ x.2.subs.map Bld.name ∧ k ∉ x.2.links.map WLink.name := by decide +kernel
    intro q nd hm
    exact h _ hm
  · have h : ∀ x ∈ nodesAt [] rtTree, ∀ y ∈ nodesAt [] rtTree, x.2.isData = true →
        (match x.2.data with | .sref t => decide (getPath exEnv t = y.1) | _ => false) = true → y.2.isData = true := by
      decide +kernel
    intro q nd t hm hd hdt nd' hm'
    exact h _ hm _ hm' hd (by simp [hdt])

example : ∃ N, ∀ n, N ≤ n →
    ∀ m r, H5Read.readBuilder (openFile (writeBuilder exEnv n rtTree newFile).file) m [] = .ok r →
    ∀ q nd, (q, nd) ∈ nodesAt [] rtTree → ∃ b, H5Read.builderAt [] r q = some b ∧ Same exEnv r q nd b :=
  C135_round_trip_partial exEnv rtTree rfl rtTree_good (by decide +kernel) rtTree_closed rtTree_inside rtTree_goals rtTree_spec

/-- a group `g` that holds a dataset `d` which refers to the group, as the index column of a table of its own does -/
def loopTree : Bld :=
  .node 0 "root" false [] (.data "") []
    [.node 1 "g" false [] (.data "") [] [.node 2 "d" true [("table", .ref 1)] (.data "[0]") [] []]]

/-- the file of `loopTree` -/
def loopFile : Dict Path Obj := (writeBuilder exEnv 20 loopTree newFile).file

/-- A tree in which something refers to a group that holds it is written without an error, and the file cannot be read, with
whatever recursion limit. -/
theorem C135_self_reference_fails : (writeBuilder exEnv 20 loopTree newFile).err = none ∧
    ∀ m r, H5Read.readBuilder (openFile loopFile) m [] ≠ .ok r := by
  refine ⟨by decide +kernel, fun m r h => H5Read.C125_success_no_chain _ m [] r h ?_⟩
  have h0 : H5Read.Needs (openFile loopFile) [] ["g"] := ⟨⟨false, "", [], [("g", .hard ["g"])], .data ""⟩, by rfl,
    Or.inr (Or.inr ⟨rfl, rfl, "g", Or.inl (by simp)⟩)⟩
  have h1 : H5Read.Needs (openFile loopFile) ["g"] ["d", "g"] := ⟨⟨false, "g", [], [("d", .hard ["d", "g"])], .data ""⟩,
    by rfl, Or.inr (Or.inr ⟨rfl, rfl, "d", Or.inl (by simp)⟩)⟩
  have h2 : H5Read.Needs (openFile loopFile) ["d", "g"] ["g"] :=
    ⟨⟨true, "d", [("table", .ref ["g"])], [], .data "[0]"⟩, by rfl, Or.inl ⟨"table", by simp, by decide⟩⟩
  refine ⟨fun i => match i with | 0 => [] | i + 1 => if i % 2 = 0 then ["g"] else ["d", "g"], rfl, fun i => ?_⟩
  match i with
  | 0 => exact h0
  | i + 1 =>
    show H5Read.Needs (openFile loopFile) (if i % 2 = 0 then ["g"] else ["d", "g"]) (if (i + 1) % 2 = 0 then ["g"] else ["d", "g"])
    by_cases hi : i % 2 = 0
    · rw [if_pos hi, if_neg (by omega)]; exact h1
    · rw [if_neg hi, if_pos (by omega)]; exact h2

/-- a dataset `s` that is a reference to a group `g` -/
def groupRefTree : Bld :=
  .node 0 "root" false [] (.data "") []
    [.node 1 "g" false [] (.data "") [] [], .node 5 "s" true [] (.sref 1) [] []]

/-- A scalar dataset that refers to a group is written without an error, and the file cannot be read. -/
theorem C135_group_reference_fails : (writeBuilder exEnv 20 groupRefTree newFile).err = none ∧
    H5Read.readBuilder (openFile (writeBuilder exEnv 20 groupRefTree newFile).file) 20 [] = .error .attribute := by
  decide +kernel

/-- a group `g` with a dataset `d`, a group `n` with a dataset `d`, and two links to these -/
def linksTree : Bld :=
  .node 0 "root" false [] (.data "") [⟨6, "x", 2⟩, ⟨7, "y", 11⟩]
    [.node 1 "g" false [] (.data "") [] [.node 2 "d" true [] (.data "1") [] []],
     .node 10 "n" false [] (.data "") [] [.node 11 "d" true [] (.data "2") [] []]]

/-- the places of the builders of `linksTree` -/
def linksEnv : Env :=
  ⟨fun i => if i = 11 then ⟨"d", ["d", "n"], none, some "a.h5"⟩ else exMeta i, fun _ => some "a.h5", "a.h5", none⟩

/-- Of two links in one group to builders of the same name, both are written, and one comes back. -/
theorem C135_link_lost_fails :
    (writeBuilder linksEnv 20 linksTree newFile).file.get? ["x"] = some ⟨.soft ["d", "g"], []⟩ ∧
    (writeBuilder linksEnv 20 linksTree newFile).file.get? ["y"] = some ⟨.soft ["d", "n"], []⟩ ∧
    (match H5Read.readBuilder (openFile (writeBuilder linksEnv 20 linksTree newFile).file) 20 [] with
      | .ok r => (H5Read.builderAt [] r []).map (fun b => Dict.keys b.links)
      | .error _ => none) = some ["y"] := by decide +kernel

end Verif.H5RoundTrip

import Verif.Lemmas.H5WriteTree

/-!
# Lemmas about writing builders to a file: a whole tree to a new file
-/

namespace Verif.H5Write
open Verif

/-- a tree whose top is a group -/
def Bld.grp : Bld → Prop
  | .node _ _ d _ _ _ _ => d = false

/-- the state when all but the references is written -/
def preRefs (E : Env) : Bld → St → St
  | .node _ _ _ attrs _ links subs, st => setAttributes [] attrs (writeLinks E [] links (writeNodes E [] subs st))

theorem write_pre (E : Env) (n : Nat) (root : Bld) (st : St) :
    writeBuilder E n root st = (drain E n (preRefs E root st)).mark root.id := by
  cases root; rfl

/-- the numbers of the builders that are written before the references -/
def innerIds : Bld → List Nat
  | .node _ _ _ _ _ links subs => idsL subs ++ links.map WLink.id

theorem preRefs_new (E : Env) (root : Bld) (hd : root.grp) (hg : Good E root) (hid : (ids root).Nodup) :
    preRefs E root newFile = ⟨entries E [] root, innerIds root, (calls [] root).map (fun c => (c, false)), none⟩ := by
  obtain ⟨id, name, isData, attrs, data, links, subs⟩ := root
  simp only [Bld.grp] at hd
  subst hd
  obtain ⟨hn, hg⟩ := (by simpa [Good] using hg : _ ∧ _)
  obtain ⟨hnames, hk, hgl⟩ := hg
  simp only [ids, Bool.false_eq_true, if_false] at hid
  rw [List.nodup_append, List.nodup_append] at hid
  obtain ⟨⟨hi1, hi2, hi3⟩, hi4⟩ := hid
  rw [List.nodup_append] at hnames
  obtain ⟨hn1, hn2, hn3⟩ := hnames
  have hfile : newFile.file = [([], ⟨.group, []⟩)] := rfl
  have h1 := writeNodes_fresh E subs [] newFile rfl hgl hn1 (by
    intro t _ q hq
    simp only [hfile, Dict.keys, List.map_cons, List.map_nil, List.mem_singleton] at hq
    subst hq
    simp) hi1 (by intro i _; simp [newFile])
  simp only [preRefs]
  rw [h1, writeLinks_fresh E [] links]
  · rw [setAttributes_at attrs _ ⟨.group, []⟩ rfl]
    · simp only [entries, calls, innerIds, Bool.false_eq_true, if_false, newFile, List.nil_append,
        List.cons_append, List.map_append, Dict.set, if_true, putData_fresh attrs [] hn (by simp [Dict.keys])]
    · simp [hfile, Dict.get?]
  · rfl
  · exact hn2
  · exact hk
  · intro x hx h
    simp only [hfile, Dict.keys, List.map_append, List.map_cons, List.map_nil, List.mem_append, List.mem_singleton] at h
    rcases h with h | h
    · cases h
    · obtain ⟨s, hs1, hs2⟩ := entriesL_suffix E subs [] _ h
      exact hn3 s hs1 x.name (List.mem_map_of_mem hx) (suffix_name hs2 List.suffix_rfl)
  · exact hi2
  · intro x hx h
    simp only [newFile, List.nil_append] at h
    exact hi3 _ h _ (List.mem_map_of_mem hx) rfl

theorem kind_obj0 (t : Bld) : (∀ p, (obj0 t).kind ≠ .soft p) ∧ ∀ s p, (obj0 t).kind ≠ .ext s p := by
  unfold obj0
  split
  · cases t.data <;> simp [dset0]
  · simp

theorem linkKind_soft {E : Env} {l : WLink} {k : HKind} (h : linkKind E l = some k) :
    (∃ p, k = .soft p) ∨ ∃ s p, k = .ext s p := by
  simp only [linkKind] at h
  by_cases hc : (E.info l.target).source = writeSource E l ∨ (E.info l.target).source = some E.fname
  · rw [if_pos hc] at h; simp at h; exact Or.inl ⟨_, h.symm⟩
  · rw [if_neg hc] at h
    cases hs : (E.info l.target).source with
    | none => rw [hs] at h; cases h
    | some f => rw [hs] at h; simp at h; exact Or.inr ⟨_, _, h.symm⟩

mutual
theorem good_links (E : Env) : ∀ (t : Bld) (p : Path), Good E t → ∀ x ∈ nodesAt p t, x.2.isData = false →
    ∀ l ∈ x.2.links, linkKind E l ≠ none
  | .node id name isData attrs data links subs, p => by
    intro hg x hx hd l hl
    obtain ⟨_, hg⟩ := (by simpa [Good] using hg : _ ∧ _)
    unfold nodesAt at hx
    rcases List.mem_cons.1 hx with rfl | hx
    · exact (hg hd).2.1 l hl
    · cases isData with
      | true => simp at hx
      | false => exact goodL_links E subs p (hg rfl).2.2 x (by simpa using hx) hd l hl

theorem goodL_links (E : Env) : ∀ (l : List Bld) (p : Path), GoodL E l → ∀ x ∈ nodesAtL p l, x.2.isData = false →
    ∀ k ∈ x.2.links, linkKind E k ≠ none
  | [], p => by intro _ x hx; cases hx
  | t :: l, p => by
    intro hg x hx
    obtain ⟨hg1, hg2⟩ := (by simpa [GoodL] using hg : _ ∧ _)
    rcases List.mem_append.1 hx with hx | hx
    · exact good_links E t _ hg1 x hx
    · exact goodL_links E l p hg2 x hx
end

mutual
theorem good_attrs (E : Env) : ∀ (t : Bld) (p : Path), Good E t → ∀ x ∈ nodesAt p t, (Dict.keys x.2.attrs).Nodup
  | .node id name isData attrs data links subs, p => by
    intro hg x hx
    obtain ⟨hn, hg⟩ := (by simpa [Good] using hg : _ ∧ _)
    unfold nodesAt at hx
    rcases List.mem_cons.1 hx with rfl | hx
    · exact hn
    · cases isData with
      | true => simp at hx
      | false => exact goodL_attrs E subs p (hg rfl).2.2 x (by simpa using hx)

theorem goodL_attrs (E : Env) : ∀ (l : List Bld) (p : Path), GoodL E l → ∀ x ∈ nodesAtL p l, (Dict.keys x.2.attrs).Nodup
  | [], p => by intro _ x hx; cases hx
  | t :: l, p => by
    intro hg x hx
    obtain ⟨hg1, hg2⟩ := (by simpa [GoodL] using hg : _ ∧ _)
    rcases List.mem_append.1 hx with hx | hx
    · exact good_attrs E t _ hg1 x hx
    · exact goodL_attrs E l p hg2 x hx
end

theorem get?_node {E : Env} {root : Bld} (hg : Good E root) {q : Path} {nd : Bld} (h : (q, nd) ∈ nodesAt [] root) :
    (entries E [] root).get? q = some (obj0 nd) :=
  Dict.get?_of_mem (entries_nodup E root [] hg) (nodes_entries E root [] _ h)

theorem get?_link {E : Env} {root : Bld} (hg : Good E root) {q : Path} {l : WLink} (h : LinkAt (nodesAt [] root) q l) :
    (entries E [] root).get? q = some (linkObj E l) :=
  Dict.get?_of_mem (entries_nodup E root [] hg) (links_entries E root [] q l h)

/-- the paths that lead to groups and datasets are those of the tree -/
theorem hard_entries {E : Env} {root : Bld} (hg : Good E root) (q : Path) :
    Hard (entries E [] root) q ↔ ∃ nd, (q, nd) ∈ nodesAt [] root := by
  constructor
  · rintro ⟨o, ho, h1, h2⟩
    rcases entries_cases E root [] _ (Dict.mem_of_get? ho) with ⟨nd, hn, _⟩ | ⟨l, hl, h3⟩
    · exact ⟨nd, hn⟩
    · exfalso
      obtain ⟨p, nd, hm, hd, hl', _⟩ := hl
      have hk := good_links E root [] hg _ hm hd l hl'
      simp only at h3
      cases hk' : linkKind E l with
      | none => exact hk hk'
      | some k =>
        rw [h3] at h1 h2
        simp only [linkObj, hk', Option.getD_some] at h1 h2
        rcases linkKind_soft hk' with ⟨p, rfl⟩ | ⟨s, p, rfl⟩
        · exact h1 p rfl
        · exact h2 s p rfl
  · rintro ⟨nd, hn⟩
    exact ⟨obj0 nd, get?_node hg hn, kind_obj0 nd⟩

/-- a builder of the tree refers to the builder `t` -/
def Refers (root : Bld) (t : Nat) : Prop :=
  ∃ q nd, (q, nd) ∈ nodesAt [] root ∧ ((∃ k, (k, WAttr.ref t) ∈ nd.attrs) ∨ nd.isData = true ∧ t ∈ nd.data.targets)

theorem mem_refCalls {p : Path} {l : Dict String WAttr} {k : String} {t : Nat} (h : (k, WAttr.ref t) ∈ l) :
    Call.attr p k t ∈ refCalls p l := by
  simp only [refCalls, List.mem_filterMap]
  exact ⟨_, h, rfl⟩

theorem refCalls_mem {p : Path} {l : Dict String WAttr} {c : Call} (h : c ∈ refCalls p l) :
    ∃ k t, c = .attr p k t ∧ (k, WAttr.ref t) ∈ l := by
  simp only [refCalls, List.mem_filterMap] at h
  obtain ⟨⟨k, v⟩, hm, hv⟩ := h
  cases v with
  | data s => simp at hv
  | ref t => simp at hv; exact ⟨k, t, hv.symm, hm⟩

/-- the calls look for what is referred to -/
theorem nodeCalls_targets {p : Path} {nd : Bld} {t : Nat} :
    (∃ c ∈ nodeCalls p nd, ∃ d, (d = c ∨ d ∈ c.spawn) ∧ t ∈ d.targets) ↔
      (∃ k, (k, WAttr.ref t) ∈ nd.attrs) ∨ nd.isData = true ∧ t ∈ nd.data.targets := by
  unfold nodeCalls
  constructor
  · rintro ⟨c, hc, d, hd, ht⟩
    have key : ∀ l : Dict String WAttr, c ∈ refCalls p l → ∃ k, (k, WAttr.ref t) ∈ l := by
      intro l hc
      obtain ⟨k, s, rfl, hm⟩ := refCalls_mem hc
      rcases hd with rfl | hd
      · simp only [Call.targets, List.mem_singleton] at ht
        subst ht
        exact ⟨k, hm⟩
      · cases hd
    split at hc
    · rename_i h
      have key2 : c = .fill p nd.data nd.attrs → (∃ k, (k, WAttr.ref t) ∈ nd.attrs) ∨ nd.isData = true ∧ t ∈ nd.data.targets := by
        rintro rfl
        rcases hd with rfl | hd
        · exact Or.inr ⟨h, ht⟩
        · obtain ⟨k, s, rfl, hm⟩ := refCalls_mem hd
          simp only [Call.targets, List.mem_singleton] at ht
          subst ht
          exact Or.inl ⟨k, hm⟩
      cases hdd : nd.data with
      | data s => rw [hdd] at hc; exact Or.inl (key _ hc)
      | refs l => rw [hdd] at hc key2; exact key2 (by simpa [dsetCalls] using hc)
      | sref l => rw [hdd] at hc key2; exact key2 (by simpa [dsetCalls] using hc)
    · exact Or.inl (key _ hc)
  · intro h
    split
    · rename_i hd
      cases hdd : nd.data with
      | data s =>
        rcases h with ⟨k, h⟩ | ⟨_, h⟩
        · exact ⟨_, mem_refCalls h, _, Or.inl rfl, by simp [Call.targets]⟩
        · rw [hdd] at h; simp [WData.targets] at h
      | refs l =>
        rcases h with ⟨k, h⟩ | ⟨_, h⟩
        · exact ⟨_, by simp [dsetCalls]; rfl, .attr p k t, Or.inr (mem_refCalls h), by simp [Call.targets]⟩
        · rw [hdd] at h
          exact ⟨.fill p (.refs l) nd.attrs, by simp [dsetCalls], _, Or.inl rfl, h⟩
      | sref l =>
        rcases h with ⟨k, h⟩ | ⟨_, h⟩
        · exact ⟨_, by simp [dsetCalls]; rfl, .attr p k t, Or.inr (mem_refCalls h), by simp [Call.targets]⟩
        · rw [hdd] at h
          exact ⟨.fill p (.sref l) nd.attrs, by simp [dsetCalls], _, Or.inl rfl, h⟩
    · rename_i hd
      rcases h with ⟨k, h⟩ | ⟨h, _⟩
      · exact ⟨_, mem_refCalls h, _, Or.inl rfl, by simp [Call.targets]⟩
      · exact absurd h hd

theorem calls_targets {root : Bld} {t : Nat} :
    (∃ c ∈ calls [] root, ∃ d, (d = c ∨ d ∈ c.spawn) ∧ t ∈ d.targets) ↔ Refers root t := by
  constructor
  · rintro ⟨c, hc, h⟩
    obtain ⟨⟨q, nd⟩, hx, hc'⟩ := calls_node root [] c hc
    exact ⟨q, nd, hx, nodeCalls_targets.1 ⟨c, hc', h⟩⟩
  · rintro ⟨q, nd, hx, h⟩
    obtain ⟨c, hc, h⟩ := nodeCalls_targets.2 h
    exact ⟨c, node_calls root [] (q, nd) hx c hc, h⟩

/-- everything the tree refers to is in the tree -/
def Closed (E : Env) (root : Bld) : Prop := ∀ t, Refers root t → ∃ nd, (getPath E t, nd) ∈ nodesAt [] root

theorem callOk_of_closed {E : Env} {root : Bld} (hg : Good E root) (hc : Closed E root) {c : Call}
    (h : c ∈ calls [] root) : CallOk E (entries E [] root) c := by
  obtain ⟨⟨q, nd⟩, hx, hcc⟩ := calls_node root [] c h
  refine ⟨(hard_entries hg _).2 ⟨nd, ?_⟩, ?_, ?_⟩
  · rw [nodeCalls_path hcc]; exact hx
  · intro t ht
    exact (hard_entries hg _).2 (hc t (calls_targets.1 ⟨c, h, c, Or.inl rfl, ht⟩))
  · intro d hd t ht
    exact (hard_entries hg _).2 (hc t (calls_targets.1 ⟨c, h, d, Or.inr hd, ht⟩))

/-- what is in the file after a whole tree is written to a new file -/
theorem write_new {E : Env} {root : Bld} (hd : root.grp) (hg : Good E root) (hid : (ids root).Nodup)
    (hc : Closed E root) {n : Nat} (hn : turns ((calls [] root).map (fun c => (c, false))) < n) :
    writeBuilder E n root newFile =
      { file := applyAll E (entries E [] root) (calls [] root ++ (calls [] root).flatMap Call.spawn)
        written := innerIds root ++ [root.id] } := by
  rw [write_pre, preRefs_new E root hd hg hid, drain_ok n _ rfl ?_ hn]
  · simp [St.mark, List.map_map, Function.comp_def]
  · intro c hm
    simp only [List.mem_map] at hm
    obtain ⟨c, hm, rfl⟩ := hm
    exact callOk_of_closed hg hc hm

theorem path_unique {E : Env} {root : Bld} (hg : Good E root) {q : Path} {l : WLink} {nd : Bld}
    (h : LinkAt (nodesAt [] root) q l) (h' : (q, nd) ∈ nodesAt [] root) : False := by
  have h1 := get?_node (E := E) hg h'
  rw [get?_link (E := E) hg h] at h1
  have h1 := Option.some.inj h1
  obtain ⟨p, nd', hm, hd, hl', _⟩ := h
  have hk := good_links E root [] hg _ hm hd l hl'
  cases hk' : linkKind E l with
  | none => exact hk hk'
  | some k =>
    have h2 : (obj0 nd).kind = k := by rw [← h1]; simp [linkObj, hk']
    rcases linkKind_soft hk' with ⟨p, rfl⟩ | ⟨s, p, rfl⟩
    · exact (kind_obj0 nd).1 p h2
    · exact (kind_obj0 nd).2 s p h2

theorem apply_node {E : Env} {root : Bld} (hg : Good E root) {q : Path} {nd : Bld} (h : (q, nd) ∈ nodesAt [] root) :
    (applyAll E (entries E [] root) (calls [] root ++ (calls [] root).flatMap Call.spawn)).get? q =
      some (finalObj E nd) := by
  rw [get?_applyAll, get?_node hg h, List.filter_append, filter_spawn, calls_filter E root [] hg (q, nd) h]
  simp only [Option.map_some, Option.some.injEq]
  exact fold_node (good_attrs E root [] hg _ h)

theorem apply_link {E : Env} {root : Bld} (hg : Good E root) {q : Path} {l : WLink} (h : LinkAt (nodesAt [] root) q l) :
    (applyAll E (entries E [] root) (calls [] root ++ (calls [] root).flatMap Call.spawn)).get? q =
      some (linkObj E l) := by
  have h0 : (calls [] root).filter (fun c => c.path = q) = [] := by
    refine filter_none ?_
    rintro c hc rfl
    obtain ⟨⟨p, nd⟩, hx, hcc⟩ := calls_node root [] c hc
    rw [nodeCalls_path hcc] at h
    exact path_unique hg h hx
  rw [get?_applyAll, get?_link hg h, List.filter_append, filter_spawn, h0]
  rfl

/-! ## Attributes -/

/-- an attribute in the file -/
def showAttr (E : Env) : WAttr → HVal
  | .data d => .data d
  | .ref t => .ref (getPath E t)

theorem get?_filterMap {l : Dict String WAttr} {f : String × WAttr → Option (String × HVal)}
    (hf : ∀ x y, f x = some y → y.1 = x.1) {k : String} :
    (Dict.keys l).Nodup → Dict.get? (l.filterMap f) k = (l.get? k).bind (fun v => (f (k, v)).map Prod.snd) := by
  induction l with
  | nil => intro _; rfl
  | cons x l ih =>
    obtain ⟨k', v⟩ := x
    intro hn
    simp only [Dict.keys, List.map_cons, List.nodup_cons] at hn
    by_cases e : k = k'
    · subst e
      have hnone : Dict.get? l k = none := (Dict.get?_eq_none_iff).2 hn.1
      have ih := ih hn.2
      rw [hnone] at ih
      simp only [List.filterMap_cons, Dict.get?, if_true, Option.bind_some]
      cases hv : f (k, v) with
      | none => simpa [hv] using ih
      | some y =>
        have := hf _ _ hv
        obtain ⟨a, b⟩ := y
        simp only at this
        subst this
        simp [Dict.get?]
    · have ih := ih hn.2
      have e' : ¬ k' = k := fun h => e h.symm
      simp only [List.filterMap_cons, Dict.get?, e', if_false]
      cases hv : f (k', v) with
      | none => simpa [hv] using ih
      | some y =>
        have := hf _ _ hv
        obtain ⟨a, b⟩ := y
        simp only at this
        subst this
        simp only [Dict.get?, e', if_false]
        exact ih

theorem final_attrs {E : Env} {l : Dict String WAttr} (hn : (Dict.keys l).Nodup) (k : String) :
    Dict.get? (dataAttrs l ++ refAttrs E l) k = (l.get? k).map (showAttr E) := by
  have h1 : Dict.get? (dataAttrs l) k = _ := get?_filterMap (fun x y h => by
    obtain ⟨a, v⟩ := x; cases v <;> simp at h; rw [← h]) hn
  have h2 : Dict.get? (refAttrs E l) k = _ := get?_filterMap (fun x y h => by
    obtain ⟨a, v⟩ := x; cases v <;> simp at h; rw [← h]) hn
  rw [Dict.get?_append, h1, h2]
  cases l.get? k with
  | none => simp
  | some v => cases v <;> simp [showAttr]

end Verif.H5Write

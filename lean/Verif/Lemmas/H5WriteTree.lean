import Verif.Lemmas.H5WriteRefs

/-!
# Lemmas about writing builders to a file: what the tree becomes
-/

namespace Verif.H5Write
open Verif

mutual
/-- the groups and datasets of a tree, with their paths -/
def nodesAt (p : Path) : Bld → List (Path × Bld)
  | .node id name isData attrs data links subs =>
    (p, .node id name isData attrs data links subs) :: (if isData then [] else nodesAtL p subs)

/-- the same for a list of trees -/
def nodesAtL (p : Path) : List Bld → List (Path × Bld)
  | [] => []
  | t :: l => nodesAt (t.name :: p) t ++ nodesAtL p l
end

/-- `builder.attributes` -/
def Bld.attrs : Bld → Dict String WAttr
  | .node _ _ _ a _ _ _ => a

/-- is it a dataset? -/
def Bld.isData : Bld → Bool
  | .node _ _ d _ _ _ _ => d

/-- `builder.links` -/
def Bld.links : Bld → List WLink
  | .node _ _ _ _ _ l _ => l

/-- the groups and datasets of a group -/
def Bld.subs : Bld → List Bld
  | .node _ _ _ _ _ _ s => s

/-- the data of a dataset -/
def Bld.data : Bld → WData
  | .node _ _ _ _ d _ _ => d

/-- the number of a builder -/
def Bld.id : Bld → Nat
  | .node i _ _ _ _ _ _ => i

/-- the references among the attributes -/
def refAttrs (E : Env) (l : Dict String WAttr) : Dict String HVal :=
  l.filterMap (fun q => match q.2 with | .data _ => none | .ref t => some (q.1, .ref (getPath E t)))

/-- what becomes of a builder -/
def finalObj (E : Env) (t : Bld) : Obj :=
  ⟨if t.isData then kindOf E t.data else .group, dataAttrs t.attrs ++ refAttrs E t.attrs⟩

/-- what is made of a builder at first -/
def obj0 (t : Bld) : Obj := if t.isData then dset0 t.attrs t.data else ⟨.group, dataAttrs t.attrs⟩

/-- the calls for one builder -/
def nodeCalls (p : Path) (t : Bld) : List Call :=
  if t.isData then dsetCalls p t.attrs t.data else refCalls p t.attrs

mutual
theorem nodesAt_suffix : ∀ (t : Bld) (p : Path), ∀ x ∈ nodesAt p t, p <:+ x.1
  | .node id name isData attrs data links subs, p => by
    intro x hx
    unfold nodesAt at hx
    rcases List.mem_cons.1 hx with rfl | hx
    · exact List.suffix_rfl
    · split at hx
      · cases hx
      · obtain ⟨s, _, h⟩ := nodesAtL_suffix subs p x hx
        exact (List.suffix_cons _ _).trans h

theorem nodesAtL_suffix : ∀ (l : List Bld) (p : Path), ∀ x ∈ nodesAtL p l, ∃ s ∈ l.map Bld.name, (s :: p) <:+ x.1
  | [], p => by intro x hx; cases hx
  | t :: l, p => by
    intro x hx
    rcases List.mem_append.1 hx with hx | hx
    · exact ⟨t.name, by simp, nodesAt_suffix t _ x hx⟩
    · obtain ⟨s, h1, h2⟩ := nodesAtL_suffix l p x hx
      exact ⟨s, by simp at h1 ⊢; exact Or.inr h1, h2⟩
end

theorem links_nodup : ∀ {links : List WLink}, (links.map WLink.name).Nodup → ∀ p : Path,
    (links.map (fun l => l.name :: p)).Nodup := by
  intro links
  induction links with
  | nil => intro _ p; simp
  | cons x l ih =>
    intro h2 p
    simp only [List.map_cons, List.nodup_cons, List.mem_map, List.cons.injEq, and_true] at h2 ⊢
    exact ⟨h2.1, ih h2.2 p⟩

mutual
theorem entries_nodup (E : Env) : ∀ (t : Bld) (p : Path), Good E t → (Dict.keys (entries E p t)).Nodup
  | .node id name isData attrs data links subs, p => by
    intro hg
    obtain ⟨_, hg⟩ := (by simpa [Good] using hg : _ ∧ _)
    unfold entries
    split
    · simp [Dict.keys]
    · rename_i hd
      obtain ⟨hn, _, hgl⟩ := hg (by simpa using hd)
      rw [List.nodup_append] at hn
      have h1 := entriesL_nodup E subs p hgl hn.1
      simp only [Dict.keys, List.map_cons, List.map_append, List.nodup_cons, List.mem_append, not_or, List.nodup_append]
      refine ⟨⟨?_, ?_⟩, h1, ?_, ?_⟩
      · intro h
        obtain ⟨s, _, hs⟩ := entriesL_suffix E subs p p h
        exact not_suffix_cons hs
      · intro h
        simp only [linkEntries, List.map_map, List.mem_map, Function.comp] at h
        obtain ⟨l, _, h⟩ := h
        have := congrArg List.length h
        simp at this
      · simp only [linkEntries, List.map_map, Function.comp_def]
        exact links_nodup hn.2.1 p
      · intro a ha b hb hab
        subst hab
        obtain ⟨s, hs1, hs2⟩ := entriesL_suffix E subs p a ha
        simp only [linkEntries, List.map_map, List.mem_map, Function.comp] at hb
        obtain ⟨l, hl, rfl⟩ := hb
        exact hn.2.2 s hs1 l.name (List.mem_map_of_mem hl) (suffix_name hs2 List.suffix_rfl)

theorem entriesL_nodup (E : Env) : ∀ (l : List Bld) (p : Path), GoodL E l → (l.map Bld.name).Nodup →
    (Dict.keys (entriesL E p l)).Nodup
  | [], p => by intro _ _; simp [entriesL, Dict.keys]
  | t :: l, p => by
    intro hg hn
    obtain ⟨hg1, hg2⟩ := (by simpa [GoodL] using hg : _ ∧ _)
    simp only [List.map_cons, List.nodup_cons] at hn
    have h1 := entries_nodup E t (t.name :: p) hg1
    have h2 := entriesL_nodup E l p hg2 hn.2
    simp only [entriesL, Dict.keys, List.map_append, List.nodup_append]
    refine ⟨h1, h2, ?_⟩
    intro a ha b hb hab
    subst hab
    obtain ⟨s, hs1, hs2⟩ := entriesL_suffix E l p a hb
    have := suffix_name hs2 (entries_suffix E t _ a ha)
    exact hn.1 (this ▸ hs1)
end

mutual
/-- the nodes are among the entries -/
theorem nodes_entries (E : Env) : ∀ (t : Bld) (p : Path), ∀ x ∈ nodesAt p t, (x.1, obj0 x.2) ∈ entries E p t
  | .node id name isData attrs data links subs, p => by
    intro x hx
    unfold nodesAt at hx
    unfold entries
    rcases List.mem_cons.1 hx with rfl | hx
    · cases isData <;> simp [obj0, Bld.isData, Bld.attrs, Bld.data]
    · cases isData with
      | true => simp at hx
      | false =>
        simp only [Bool.false_eq_true, if_false] at hx ⊢
        exact List.mem_cons_of_mem _ (List.mem_append_left _ (nodesL_entries E subs p x hx))

theorem nodesL_entries (E : Env) : ∀ (l : List Bld) (p : Path), ∀ x ∈ nodesAtL p l, (x.1, obj0 x.2) ∈ entriesL E p l
  | [], p => by intro x hx; cases hx
  | t :: l, p => by
    intro x hx
    rcases List.mem_append.1 hx with hx | hx
    · exact List.mem_append_left _ (nodes_entries E t _ x hx)
    · exact List.mem_append_right _ (nodesL_entries E l p x hx)
end

/-- the path `q` is that of a link in the tree -/
def LinkAt (ns : List (Path × Bld)) (q : Path) (l : WLink) : Prop :=
  ∃ p nd, (p, nd) ∈ ns ∧ nd.isData = false ∧ l ∈ nd.links ∧ q = l.name :: p

mutual
/-- every entry is that of a node or a link -/
theorem entries_cases (E : Env) : ∀ (t : Bld) (p : Path), ∀ x ∈ entries E p t,
    (∃ nd, (x.1, nd) ∈ nodesAt p t ∧ x.2 = obj0 nd) ∨ ∃ l, LinkAt (nodesAt p t) x.1 l ∧ x.2 = linkObj E l
  | .node id name isData attrs data links subs, p => by
    intro x hx
    unfold entries at hx
    cases isData with
    | true =>
      simp only [if_true, List.mem_singleton] at hx
      subst hx
      exact Or.inl ⟨_, by simp [nodesAt]; rfl, by simp [obj0, Bld.isData, Bld.attrs, Bld.data]⟩
    | false =>
      simp only [Bool.false_eq_true, if_false] at hx
      rcases List.mem_cons.1 hx with rfl | hx
      · exact Or.inl ⟨.node id name false attrs data links subs, by simp [nodesAt], by simp [obj0, Bld.isData, Bld.attrs]⟩
      · rcases List.mem_append.1 hx with hx | hx
        · rcases entriesL_cases E subs p x hx with ⟨nd, h1, h2⟩ | ⟨l, ⟨p', nd, h1, h2⟩, h3⟩
          · exact Or.inl ⟨nd, by simp [nodesAt, h1], h2⟩
          · exact Or.inr ⟨l, ⟨p', nd, by simp [nodesAt, h1], h2⟩, h3⟩
        · simp only [linkEntries, List.mem_map] at hx
          obtain ⟨l, hl, rfl⟩ := hx
          exact Or.inr ⟨l, ⟨p, .node id name false attrs data links subs, by simp [nodesAt], rfl, hl, rfl⟩, rfl⟩

theorem entriesL_cases (E : Env) : ∀ (l : List Bld) (p : Path), ∀ x ∈ entriesL E p l,
    (∃ nd, (x.1, nd) ∈ nodesAtL p l ∧ x.2 = obj0 nd) ∨ ∃ k, LinkAt (nodesAtL p l) x.1 k ∧ x.2 = linkObj E k
  | [], p => by intro x hx; cases hx
  | t :: l, p => by
    intro x hx
    rcases List.mem_append.1 hx with hx | hx
    · rcases entries_cases E t _ x hx with ⟨nd, h1, h2⟩ | ⟨k, ⟨p', nd, h1, h2⟩, h3⟩
      · exact Or.inl ⟨nd, List.mem_append_left _ h1, h2⟩
      · exact Or.inr ⟨k, ⟨p', nd, List.mem_append_left _ h1, h2⟩, h3⟩
    · rcases entriesL_cases E l p x hx with ⟨nd, h1, h2⟩ | ⟨k, ⟨p', nd, h1, h2⟩, h3⟩
      · exact Or.inl ⟨nd, List.mem_append_right _ h1, h2⟩
      · exact Or.inr ⟨k, ⟨p', nd, List.mem_append_right _ h1, h2⟩, h3⟩
end

mutual
/-- the links are among the entries -/
theorem links_entries (E : Env) : ∀ (t : Bld) (p : Path) (q : Path) (l : WLink), LinkAt (nodesAt p t) q l →
    (q, linkObj E l) ∈ entries E p t
  | .node id name isData attrs data links subs, p, q, l => by
    rintro ⟨p', nd, h1, h2, h3, rfl⟩
    unfold nodesAt at h1
    unfold entries
    rcases List.mem_cons.1 h1 with h1 | h1
    · cases h1
      simp only [Bld.isData] at h2
      subst h2
      simp only [Bool.false_eq_true, if_false]
      refine List.mem_cons_of_mem _ (List.mem_append_right _ ?_)
      exact List.mem_map.2 ⟨l, h3, rfl⟩
    · cases isData with
      | true => simp at h1
      | false =>
        simp only [Bool.false_eq_true, if_false] at h1 ⊢
        exact List.mem_cons_of_mem _ (List.mem_append_left _ (linksL_entries E subs p _ l ⟨p', nd, h1, h2, h3, rfl⟩))

theorem linksL_entries (E : Env) : ∀ (l : List Bld) (p : Path) (q : Path) (k : WLink), LinkAt (nodesAtL p l) q k →
    (q, linkObj E k) ∈ entriesL E p l
  | [], p, q, k => by rintro ⟨p', nd, h1, _⟩; cases h1
  | t :: l, p, q, k => by
    rintro ⟨p', nd, h1, h2⟩
    rcases List.mem_append.1 h1 with h1 | h1
    · exact List.mem_append_left _ (links_entries E t _ q k ⟨p', nd, h1, h2⟩)
    · exact List.mem_append_right _ (linksL_entries E l p q k ⟨p', nd, h1, h2⟩)
end

/-! ## The calls -/

theorem refCalls_path {p : Path} {l : Dict String WAttr} {c : Call} (h : c ∈ refCalls p l) : c.path = p := by
  simp only [refCalls, List.mem_filterMap] at h
  obtain ⟨⟨k, v⟩, _, hv⟩ := h
  cases v with
  | data s => simp at hv
  | ref t => simp at hv; subst hv; rfl

theorem nodeCalls_path {p : Path} {t : Bld} {c : Call} (h : c ∈ nodeCalls p t) : c.path = p := by
  unfold nodeCalls at h
  split at h
  · unfold dsetCalls at h
    split at h
    · exact refCalls_path h
    · simp only [List.mem_singleton] at h; subst h; rfl
  · exact refCalls_path h

mutual
theorem calls_node : ∀ (t : Bld) (p : Path), ∀ c ∈ calls p t, ∃ x ∈ nodesAt p t, c ∈ nodeCalls x.1 x.2
  | .node id name isData attrs data links subs, p => by
    intro c hc
    unfold calls at hc
    cases isData with
    | true => exact ⟨_, by unfold nodesAt; exact List.mem_cons_self .., by simpa [nodeCalls, Bld.isData, Bld.attrs, Bld.data] using hc⟩
    | false =>
      simp only [Bool.false_eq_true, if_false] at hc
      rcases List.mem_append.1 hc with hc | hc
      · obtain ⟨x, hx, h⟩ := callsL_node subs p c hc
        exact ⟨x, by unfold nodesAt; exact List.mem_cons_of_mem _ (by simpa using hx), h⟩
      · exact ⟨_, by unfold nodesAt; exact List.mem_cons_self .., by simpa [nodeCalls, Bld.isData, Bld.attrs, Bld.data] using hc⟩

theorem callsL_node : ∀ (l : List Bld) (p : Path), ∀ c ∈ callsL p l, ∃ x ∈ nodesAtL p l, c ∈ nodeCalls x.1 x.2
  | [], p => by intro c hc; cases hc
  | t :: l, p => by
    intro c hc
    rcases List.mem_append.1 hc with hc | hc
    · obtain ⟨x, hx, h⟩ := calls_node t _ c hc
      exact ⟨x, List.mem_append_left _ hx, h⟩
    · obtain ⟨x, hx, h⟩ := callsL_node l p c hc
      exact ⟨x, List.mem_append_right _ hx, h⟩
end

mutual
theorem node_calls : ∀ (t : Bld) (p : Path), ∀ x ∈ nodesAt p t, ∀ c ∈ nodeCalls x.1 x.2, c ∈ calls p t
  | .node id name isData attrs data links subs, p => by
    intro x hx c hc
    unfold nodesAt at hx
    unfold calls
    rcases List.mem_cons.1 hx with rfl | hx
    · cases isData with
      | true => simpa [nodeCalls, Bld.isData, Bld.attrs, Bld.data] using hc
      | false => exact List.mem_append_right _ (by simpa [nodeCalls, Bld.isData, Bld.attrs, Bld.data] using hc)
    · cases isData with
      | true => simp at hx
      | false =>
        simp only [Bool.false_eq_true, if_false] at hx ⊢
        exact List.mem_append_left _ (nodeL_calls subs p x hx c hc)

theorem nodeL_calls : ∀ (l : List Bld) (p : Path), ∀ x ∈ nodesAtL p l, ∀ c ∈ nodeCalls x.1 x.2, c ∈ callsL p l
  | [], p => by intro x hx; cases hx
  | t :: l, p => by
    intro x hx c hc
    rcases List.mem_append.1 hx with hx | hx
    · exact List.mem_append_left _ (node_calls t _ x hx c hc)
    · exact List.mem_append_right _ (nodeL_calls l p x hx c hc)
end

theorem filter_all {l : List Call} {q : Path} (h : ∀ c ∈ l, c.path = q) : l.filter (fun c => c.path = q) = l := by
  rw [List.filter_eq_self]
  intro c hc
  simp [h c hc]

theorem filter_none {l : List Call} {q : Path} (h : ∀ c ∈ l, c.path ≠ q) : l.filter (fun c => c.path = q) = [] := by
  rw [List.filter_eq_nil_iff]
  intro c hc
  simp [h c hc]

theorem callsL_suffix {l : List Bld} {p : Path} {c : Call} (h : c ∈ callsL p l) :
    ∃ s ∈ l.map Bld.name, (s :: p) <:+ c.path := by
  obtain ⟨x, hx, hc⟩ := callsL_node l p c h
  rw [nodeCalls_path hc]
  exact nodesAtL_suffix l p x hx

mutual
theorem calls_filter (E : Env) : ∀ (t : Bld) (p : Path), Good E t → ∀ x ∈ nodesAt p t,
    (calls p t).filter (fun c => c.path = x.1) = nodeCalls x.1 x.2
  | .node id name isData attrs data links subs, p => by
    intro hg x hx
    obtain ⟨_, hg⟩ := (by simpa [Good] using hg : _ ∧ _)
    unfold nodesAt at hx
    unfold calls
    cases isData with
    | true =>
      simp only [if_true, List.mem_cons, List.not_mem_nil, or_false] at hx ⊢
      subst hx
      have h1 : dsetCalls p attrs data = nodeCalls p (.node id name true attrs data links subs) := by
        simp [nodeCalls, Bld.isData, Bld.attrs, Bld.data]
      rw [h1]
      exact filter_all (fun c hc => nodeCalls_path hc)
    | false =>
      obtain ⟨hn, _, hgl⟩ := hg rfl
      rw [List.nodup_append] at hn
      simp only [Bool.false_eq_true, if_false] at hx ⊢
      rw [List.filter_append]
      rcases List.mem_cons.1 hx with rfl | hx
      · rw [filter_none (l := callsL p subs), filter_all (l := refCalls p attrs)]
        · simp [nodeCalls, Bld.isData, Bld.attrs]
        · exact fun c hc => refCalls_path hc
        · intro c hc h
          obtain ⟨s, _, hs⟩ := callsL_suffix hc
          rw [h] at hs
          exact not_suffix_cons hs
      · rw [filter_none (l := refCalls p attrs), List.append_nil]
        · exact callsL_filter E subs p hgl hn.1 x hx
        · intro c hc h
          rw [refCalls_path hc] at h
          obtain ⟨s, _, hs⟩ := nodesAtL_suffix subs p x hx
          rw [← h] at hs
          exact not_suffix_cons hs

theorem callsL_filter (E : Env) : ∀ (l : List Bld) (p : Path), GoodL E l → (l.map Bld.name).Nodup →
    ∀ x ∈ nodesAtL p l, (callsL p l).filter (fun c => c.path = x.1) = nodeCalls x.1 x.2
  | [], p => by intro _ _ x hx; cases hx
  | t :: l, p => by
    intro hg hn x hx
    obtain ⟨hg1, hg2⟩ := (by simpa [GoodL] using hg : _ ∧ _)
    simp only [List.map_cons, List.nodup_cons] at hn
    unfold callsL
    rw [List.filter_append]
    rcases List.mem_append.1 hx with hx | hx
    · rw [calls_filter E t _ hg1 x hx, filter_none (l := callsL p l), List.append_nil]
      intro c hc h
      obtain ⟨s, hs1, hs2⟩ := callsL_suffix hc
      rw [h] at hs2
      exact hn.1 (suffix_name hs2 (nodesAt_suffix t _ x hx) ▸ hs1)
    · rw [callsL_filter E l p hg2 hn.2 x hx, filter_none (l := calls (t.name :: p) t), List.nil_append]
      intro c hc h
      obtain ⟨y, hy, hyc⟩ := calls_node t _ c hc
      rw [nodeCalls_path hyc] at h
      obtain ⟨s, hs1, hs2⟩ := nodesAtL_suffix l p x hx
      have := nodesAt_suffix t _ y hy
      rw [h] at this
      exact hn.1 (suffix_name hs2 this ▸ hs1)
end

theorem filter_spawn (q : Path) : ∀ l : List Call,
    (l.flatMap Call.spawn).filter (fun c => c.path = q) = (l.filter (fun c => c.path = q)).flatMap Call.spawn := by
  intro l
  induction l with
  | nil => rfl
  | cons c l ih =>
    rw [List.flatMap_cons, List.filter_append, ih]
    by_cases h : c.path = q
    · rw [filter_all (fun d hd => by rw [(spawn_path hd).1, h])]
      simp [h]
    · rw [filter_none (fun d hd => by rw [(spawn_path hd).1]; exact h)]
      simp [h]

/-! ## The end -/

theorem dataAttrs_keys {l : Dict String WAttr} {k : String} (h : k ∈ Dict.keys (dataAttrs l)) : k ∈ Dict.keys l := by
  simp only [Dict.keys, dataAttrs, List.mem_map, List.mem_filterMap] at h
  obtain ⟨⟨k', v'⟩, ⟨⟨k2, v2⟩, hm, hv⟩, rfl⟩ := h
  cases v2 with
  | ref t => simp at hv
  | data d => simp at hv; rw [← hv.1]; exact Dict.mem_keys_of_mem hm

theorem foldRefs {E : Env} {p : Path} {kind : HKind} : ∀ (l : Dict String WAttr) (a : Dict String HVal),
    (Dict.keys l).Nodup → (∀ k t, (k, WAttr.ref t) ∈ l → k ∉ Dict.keys a) →
    (refCalls p l).foldl (fun o c => eff E c o) ⟨kind, a⟩ = ⟨kind, a ++ refAttrs E l⟩ := by
  intro l
  induction l with
  | nil => intro a _ _; simp [refCalls, refAttrs]
  | cons x l ih =>
    obtain ⟨k, v⟩ := x
    intro a hn hk
    simp only [Dict.keys, List.map_cons, List.nodup_cons] at hn
    cases v with
    | data d =>
      have h1 : refCalls p ((k, .data d) :: l) = refCalls p l := by simp [refCalls]
      have h2 : refAttrs E ((k, .data d) :: l) = refAttrs E l := by simp [refAttrs]
      rw [h1, h2]
      exact ih a hn.2 (fun k t hm => hk k t (List.mem_cons_of_mem _ hm))
    | ref t =>
      have h1 : refCalls p ((k, .ref t) :: l) = .attr p k t :: refCalls p l := by simp [refCalls]
      have h2 : refAttrs E ((k, .ref t) :: l) = (k, .ref (getPath E t)) :: refAttrs E l := by simp [refAttrs]
      have h3 : k ∉ Dict.keys a := hk k t (List.mem_cons_self ..)
      rw [h1, h2, List.foldl_cons]
      have h4 : eff E (.attr p k t) ⟨kind, a⟩ = ⟨kind, a ++ [(k, .ref (getPath E t))]⟩ := by
        simp only [eff, Dict.set_of_not_mem h3]
      rw [h4, ih _ hn.2]
      · simp
      · intro k' t' hm
        simp only [Dict.keys, List.map_append, List.map_cons, List.map_nil, List.mem_append, List.mem_singleton, not_or]
        refine ⟨hk k' t' (List.mem_cons_of_mem _ hm), ?_⟩
        rintro rfl
        exact hn.1 (Dict.mem_keys_of_mem hm)

theorem putData_fresh : ∀ (l : Dict String WAttr) (a : Dict String HVal), (Dict.keys l).Nodup →
    (∀ k ∈ Dict.keys l, k ∉ Dict.keys a) → putData l a = a ++ dataAttrs l := by
  intro l
  induction l with
  | nil => intro a _ _; simp [putData, dataAttrs]
  | cons x l ih =>
    obtain ⟨k, v⟩ := x
    intro a hn hk
    simp only [Dict.keys, List.map_cons, List.nodup_cons] at hn
    cases v with
    | data d =>
      rw [putData, Dict.set_of_not_mem (hk k (List.mem_cons_self ..)), ih _ hn.2]
      · simp [dataAttrs]
      · intro k' hk'
        simp only [Dict.keys, List.map_append, List.map_cons, List.map_nil, List.mem_append, List.mem_singleton, not_or]
        refine ⟨hk k' (List.mem_cons_of_mem _ hk'), ?_⟩
        rintro rfl
        exact hn.1 hk'
    | ref t =>
      rw [putData, ih a hn.2 (fun k' hk' => hk k' (List.mem_cons_of_mem _ hk'))]
      simp [dataAttrs]

theorem ref_not_data {l : Dict String WAttr} (hn : (Dict.keys l).Nodup) {k : String} {t : Nat}
    (h : (k, WAttr.ref t) ∈ l) : k ∉ Dict.keys (dataAttrs l) := by
  intro hk
  simp only [Dict.keys, dataAttrs, List.mem_map, List.mem_filterMap] at hk
  obtain ⟨⟨k', v'⟩, ⟨⟨k2, v2⟩, hm, hv⟩, rfl⟩ := hk
  cases v2 with
  | ref t => simp at hv
  | data d =>
    simp at hv
    rw [hv.1] at hm
    have h1 := Dict.get?_of_mem hn h
    rw [Dict.get?_of_mem hn hm] at h1
    cases h1

/-- what the calls for a builder make of it -/
theorem fold_node {E : Env} {p : Path} {t : Bld} (hn : (Dict.keys t.attrs).Nodup) :
    ((nodeCalls p t) ++ (nodeCalls p t).flatMap Call.spawn).foldl (fun o c => eff E c o) (obj0 t) = finalObj E t := by
  have hrefs : ∀ kind, (refCalls p t.attrs).foldl (fun o c => eff E c o) ⟨kind, dataAttrs t.attrs⟩ =
      ⟨kind, dataAttrs t.attrs ++ refAttrs E t.attrs⟩ :=
    fun kind => foldRefs t.attrs (dataAttrs t.attrs) hn (fun k s hm => ref_not_data hn hm)
  have hsp : (refCalls p t.attrs).flatMap Call.spawn = [] := by
    refine spawn_spawn _ (fun d hd => ?_)
    simp only [refCalls, List.mem_filterMap] at hd
    obtain ⟨⟨k, v⟩, _, hv⟩ := hd
    cases v with
    | data s => simp at hv
    | ref t => simp at hv; subst hv; rfl
  unfold nodeCalls obj0 finalObj
  split
  · cases hd : t.data with
    | data d =>
      simp only [dsetCalls, dset0, hsp, List.append_nil, kindOf]
      exact hrefs _
    | refs l =>
      simp only [dsetCalls, dset0, List.flatMap_cons, List.flatMap_nil, List.append_nil, Call.spawn, List.cons_append,
        List.nil_append, List.foldl_cons, eff, putData_fresh t.attrs [] hn (by simp [Dict.keys])]
      exact hrefs _
    | sref l =>
      simp only [dsetCalls, dset0, List.flatMap_cons, List.flatMap_nil, List.append_nil, Call.spawn, List.cons_append,
        List.nil_append, List.foldl_cons, eff, putData_fresh t.attrs [] hn (by simp [Dict.keys])]
      exact hrefs _
  · simp only [hsp, List.append_nil]
    exact hrefs _

end Verif.H5Write

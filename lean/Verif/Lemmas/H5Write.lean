import Verif.Model.H5Write

/-!
# Lemmas about writing builders to a file: a tree of which nothing has been written
-/

namespace Verif.H5Write
open Verif

/-- `builder.name` -/
def Bld.name : Bld → String
  | .node _ n _ _ _ _ _ => n

/-- the attributes that are data -/
def dataAttrs (l : Dict String WAttr) : Dict String HVal :=
  l.filterMap (fun q => match q.2 with | .data d => some (q.1, .data d) | .ref _ => none)

/-- the calls for the attributes that are references -/
def refCalls (p : Path) (l : Dict String WAttr) : List Call :=
  l.filterMap (fun q => match q.2 with | .data _ => none | .ref t => some (.attr p q.1 t))

/-- what is made of a dataset at first -/
def dset0 (attrs : Dict String WAttr) : WData → Obj
  | .data d => ⟨.data d, dataAttrs attrs⟩
  | _ => ⟨.nulls, []⟩

/-- the calls for a dataset -/
def dsetCalls (p : Path) (attrs : Dict String WAttr) : WData → List Call
  | .data _ => refCalls p attrs
  | d => [.fill p d attrs]

/-- what is made of a link -/
def linkObj (E : Env) (l : WLink) : Obj := ⟨(linkKind E l).getD .group, []⟩

/-- what is made of the links -/
def linkEntries (E : Env) (p : Path) (l : List WLink) : Dict Path Obj :=
  l.map (fun l => (l.name :: p, linkObj E l))

mutual
/-- what is made of a tree at first, which is written to the path `p` -/
def entries (E : Env) (p : Path) : Bld → Dict Path Obj
  | .node _ _ isData attrs data links subs =>
    if isData then [(p, dset0 attrs data)]
    else (p, ⟨.group, dataAttrs attrs⟩) :: (entriesL E p subs ++ linkEntries E p links)

/-- what is made of a list of trees at first -/
def entriesL (E : Env) (p : Path) : List Bld → Dict Path Obj
  | [] => []
  | t :: l => entries E (t.name :: p) t ++ entriesL E p l
end

mutual
/-- the calls for a tree -/
def calls (p : Path) : Bld → List Call
  | .node _ _ isData attrs data _ subs =>
    if isData then dsetCalls p attrs data
    else callsL p subs ++ refCalls p attrs

/-- the calls for a list of trees -/
def callsL (p : Path) : List Bld → List Call
  | [] => []
  | t :: l => calls (t.name :: p) t ++ callsL p l
end

mutual
/-- the numbers of the builders in a tree, in the order in which they are written -/
def ids : Bld → List Nat
  | .node id _ isData _ _ links subs =>
    if isData then [id] else idsL subs ++ links.map WLink.id ++ [id]

/-- the numbers of the builders in a list of trees -/
def idsL : List Bld → List Nat
  | [] => []
  | t :: l => ids t ++ idsL l
end

mutual
/-- No group holds two things of one name, attributes have distinct names, and every link knows its file. -/
def Good (E : Env) : Bld → Prop
  | .node _ _ isData attrs _ links subs =>
    (Dict.keys attrs).Nodup ∧ (isData = false →
      (subs.map Bld.name ++ links.map WLink.name).Nodup ∧ (∀ l ∈ links, linkKind E l ≠ none) ∧ GoodL E subs)

/-- the same for all trees of a list -/
def GoodL (E : Env) : List Bld → Prop
  | [] => True
  | t :: l => Good E t ∧ GoodL E l
end

/-! ## Paths -/

theorem suffix_name {p q : Path} {a b : String} (h : (a :: p) <:+ q) (h' : (b :: p) <:+ q) : a = b := by
  have h1 := List.suffix_of_suffix_length_le h h' (by simp)
  have h2 := h1.eq_of_length (by simp)
  exact (List.cons.inj h2).1

mutual
theorem entries_suffix (E : Env) : ∀ (t : Bld) (p : Path), ∀ q ∈ Dict.keys (entries E p t), p <:+ q
  | .node id name isData attrs data links subs, p => by
    intro q hq
    unfold entries at hq
    split at hq
    · simp only [Dict.keys, List.map_cons, List.map_nil, List.mem_singleton] at hq
      rw [hq]; exact List.suffix_rfl
    · simp only [Dict.keys, List.map_cons, List.map_append, List.mem_cons, List.mem_append] at hq
      rcases hq with rfl | hq | hq
      · exact List.suffix_rfl
      · obtain ⟨s, _, hs⟩ := entriesL_suffix E subs p q hq
        exact (List.suffix_cons _ _).trans hs
      · simp only [linkEntries, List.map_map, List.mem_map, Function.comp] at hq
        obtain ⟨l, _, rfl⟩ := hq
        exact List.suffix_cons _ _

theorem entriesL_suffix (E : Env) : ∀ (l : List Bld) (p : Path), ∀ q ∈ Dict.keys (entriesL E p l),
    ∃ s ∈ l.map Bld.name, (s :: p) <:+ q
  | [], p => by intro q hq; simp [entriesL, Dict.keys] at hq
  | t :: l, p => by
    intro q hq
    simp only [entriesL, Dict.keys, List.map_append, List.mem_append] at hq
    rcases hq with hq | hq
    · exact ⟨t.name, by simp, entries_suffix E t _ q hq⟩
    · obtain ⟨s, h1, h2⟩ := entriesL_suffix E l p q hq
      exact ⟨s, by simp at h1 ⊢; exact Or.inr h1, h2⟩
end

theorem not_suffix_cons {p : Path} {a : String} : ¬ (a :: p) <:+ p := by
  intro h
  have := h.length_le
  simp at this
  omega

/-! ## Setting attributes -/

theorem set_mid {α : Type} {A B : Dict Path α} {p : Path} {a b : α} (h : p ∉ Dict.keys A) :
    Dict.set (A ++ (p, a) :: B) p b = A ++ (p, b) :: B := by
  induction A with
  | nil => simp [Dict.set]
  | cons x A ih =>
    obtain ⟨k, v⟩ := x
    simp only [Dict.keys, List.map_cons, List.mem_cons, not_or] at h
    have hk : ¬ k = p := fun e => h.1 e.symm
    have := ih h.2
    simp only [List.cons_append, Dict.set]
    simpa [hk] using this

theorem get?_mid {α : Type} {A B : Dict Path α} {p : Path} {a : α} (h : p ∉ Dict.keys A) :
    Dict.get? (A ++ (p, a) :: B) p = some a := by
  rw [Dict.get?_append, Dict.get?_eq_none_iff.2 h]
  simp [Dict.get?]

theorem setAttributes_fresh {p : Path} {A B : Dict Path Obj} (hp : p ∉ Dict.keys A) (kind : HKind) :
    ∀ (l : Dict String WAttr) (at0 : Dict String HVal) (w : List Nat) (q : List (Call × Bool)),
    (Dict.keys l).Nodup → (∀ k ∈ Dict.keys l, k ∉ Dict.keys at0) →
    setAttributes p l ⟨A ++ (p, ⟨kind, at0⟩) :: B, w, q, none⟩ =
      ⟨A ++ (p, ⟨kind, at0 ++ dataAttrs l⟩) :: B, w, q ++ (refCalls p l).map (fun c => (c, false)), none⟩ := by
  intro l
  induction l with
  | nil => intro at0 w q _ _; simp [setAttributes, dataAttrs, refCalls]
  | cons x l ih =>
    obtain ⟨k, v⟩ := x
    intro at0 w q hn hk
    simp only [Dict.keys, List.map_cons, List.nodup_cons] at hn
    cases v with
    | data d =>
      have h0 : k ∉ Dict.keys at0 := hk k (by simp [Dict.keys])
      have h1 : (⟨A ++ (p, ⟨kind, at0⟩) :: B, w, q, none⟩ : St).setAttr p k (.data d) =
          ⟨A ++ (p, ⟨kind, at0 ++ [(k, .data d)]⟩) :: B, w, q, none⟩ := by
        simp [St.setAttr, St.modify, get?_mid hp, set_mid hp, Dict.set_of_not_mem h0]
      rw [setAttributes, h1, ih _ _ _ hn.2]
      · simp [dataAttrs, refCalls]
      · intro k' hk'
        simp only [Dict.keys, List.map_append, List.map_cons, List.map_nil, List.mem_append, List.mem_singleton, not_or]
        refine ⟨hk k' (List.mem_cons_of_mem _ hk'), ?_⟩
        rintro rfl
        exact hn.1 hk'
    | ref t =>
      have h1 : (⟨A ++ (p, ⟨kind, at0⟩) :: B, w, q, none⟩ : St).enqueue (.attr p k t) =
          ⟨A ++ (p, ⟨kind, at0⟩) :: B, w, q ++ [(.attr p k t, false)], none⟩ := by
        simp [St.enqueue]
      rw [setAttributes, h1, ih _ _ _ hn.2 (fun k' hk' => hk k' (List.mem_cons_of_mem _ hk'))]
      simp [dataAttrs, refCalls]

/-! ## Writing -/

theorem writeLinks_fresh (E : Env) (p : Path) : ∀ (l : List WLink) (st : St), st.err = none →
    (l.map WLink.name).Nodup → (∀ x ∈ l, linkKind E x ≠ none) → (∀ x ∈ l, x.name :: p ∉ Dict.keys st.file) →
    (l.map WLink.id).Nodup → (∀ x ∈ l, x.id ∉ st.written) →
    writeLinks E p l st =
      { st with file := st.file ++ linkEntries E p l, written := st.written ++ l.map WLink.id } := by
  intro l
  induction l with
  | nil => intro st _ _ _ _ _ _; simp [writeLinks, linkEntries]
  | cons x l ih =>
    intro st he hn hk hf hid hw
    simp only [List.map_cons, List.nodup_cons] at hn hid
    cases hx : linkKind E x with
    | none => exact absurd hx (hk x (by simp))
    | some kd =>
      have h1 : writeLink E p x st =
          { st with file := st.file ++ [(x.name :: p, linkObj E x)], written := st.written ++ [x.id] } := by
        have hh : st.file.has (x.name :: p) = false := Dict.has_false_iff.2 (hf x (by simp))
        simp [writeLink, hw x (by simp), hx, St.create, he, hh, St.mark, linkObj,
          Dict.set_of_not_mem (hf x (by simp))]
      rw [writeLinks, h1, ih]
      · simp [linkEntries]
      · exact he
      · exact hn.2
      · exact fun y hy => hk y (List.mem_cons_of_mem _ hy)
      · intro y hy
        simp only [Dict.keys, List.map_append, List.map_cons, List.map_nil, List.mem_append, List.mem_singleton, not_or,
          List.cons.injEq, and_true]
        refine ⟨hf y (List.mem_cons_of_mem _ hy), ?_⟩
        intro e
        exact hn.1 (e ▸ List.mem_map_of_mem hy)
      · exact hid.2
      · intro y hy
        simp only [List.mem_append, List.mem_singleton, not_or]
        refine ⟨hw y (List.mem_cons_of_mem _ hy), ?_⟩
        intro e
        exact hid.1 (e ▸ List.mem_map_of_mem hy)

mutual
theorem writeNode_fresh (E : Env) : ∀ (t : Bld) (p : Path) (st : St), st.err = none → Good E t →
    (∀ q ∈ Dict.keys st.file, ¬ (t.name :: p) <:+ q) → (ids t).Nodup → (∀ i ∈ ids t, i ∉ st.written) →
    writeNode E p t st = { st with
      file := st.file ++ entries E (t.name :: p) t
      written := st.written ++ ids t
      queue := st.queue ++ (calls (t.name :: p) t).map (fun c => (c, false)) }
  | .node id name isData attrs data links subs, p, st => by
    intro he hg hf hid hw
    obtain ⟨hn, hg⟩ := (by simpa [Good] using hg : _ ∧ _)
    have hp : name :: p ∉ Dict.keys st.file := fun h => hf _ h List.suffix_rfl
    have hh : st.file.has (name :: p) = false := Dict.has_false_iff.2 hp
    cases isData with
    | true =>
      simp only [ids, if_true, List.mem_singleton, forall_eq] at hw
      simp only [writeNode, if_true, entries, calls, ids, Bld.name]
      cases data with
      | data d =>
        have h1 : st.create (name :: p) (.data d) =
            ⟨st.file ++ (name :: p, ⟨.data d, []⟩) :: [], st.written, st.queue, none⟩ := by
          simp [St.create, he, hh, Dict.set_of_not_mem hp]
        simp only [writeDataset, hw, if_false]
        rw [h1, setAttributes_fresh hp (.data d) attrs [] _ _ hn (by simp [Dict.keys])]
        simp [St.mark, dset0, dsetCalls, he]
      | refs l =>
        simp only [writeDataset, hw, if_false]
        simp [St.require, he, Dict.get?_eq_none_iff.2 hp, Dict.set_of_not_mem hp, St.mark, St.enqueue, dset0, dsetCalls]
      | sref l =>
        simp only [writeDataset, hw, if_false]
        simp [St.require, he, Dict.get?_eq_none_iff.2 hp, Dict.set_of_not_mem hp, St.mark, St.enqueue, dset0, dsetCalls]
    | false =>
      obtain ⟨hnames, hk, hgl⟩ := hg rfl
      rw [List.nodup_append] at hnames
      simp only [ids, Bool.false_eq_true, if_false] at hw hid
      simp only [List.mem_append, List.mem_singleton] at hw
      rw [List.nodup_append, List.nodup_append] at hid
      obtain ⟨⟨hid1, hid2, hid12⟩, _, hid3⟩ := hid
      simp only [writeNode, Bool.false_eq_true, if_false, entries, calls, ids, Bld.name]
      have h1 : openGroup (name :: p) id st =
          { st with file := st.file ++ [(name :: p, ⟨.group, []⟩)] } := by
        simp [openGroup, hw id (Or.inr rfl), St.create, he, hh, Dict.set_of_not_mem hp]
      rw [h1, writeNodes_fresh E subs (name :: p) _ ?_ hgl hnames.1]
      · rw [writeLinks_fresh E (name :: p) links _ ?_ hnames.2.1 hk]
        · have h2 := setAttributes_fresh hp .group attrs []
            (B := entriesL E (name :: p) subs ++ linkEntries E (name :: p) links)
            (st.written ++ idsL subs ++ links.map WLink.id)
            (st.queue ++ (callsL (name :: p) subs).map (fun c => (c, false))) hn (by simp [Dict.keys])
          simp only [List.append_assoc, List.cons_append, List.nil_append, he] at h2 ⊢
          rw [h2]
          simp [St.mark]
        · intro x hx
          simp only [Dict.keys, List.map_append, List.map_cons, List.map_nil, List.mem_append, List.mem_singleton, not_or,
            List.cons.injEq]
          refine ⟨⟨fun h => hf _ h (List.suffix_cons _ _), ?_⟩, ?_⟩
          · rintro ⟨_, h⟩
            have := congrArg List.length h
            simp at this
          · intro h
            obtain ⟨s, hs1, hs2⟩ := entriesL_suffix E subs (name :: p) _ h
            have : s = x.name := suffix_name hs2 List.suffix_rfl
            exact hnames.2.2 s hs1 x.name (List.mem_map_of_mem hx) this
        · exact hid2
        · intro x hx
          simp only [List.mem_append, not_or]
          exact ⟨hw x.id (Or.inl (Or.inr (List.mem_map_of_mem hx))),
            fun h => hid12 _ h x.id (List.mem_map_of_mem hx) rfl⟩
        · exact he
      · intro t ht q hq
        simp only [Dict.keys, List.map_append, List.map_cons, List.map_nil, List.mem_append, List.mem_singleton] at hq
        rcases hq with hq | rfl
        · exact fun h => hf q hq ((List.suffix_cons _ _).trans h)
        · exact not_suffix_cons
      · exact hid1
      · exact fun i hi => hw i (Or.inl (Or.inl hi))
      · exact he

theorem writeNodes_fresh (E : Env) : ∀ (l : List Bld) (p : Path) (st : St), st.err = none → GoodL E l →
    (l.map Bld.name).Nodup → (∀ t ∈ l, ∀ q ∈ Dict.keys st.file, ¬ (t.name :: p) <:+ q) → (idsL l).Nodup →
    (∀ i ∈ idsL l, i ∉ st.written) →
    writeNodes E p l st = { st with
      file := st.file ++ entriesL E p l
      written := st.written ++ idsL l
      queue := st.queue ++ (callsL p l).map (fun c => (c, false)) }
  | [], p, st => by intros; simp [writeNodes, entriesL, idsL, callsL]
  | t :: l, p, st => by
    intro he hg hn hf hid hw
    obtain ⟨hg1, hg2⟩ := (by simpa [GoodL] using hg : _ ∧ _)
    simp only [List.map_cons, List.nodup_cons] at hn
    simp only [idsL, List.mem_append] at hw hid
    rw [List.nodup_append] at hid
    rw [writeNodes, writeNode_fresh E t p st he hg1 (hf t (by simp)) hid.1 (fun i hi => hw i (Or.inl hi)),
      writeNodes_fresh E l p _ ?_ hg2 hn.2]
    · simp [entriesL, idsL, callsL]
    · intro s hs q hq
      simp only [Dict.keys, List.map_append, List.mem_append] at hq
      rcases hq with hq | hq
      · exact hf s (List.mem_cons_of_mem _ hs) q hq
      · intro h
        have h1 := suffix_name (entries_suffix E t _ q hq) h
        exact hn.1 (h1 ▸ List.mem_map_of_mem hs)
    · exact hid.2.1
    · intro i hi
      simp only [List.mem_append, not_or]
      exact ⟨hw i (Or.inr hi), fun h => hid.2.2 i h i hi rfl⟩
    · exact he
end

end Verif.H5Write

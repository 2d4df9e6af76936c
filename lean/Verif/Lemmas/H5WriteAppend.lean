import Verif.Lemmas.H5WriteFrame

/-!
# Lemmas about writing builders to a file: adding to a file
-/

namespace Verif.H5Write
open Verif

/-- what is at the path of a builder before the references are filled in, given what was there -/
def midObj (nd : Bld) (o : Option Obj) : Obj :=
  if nd.isData then o.getD (dset0 nd.attrs nd.data)
  else { o.getD ⟨.group, []⟩ with attrs := putData nd.attrs (o.getD ⟨.group, []⟩).attrs }

/-- the calls for one builder, if those in `W` have been written -/
def nodeCallsW (W : List Nat) (p : Path) (t : Bld) : List Call :=
  if t.isData ∧ t.id ∈ W then [] else nodeCalls p t

mutual
/-- the calls for a tree, if those in `W` have been written -/
def callsW (W : List Nat) (p : Path) : Bld → List Call
  | .node id _ isData attrs data _ subs =>
    if isData then (if id ∈ W then [] else dsetCalls p attrs data)
    else callsWL W p subs ++ refCalls p attrs

/-- the same for a list of trees -/
def callsWL (W : List Nat) (p : Path) : List Bld → List Call
  | [] => []
  | t :: l => callsW W (t.name :: p) t ++ callsWL W p l
end

/-- a builder of the list or a link in one is at the path -/
def Has (ns : List (Path × Bld)) (q : Path) : Prop := (∃ nd, (q, nd) ∈ ns) ∨ ∃ l, LinkAt ns q l

/-- what has been written is there, and nothing else is -/
structure Ready (ns : List (Path × Bld)) (f : Dict Path Obj) (W : List Nat) : Prop where
  node : ∀ x ∈ ns, (x.2.id ∈ W → Hard f x.1) ∧ (x.2.id ∉ W → f.get? x.1 = none)
  link : ∀ q l, LinkAt ns q l → (l.id ∈ W → ∃ o, f.get? q = some o) ∧ (l.id ∉ W → f.get? q = none)

/-- a file after a list of builders is written to it -/
structure After (E : Env) (ns : List (Path × Bld)) (f f' : Dict Path Obj) : Prop where
  node : ∀ x ∈ ns, f'.get? x.1 = some (midObj x.2 (f.get? x.1))
  link : ∀ q l, LinkAt ns q l → f'.get? q = some ((f.get? q).getD (linkObj E l))
  other : ∀ q, ¬ Has ns q → f'.get? q = f.get? q

theorem has_append {a b : List (Path × Bld)} {q : Path} : Has (a ++ b) q ↔ Has a q ∨ Has b q := by
  constructor
  · rintro (⟨nd, h⟩ | ⟨l, p, nd, h, h'⟩)
    · rcases List.mem_append.1 h with h | h
      · exact Or.inl (Or.inl ⟨nd, h⟩)
      · exact Or.inr (Or.inl ⟨nd, h⟩)
    · rcases List.mem_append.1 h with h | h
      · exact Or.inl (Or.inr ⟨l, p, nd, h, h'⟩)
      · exact Or.inr (Or.inr ⟨l, p, nd, h, h'⟩)
  · rintro (h | h)
    · rcases h with ⟨nd, h⟩ | ⟨l, p, nd, h, h'⟩
      · exact Or.inl ⟨nd, List.mem_append_left _ h⟩
      · exact Or.inr ⟨l, p, nd, List.mem_append_left _ h, h'⟩
    · rcases h with ⟨nd, h⟩ | ⟨l, p, nd, h, h'⟩
      · exact Or.inl ⟨nd, List.mem_append_right _ h⟩
      · exact Or.inr ⟨l, p, nd, List.mem_append_right _ h, h'⟩

theorem has_suffix {t : Bld} {p q : Path} (h : Has (nodesAt p t) q) : p <:+ q := by
  rcases h with ⟨nd, h⟩ | ⟨l, p', nd, h, _, _, rfl⟩
  · exact nodesAt_suffix t p _ h
  · exact (nodesAt_suffix t p _ h).trans (List.suffix_cons _ _)

theorem hasL_suffix {l : List Bld} {p q : Path} (h : Has (nodesAtL p l) q) : ∃ s ∈ l.map Bld.name, (s :: p) <:+ q := by
  rcases h with ⟨nd, h⟩ | ⟨k, p', nd, h, _, _, rfl⟩
  · exact nodesAtL_suffix l p _ h
  · obtain ⟨s, h1, h2⟩ := nodesAtL_suffix l p _ h
    exact ⟨s, h1, h2.trans (List.suffix_cons _ _)⟩

theorem ready_sub {ns ns' : List (Path × Bld)} {f f' : Dict Path Obj} {W W' : List Nat} (h : Ready ns f W)
    (hs : ∀ x ∈ ns', x ∈ ns) (hf : ∀ q, Has ns' q → f'.get? q = f.get? q)
    (hw : ∀ x ∈ ns', (x.2.id ∈ W' ↔ x.2.id ∈ W))
    (hl : ∀ q l, LinkAt ns' q l → (l.id ∈ W' ↔ l.id ∈ W)) : Ready ns' f' W' := by
  refine ⟨fun x hx => ?_, fun q l hq => ?_⟩
  · have h1 := h.node x (hs x hx)
    have h2 := hf x.1 (Or.inl ⟨x.2, hx⟩)
    rw [hw x hx, h2]
    refine ⟨fun hi => ?_, h1.2⟩
    obtain ⟨o, h3, h4⟩ := h1.1 hi
    exact ⟨o, by rw [h2]; exact h3, h4⟩
  · rw [hl q l hq, hf q (Or.inr ⟨l, hq⟩)]
    obtain ⟨p, nd, h1, h2⟩ := hq
    exact h.link q l ⟨p, nd, hs _ h1, h2⟩

mutual
theorem node_ids : ∀ (t : Bld) (p : Path), ∀ x ∈ nodesAt p t, x.2.id ∈ ids t ∧
    (x.2.isData = false → ∀ l ∈ x.2.links, l.id ∈ ids t)
  | .node id name isData attrs data links subs, p => by
    intro x hx
    unfold nodesAt at hx
    unfold ids
    rcases List.mem_cons.1 hx with rfl | hx
    · cases isData with
      | true => simp [Bld.id, Bld.isData]
      | false =>
        simp only [Bool.false_eq_true, if_false, Bld.id, Bld.isData, Bld.links]
        refine ⟨by simp, fun _ l hl => ?_⟩
        simp only [List.mem_append, List.mem_map]
        exact Or.inl (Or.inr ⟨l, hl, rfl⟩)
    · cases isData with
      | true => simp at hx
      | false =>
        simp only [Bool.false_eq_true, if_false] at hx ⊢
        obtain ⟨h1, h2⟩ := nodeL_ids subs p x hx
        refine ⟨?_, fun hd l hl => ?_⟩
        · simp only [List.mem_append]; exact Or.inl (Or.inl h1)
        · simp only [List.mem_append]; exact Or.inl (Or.inl (h2 hd l hl))

theorem nodeL_ids : ∀ (l : List Bld) (p : Path), ∀ x ∈ nodesAtL p l, x.2.id ∈ idsL l ∧
    (x.2.isData = false → ∀ k ∈ x.2.links, k.id ∈ idsL l)
  | [], p => by intro x hx; cases hx
  | t :: l, p => by
    intro x hx
    unfold idsL
    rcases List.mem_append.1 hx with hx | hx
    · obtain ⟨h1, h2⟩ := node_ids t _ x hx
      exact ⟨List.mem_append_left _ h1, fun hd k hk => List.mem_append_left _ (h2 hd k hk)⟩
    · obtain ⟨h1, h2⟩ := nodeL_ids l p x hx
      exact ⟨List.mem_append_right _ h1, fun hd k hk => List.mem_append_right _ (h2 hd k hk)⟩
end

theorem link_ids {t : Bld} {p q : Path} {l : WLink} (h : LinkAt (nodesAt p t) q l) : l.id ∈ ids t := by
  obtain ⟨p', nd, h1, h2, h3, _⟩ := h
  exact (node_ids t p _ h1).2 h2 l h3

theorem linkL_ids {ts : List Bld} {p q : Path} {l : WLink} (h : LinkAt (nodesAtL p ts) q l) : l.id ∈ idsL ts := by
  obtain ⟨p', nd, h1, h2, h3, _⟩ := h
  exact (nodeL_ids ts p _ h1).2 h2 l h3

/-- the links of one group -/
theorem writeLinks_at (E : Env) (p : Path) : ∀ (l : List WLink) (st : St), st.err = none →
    (l.map WLink.name).Nodup → (∀ x ∈ l, linkKind E x ≠ none) →
    (∀ x ∈ l, (x.id ∈ st.written → ∃ o, st.file.get? (x.name :: p) = some o) ∧
      (x.id ∉ st.written → st.file.get? (x.name :: p) = none)) →
    (l.map WLink.id).Nodup →
    ∃ f w, writeLinks E p l st = { st with file := f, written := w } ∧
      (∀ i, i ∈ w ↔ i ∈ st.written ∨ i ∈ l.map WLink.id) ∧
      (∀ x ∈ l, f.get? (x.name :: p) = some ((st.file.get? (x.name :: p)).getD (linkObj E x))) ∧
      (∀ q, (∀ x ∈ l, q ≠ x.name :: p) → f.get? q = st.file.get? q) := by
  intro l
  induction l with
  | nil => intro st _ _ _ _ _; exact ⟨st.file, st.written, rfl, by simp, by simp, by simp⟩
  | cons x l ih =>
    intro st he hn hk hf hid
    simp only [List.map_cons, List.nodup_cons] at hn hid
    have hne : ∀ y ∈ l, y.name :: p ≠ x.name :: p := by
      intro y hy h
      exact hn.1 (List.mem_map.2 ⟨y, hy, (List.cons.inj h).1⟩)
    have hni : ∀ y ∈ l, y.id ≠ x.id := fun y hy h => hid.1 (List.mem_map.2 ⟨y, hy, h⟩)
    by_cases hw : x.id ∈ st.written
    · have h1 : writeLink E p x st = st := by simp [writeLink, hw]
      obtain ⟨f, w, h2, h3, h4, h5⟩ := ih st he hn.2 (fun y hy => hk y (List.mem_cons_of_mem _ hy))
        (fun y hy => hf y (List.mem_cons_of_mem _ hy)) hid.2
      refine ⟨f, w, by rw [writeLinks, h1, h2], ?_, ?_, ?_⟩
      · intro i
        rw [h3]
        simp only [List.map_cons, List.mem_cons]
        constructor
        · rintro (h | h)
          · exact Or.inl h
          · exact Or.inr (Or.inr h)
        · rintro (h | h | h)
          · exact Or.inl h
          · rw [h]; exact Or.inl hw
          · exact Or.inr h
      · intro y hy
        rcases List.mem_cons.1 hy with rfl | hy
        · rw [h5 _ (fun z hz h => hne z hz h.symm)]
          obtain ⟨o, ho⟩ := (hf y (by simp)).1 hw
          simp [ho]
        · exact h4 y hy
      · intro q hq
        exact h5 q (fun y hy => hq y (List.mem_cons_of_mem _ hy))
    · have hnone := (hf x (by simp)).2 hw
      have hh : st.file.has (x.name :: p) = false := Dict.has_false_iff.2 (Dict.get?_eq_none_iff.1 hnone)
      cases hx : linkKind E x with
      | none => exact absurd hx (hk x (by simp))
      | some kd =>
        have h1 : writeLink E p x st = { st with file := st.file.set (x.name :: p) ⟨kd, []⟩, written := st.written ++ [x.id] } := by
          simp [writeLink, hw, hx, St.create, St.mark, he, hh]
        obtain ⟨f, w, h2, h3, h4, h5⟩ := ih
          { st with file := st.file.set (x.name :: p) ⟨kd, []⟩, written := st.written ++ [x.id] } he hn.2
          (fun y hy => hk y (List.mem_cons_of_mem _ hy))
          (fun y hy => by
            have := hf y (List.mem_cons_of_mem _ hy)
            simp only [Dict.get?_set_ne (hne y hy), List.mem_append, List.mem_singleton, hni y hy, or_false]
            exact this) hid.2
        refine ⟨f, w, by rw [writeLinks, h1, h2], ?_, ?_, ?_⟩
        · intro i
          rw [h3]
          simp only [List.map_cons, List.mem_cons, List.mem_append, List.not_mem_nil, or_false, or_assoc]
        · intro y hy
          rcases List.mem_cons.1 hy with rfl | hy
          · rw [h5 _ (fun z hz h => hne z hz h.symm)]
            simp [hnone, Dict.get?_set_self, linkObj, hx]
          · rw [h4 y hy]
            simp only [Dict.get?_set_ne (hne y hy)]
        · intro q hq
          rw [h5 q (fun y hy => hq y (List.mem_cons_of_mem _ hy))]
          simp only [Dict.get?_set_ne (hq x (by simp))]

/-- the links of a group, its attributes and all within it -/
theorem after_group {E : Env} {P : Path} {id : Nat} {name : String} {attrs : Dict String WAttr} {data : WData}
    {links : List WLink} {subs : List Bld} {f f1 f2 f3 : Dict Path Obj}
    (hn : (subs.map Bld.name ++ links.map WLink.name).Nodup)
    (h1 : f1.get? P = some ((f.get? P).getD ⟨.group, []⟩)) (h1' : ∀ q, q ≠ P → f1.get? q = f.get? q)
    (h2 : After E (nodesAtL P subs) f1 f2)
    (h3 : ∀ x ∈ links, f3.get? (x.name :: P) = some ((f2.get? (x.name :: P)).getD (linkObj E x)))
    (h3' : ∀ q, (∀ x ∈ links, q ≠ x.name :: P) → f3.get? q = f2.get? q) :
    f3.get? P = some ((f.get? P).getD ⟨.group, []⟩) ∧
    After E (nodesAt P (.node id name false attrs data links subs)) f
      (f3.set P ⟨((f.get? P).getD ⟨.group, []⟩).kind, putData attrs ((f.get? P).getD ⟨.group, []⟩).attrs⟩) := by
  rw [List.nodup_append] at hn
  have hP : ¬ Has (nodesAtL P subs) P := by
    intro h
    obtain ⟨s, _, hs⟩ := hasL_suffix h
    exact not_suffix_cons hs
  have hPl : ∀ x ∈ links, P ≠ x.name :: P := by
    intro x _ h
    have := congrArg List.length h
    simp at this
  have hsl : ∀ q, Has (nodesAtL P subs) q → ∀ x ∈ links, q ≠ x.name :: P := by
    intro q hq x hx h
    obtain ⟨s, hs1, hs2⟩ := hasL_suffix hq
    rw [h] at hs2
    exact hn.2.2 s hs1 x.name (List.mem_map_of_mem hx) (suffix_name hs2 List.suffix_rfl)
  have hsP : ∀ q, Has (nodesAtL P subs) q → q ≠ P := by
    rintro q hq rfl
    exact hP hq
  have e3 : f3.get? P = some ((f.get? P).getD ⟨.group, []⟩) := by rw [h3' P hPl, h2.other P hP, h1]
  refine ⟨e3, ?_, ?_, ?_⟩
  · intro x hx
    simp only [nodesAt, Bool.false_eq_true, if_false] at hx
    rcases List.mem_cons.1 hx with rfl | hx
    · simp [Dict.get?_set_self, midObj, Bld.isData, Bld.attrs]
    · have hx' : Has (nodesAtL P subs) x.1 := Or.inl ⟨x.2, hx⟩
      rw [Dict.get?_set_ne (hsP _ hx'), h3' _ (hsl _ hx'), h2.node x hx, h1' _ (hsP _ hx')]
  · rintro q l ⟨p', nd, hm, hd, hl, rfl⟩
    simp only [nodesAt, Bool.false_eq_true, if_false] at hm
    rcases List.mem_cons.1 hm with hm | hm
    · cases hm
      have hll : ¬ Has (nodesAtL P subs) (l.name :: P) := fun h => hsl _ h l hl rfl
      have hlP : l.name :: P ≠ P := fun h => hPl l hl h.symm
      rw [Dict.get?_set_ne hlP, h3 l hl, h2.other _ hll, h1' _ hlP]
    · have hx' : Has (nodesAtL P subs) (l.name :: p') := Or.inr ⟨l, p', nd, hm, hd, hl, rfl⟩
      rw [Dict.get?_set_ne (hsP _ hx'), h3' _ (hsl _ hx'), h2.link _ l ⟨p', nd, hm, hd, hl, rfl⟩, h1' _ (hsP _ hx')]
  · intro q hq
    have hqP : q ≠ P := by
      rintro rfl
      exact hq (Or.inl ⟨.node id name false attrs data links subs, by simp [nodesAt]⟩)
    have hqs : ¬ Has (nodesAtL P subs) q := by
      rintro (⟨nd, h⟩ | ⟨l, p', nd, h, h'⟩)
      · exact hq (Or.inl ⟨nd, by simp [nodesAt, h]⟩)
      · exact hq (Or.inr ⟨l, p', nd, by simp [nodesAt, h], h'⟩)
    have hql : ∀ x ∈ links, q ≠ x.name :: P := by
      rintro x hx rfl
      exact hq (Or.inr ⟨x, P, .node id name false attrs data links subs, by simp [nodesAt], rfl, hx, rfl⟩)
    rw [Dict.get?_set_ne hqP, h3' _ hql, h2.other _ hqs, h1' _ hqP]

/-- two lists of builders that have no path in common -/
theorem after_append {E : Env} {a b : List (Path × Bld)} {f f1 f2 : Dict Path Obj}
    (hd : ∀ q, Has a q → ¬ Has b q) (h1 : After E a f f1) (h2 : After E b f1 f2) : After E (a ++ b) f f2 := by
  have ha : ∀ q, Has a q → f2.get? q = f1.get? q := fun q hq => h2.other q (hd q hq)
  have hb : ∀ q, Has b q → f1.get? q = f.get? q := fun q hq => h1.other q (fun h => hd q h hq)
  refine ⟨?_, ?_, ?_⟩
  · intro x hx
    rcases List.mem_append.1 hx with hx | hx
    · rw [ha _ (Or.inl ⟨x.2, hx⟩), h1.node x hx]
    · rw [h2.node x hx, hb _ (Or.inl ⟨x.2, hx⟩)]
  · rintro q l ⟨p, nd, hm, h⟩
    rcases List.mem_append.1 hm with hm | hm
    · rw [ha q (Or.inr ⟨l, p, nd, hm, h⟩), h1.link q l ⟨p, nd, hm, h⟩]
    · rw [h2.link q l ⟨p, nd, hm, h⟩, hb q (Or.inr ⟨l, p, nd, hm, h⟩)]
  · intro q hq
    rw [has_append, not_or] at hq
    rw [h2.other q hq.2, h1.other q hq.1]

mutual
theorem writeNode_at (E : Env) (W : List Nat) : ∀ (t : Bld) (p : Path) (st : St), st.err = none → Good E t →
    (ids t).Nodup → (∀ i ∈ ids t, i ∈ st.written ↔ i ∈ W) → Ready (nodesAt (t.name :: p) t) st.file W →
    ∃ f w, writeNode E p t st = { st with
      file := f
      written := w
      queue := st.queue ++ (callsW W (t.name :: p) t).map (fun c => (c, false)) } ∧
      (∀ i, i ∈ w ↔ i ∈ st.written ∨ i ∈ ids t) ∧ After E (nodesAt (t.name :: p) t) st.file f
  | .node id name isData attrs data links subs, p, st => by
    intro he hg hid hw hr
    obtain ⟨hn, hg⟩ := (by simpa [Good] using hg : _ ∧ _)
    simp only [Bld.name] at hr ⊢
    have hrP := hr.node (name :: p, .node id name isData attrs data links subs) (by simp [nodesAt])
    simp only [Bld.id] at hrP
    cases isData with
    | true =>
      have hwi : id ∈ st.written ↔ id ∈ W := hw id (by simp [ids])
      simp only [writeNode, if_true, callsW, ids, List.mem_singleton]
      by_cases hi : id ∈ W
      · obtain ⟨o, ho, _⟩ := hrP.1 hi
        refine ⟨st.file, st.written, by simp [writeDataset, hwi, hi], ?_, ?_, ?_, ?_⟩
        · intro i
          refine ⟨Or.inl, ?_⟩
          rintro (h | rfl)
          · exact h
          · exact hwi.2 hi
        · intro x hx
          simp only [nodesAt, if_true, List.mem_singleton] at hx
          subst hx
          simp [midObj, Bld.isData, ho]
        · rintro q l ⟨p', nd, hm, hd, _⟩
          simp only [nodesAt, if_true, List.mem_singleton] at hm
          cases hm
          simp [Bld.isData] at hd
        · intros; rfl
      · have hnone := hrP.2 hi
        have hh : st.file.has (name :: p) = false := Dict.has_false_iff.2 (Dict.get?_eq_none_iff.1 hnone)
        have hA : ∀ o : Obj, o = dset0 attrs data → After E (nodesAt (name :: p) (.node id name true attrs data links subs))
            st.file (st.file.set (name :: p) o) := by
          rintro o rfl
          refine ⟨?_, ?_, ?_⟩
          · intro x hx
            simp only [nodesAt, if_true, List.mem_singleton] at hx
            subst hx
            simp [midObj, Bld.isData, Bld.attrs, Bld.data, hnone, Dict.get?_set_self]
          · rintro q l ⟨p', nd, hm, hd, _⟩
            simp only [nodesAt, if_true, List.mem_singleton] at hm
            cases hm
            simp [Bld.isData] at hd
          · intro q hq
            refine Dict.get?_set_ne ?_
            rintro rfl
            exact hq (Or.inl ⟨.node id name true attrs data links subs, by simp [nodesAt]⟩)
        have hwi' : id ∉ st.written := fun h => hi (hwi.1 h)
        cases data with
        | data d =>
          refine ⟨st.file.set (name :: p) (dset0 attrs (.data d)), st.written ++ [id], ?_, by simp, hA _ rfl⟩
          have h1 : st.create (name :: p) (.data d) = { st with file := st.file.set (name :: p) ⟨.data d, []⟩ } := by
            simp [St.create, he, hh]
          simp only [writeDataset, hwi', if_false, h1, hi, dsetCalls]
          rw [setAttributes_at attrs _ ⟨.data d, []⟩ ?_ Dict.get?_set_self]
          · simp [St.mark, he, set_set, dset0, putData_fresh attrs [] hn (by simp [Dict.keys])]
          · exact he
        | refs l =>
          refine ⟨st.file.set (name :: p) (dset0 attrs (.refs l)), st.written ++ [id], ?_, by simp, hA _ rfl⟩
          simp [writeDataset, hwi', hi, dsetCalls, St.require, hnone, he, St.mark, St.enqueue, dset0]
        | sref l =>
          refine ⟨st.file.set (name :: p) (dset0 attrs (.sref l)), st.written ++ [id], ?_, by simp, hA _ rfl⟩
          simp [writeDataset, hwi', hi, dsetCalls, St.require, hnone, he, St.mark, St.enqueue, dset0]
    | false =>
      obtain ⟨hnames, hk, hgl⟩ := hg rfl
      have hnames' := hnames
      rw [List.nodup_append] at hnames'
      have hwi : id ∈ st.written ↔ id ∈ W := hw id (by simp [ids])
      simp only [ids, Bool.false_eq_true, if_false] at hid
      have hid0 := hid
      rw [List.nodup_append, List.nodup_append] at hid
      obtain ⟨⟨hi1, hi2, hi3⟩, _, hi4⟩ := hid
      -- the group itself
      have h1 : ∃ f1, openGroup (name :: p) id st = { st with file := f1 } ∧
          f1.get? (name :: p) = some ((st.file.get? (name :: p)).getD ⟨.group, []⟩) ∧
          ∀ q, q ≠ name :: p → f1.get? q = st.file.get? q := by
        by_cases hi : id ∈ W
        · obtain ⟨o, ho, _⟩ := hrP.1 hi
          exact ⟨st.file, by simp [openGroup, hwi, hi, ho], by simp [ho], fun _ _ => rfl⟩
        · have hnone := hrP.2 hi
          have hh : st.file.has (name :: p) = false := Dict.has_false_iff.2 (Dict.get?_eq_none_iff.1 hnone)
          exact ⟨st.file.set (name :: p) ⟨.group, []⟩, by simp [openGroup, hwi, hi, St.create, he, hh],
            by simp [hnone, Dict.get?_set_self], fun q hq => Dict.get?_set_ne hq⟩
      obtain ⟨f1, e1, h1, h1'⟩ := h1
      have hsub : ∀ x ∈ nodesAtL (name :: p) subs, x ∈ nodesAt (name :: p) (.node id name false attrs data links subs) := by
        intro x hx
        simp [nodesAt, hx]
      have hP : ∀ q, Has (nodesAtL (name :: p) subs) q → q ≠ name :: p := by
        rintro q hq rfl
        obtain ⟨s, _, hs⟩ := hasL_suffix hq
        exact not_suffix_cons hs
      -- what is in the group
      obtain ⟨f2, w2, e2, h2w, h2⟩ := writeNodes_at E W subs (name :: p) { st with file := f1 } he hgl hnames'.1 hi1
        (fun i hi => hw i (by simp [ids, hi]))
        (ready_sub hr hsub (fun q hq => h1' q (hP q hq)) (fun _ _ => Iff.rfl) (fun _ _ _ => Iff.rfl))
      -- the links
      have hlk : ∀ x ∈ links, x.name :: name :: p ≠ name :: p := by
        intro x _ h
        have := congrArg List.length h
        simp at this
      have hll : ∀ x ∈ links, ¬ Has (nodesAtL (name :: p) subs) (x.name :: name :: p) := by
        intro x hx h
        obtain ⟨s, hs1, hs2⟩ := hasL_suffix h
        exact hnames'.2.2 s hs1 x.name (List.mem_map_of_mem hx) (suffix_name hs2 List.suffix_rfl)
      obtain ⟨f3, w3, e3, h3w, h3, h3'⟩ := writeLinks_at E (name :: p) links
        { st with file := f2, written := w2, queue := st.queue ++ (callsWL W (name :: p) subs).map (fun c => (c, false)) }
        he hnames'.2.1 hk (by
          intro x hx
          have hlx := hr.link (x.name :: name :: p) x ⟨name :: p, .node id name false attrs data links subs, by simp [nodesAt], rfl, hx, rfl⟩
          have hwx : x.id ∈ w2 ↔ x.id ∈ W := by
            rw [h2w, ← hw x.id (by simp only [ids, Bool.false_eq_true, if_false, List.mem_append]
                                   exact Or.inl (Or.inr (List.mem_map_of_mem hx)))]
            refine ⟨?_, Or.inl⟩
            rintro (h | h)
            · exact h
            · exact absurd rfl (hi3 _ h _ (List.mem_map_of_mem hx))
          simp only [hwx, h2.other _ (hll x hx), h1' _ (hlk x hx)]
          exact hlx) hi2
      obtain ⟨e4, hA⟩ := after_group (E := E) (id := id) (name := name) (attrs := attrs) (data := data) hnames h1 h1' h2 h3 h3'
      refine ⟨_, w3 ++ [id], ?_, ?_, hA⟩
      · simp only [writeNode, Bool.false_eq_true, if_false, callsW]
        rw [e1, e2, e3, setAttributes_at attrs _ _ ?_ e4]
        · simp [St.mark, he, List.append_assoc]
        · exact he
      · intro i
        simp only [List.mem_append, List.mem_singleton, h3w, h2w, ids, Bool.false_eq_true, if_false, or_assoc]

theorem writeNodes_at (E : Env) (W : List Nat) : ∀ (l : List Bld) (p : Path) (st : St), st.err = none → GoodL E l →
    (l.map Bld.name).Nodup → (idsL l).Nodup → (∀ i ∈ idsL l, i ∈ st.written ↔ i ∈ W) →
    Ready (nodesAtL p l) st.file W →
    ∃ f w, writeNodes E p l st = { st with
      file := f
      written := w
      queue := st.queue ++ (callsWL W p l).map (fun c => (c, false)) } ∧
      (∀ i, i ∈ w ↔ i ∈ st.written ∨ i ∈ idsL l) ∧ After E (nodesAtL p l) st.file f
  | [], p, st => by
    intros
    refine ⟨st.file, st.written, by simp [writeNodes, callsWL], by simp [idsL], ?_, ?_, ?_⟩
    · intro x hx; cases hx
    · rintro q l ⟨_, _, h, _⟩; cases h
    · intros; rfl
  | t :: l, p, st => by
    intro he hg hn hid hw hr
    obtain ⟨hg1, hg2⟩ := (by simpa [GoodL] using hg : _ ∧ _)
    simp only [List.map_cons, List.nodup_cons] at hn
    simp only [idsL] at hid hw
    rw [List.nodup_append] at hid
    have hdis : ∀ q, Has (nodesAt (t.name :: p) t) q → ¬ Has (nodesAtL p l) q := by
      intro q h h'
      obtain ⟨s, hs1, hs2⟩ := hasL_suffix h'
      exact hn.1 (suffix_name hs2 (has_suffix h) ▸ hs1)
    obtain ⟨f1, w1, e1, h1w, h1⟩ := writeNode_at E W t p st he hg1 hid.1
      (fun i hi => hw i (List.mem_append_left _ hi))
      (ready_sub hr (fun x hx => List.mem_append_left _ hx) (fun _ _ => rfl) (fun _ _ => Iff.rfl) (fun _ _ _ => Iff.rfl))
    obtain ⟨f2, w2, e2, h2w, h2⟩ := writeNodes_at E W l p
      { st with file := f1, written := w1, queue := st.queue ++ (callsW W (t.name :: p) t).map (fun c => (c, false)) }
      he hg2 hn.2 hid.2.1 (by
        intro i hi
        simp only [h1w]
        rw [← hw i (List.mem_append_right _ hi)]
        refine ⟨?_, Or.inl⟩
        rintro (h | h)
        · exact h
        · exact absurd rfl (hid.2.2 i h i hi))
      (ready_sub hr (fun x hx => List.mem_append_right _ hx) (fun q hq => h1.other q (fun h => hdis q h hq))
        (fun _ _ => Iff.rfl) (fun _ _ _ => Iff.rfl))
    refine ⟨f2, w2, ?_, ?_, after_append hdis h1 h2⟩
    · rw [writeNodes, e1, e2]
      simp [callsWL, List.append_assoc]
    · intro i
      simp only [h2w, h1w, idsL, List.mem_append, or_assoc]
end

/-! ## The calls -/

mutual
theorem callsW_node (W : List Nat) : ∀ (t : Bld) (p : Path), ∀ c ∈ callsW W p t, ∃ x ∈ nodesAt p t, c ∈ nodeCallsW W x.1 x.2
  | .node id name isData attrs data links subs, p => by
    intro c hc
    unfold callsW at hc
    cases isData with
    | true =>
      refine ⟨_, by unfold nodesAt; exact List.mem_cons_self .., ?_⟩
      simp only [if_true] at hc
      split at hc
      · cases hc
      · rename_i hi
        simpa [nodeCallsW, nodeCalls, Bld.isData, Bld.attrs, Bld.data, Bld.id, hi] using hc
    | false =>
      simp only [Bool.false_eq_true, if_false] at hc
      rcases List.mem_append.1 hc with hc | hc
      · obtain ⟨x, hx, h⟩ := callsWL_node W subs p c hc
        exact ⟨x, by unfold nodesAt; exact List.mem_cons_of_mem _ (by simpa using hx), h⟩
      · exact ⟨_, by unfold nodesAt; exact List.mem_cons_self .., by simpa [nodeCallsW, nodeCalls, Bld.isData, Bld.attrs] using hc⟩

theorem callsWL_node (W : List Nat) : ∀ (l : List Bld) (p : Path), ∀ c ∈ callsWL W p l, ∃ x ∈ nodesAtL p l, c ∈ nodeCallsW W x.1 x.2
  | [], p => by intro c hc; cases hc
  | t :: l, p => by
    intro c hc
    rcases List.mem_append.1 hc with hc | hc
    · obtain ⟨x, hx, h⟩ := callsW_node W t _ c hc
      exact ⟨x, List.mem_append_left _ hx, h⟩
    · obtain ⟨x, hx, h⟩ := callsWL_node W l p c hc
      exact ⟨x, List.mem_append_right _ hx, h⟩
end

theorem nodeCallsW_sub {W : List Nat} {p : Path} {t : Bld} {c : Call} (h : c ∈ nodeCallsW W p t) : c ∈ nodeCalls p t := by
  unfold nodeCallsW at h
  split at h
  · cases h
  · exact h

theorem callsWL_suffix {W : List Nat} {l : List Bld} {p : Path} {c : Call} (h : c ∈ callsWL W p l) :
    ∃ s ∈ l.map Bld.name, (s :: p) <:+ c.path := by
  obtain ⟨x, hx, hc⟩ := callsWL_node W l p c h
  rw [nodeCalls_path (nodeCallsW_sub hc)]
  exact nodesAtL_suffix l p x hx

mutual
theorem callsW_filter (E : Env) (W : List Nat) : ∀ (t : Bld) (p : Path), Good E t → ∀ x ∈ nodesAt p t,
    (callsW W p t).filter (fun c => c.path = x.1) = nodeCallsW W x.1 x.2
  | .node id name isData attrs data links subs, p => by
    intro hg x hx
    obtain ⟨_, hg⟩ := (by simpa [Good] using hg : _ ∧ _)
    unfold nodesAt at hx
    unfold callsW
    cases isData with
    | true =>
      simp only [if_true, List.mem_cons, List.not_mem_nil, or_false] at hx ⊢
      subst hx
      have h1 : (if id ∈ W then [] else dsetCalls p attrs data) = nodeCallsW W p (.node id name true attrs data links subs) := by
        simp [nodeCallsW, nodeCalls, Bld.isData, Bld.attrs, Bld.data, Bld.id]
      rw [h1]
      exact filter_all (fun c hc => nodeCalls_path (nodeCallsW_sub hc))
    | false =>
      obtain ⟨hn, _, hgl⟩ := hg rfl
      rw [List.nodup_append] at hn
      simp only [Bool.false_eq_true, if_false] at hx ⊢
      rw [List.filter_append]
      rcases List.mem_cons.1 hx with rfl | hx
      · rw [filter_none (l := callsWL W p subs), filter_all (l := refCalls p attrs)]
        · simp [nodeCallsW, nodeCalls, Bld.isData, Bld.attrs]
        · exact fun c hc => refCalls_path hc
        · intro c hc h
          obtain ⟨s, _, hs⟩ := callsWL_suffix hc
          rw [h] at hs
          exact not_suffix_cons hs
      · rw [filter_none (l := refCalls p attrs), List.append_nil]
        · exact callsWL_filter E W subs p hgl hn.1 x hx
        · intro c hc h
          rw [refCalls_path hc] at h
          obtain ⟨s, _, hs⟩ := nodesAtL_suffix subs p x hx
          rw [← h] at hs
          exact not_suffix_cons hs

theorem callsWL_filter (E : Env) (W : List Nat) : ∀ (l : List Bld) (p : Path), GoodL E l → (l.map Bld.name).Nodup →
    ∀ x ∈ nodesAtL p l, (callsWL W p l).filter (fun c => c.path = x.1) = nodeCallsW W x.1 x.2
  | [], p => by intro _ _ x hx; cases hx
  | t :: l, p => by
    intro hg hn x hx
    obtain ⟨hg1, hg2⟩ := (by simpa [GoodL] using hg : _ ∧ _)
    simp only [List.map_cons, List.nodup_cons] at hn
    unfold callsWL
    rw [List.filter_append]
    rcases List.mem_append.1 hx with hx | hx
    · rw [callsW_filter E W t _ hg1 x hx, filter_none (l := callsWL W p l), List.append_nil]
      intro c hc h
      obtain ⟨s, hs1, hs2⟩ := callsWL_suffix hc
      rw [h] at hs2
      exact hn.1 (suffix_name hs2 (nodesAt_suffix t _ x hx) ▸ hs1)
    · rw [callsWL_filter E W l p hg2 hn.2 x hx, filter_none (l := callsW W (t.name :: p) t), List.nil_append]
      intro c hc h
      obtain ⟨y, hy, hyc⟩ := callsW_node W t _ c hc
      rw [nodeCalls_path (nodeCallsW_sub hyc)] at h
      obtain ⟨s, hs1, hs2⟩ := nodesAtL_suffix l p x hx
      have := nodesAt_suffix t _ y hy
      rw [h] at this
      exact hn.1 (suffix_name hs2 this ▸ hs1)
end

/-! ## The whole -/

/-- the builders below the top -/
def innerNodes : Bld → List (Path × Bld)
  | .node _ _ _ _ _ _ subs => nodesAtL [] subs

/-- what was written is in the file where the tree has it, and nothing else is in the way -/
structure Fits (root : Bld) (st : St) : Prop where
  top : ∃ o, st.file.get? [] = some o ∧ o.kind = .group
  inner : Ready (innerNodes root) st.file st.written
  links : ∀ q l, LinkAt (nodesAt [] root) q l →
    (l.id ∈ st.written → ∃ o, st.file.get? q = some o) ∧ (l.id ∉ st.written → st.file.get? q = none)

theorem preRefs_at (E : Env) (root : Bld) (st : St) (hd : root.grp) (hg : Good E root) (hid : (ids root).Nodup)
    (he : st.err = none) (hf : Fits root st) :
    ∃ f w, preRefs E root st = { st with
      file := f
      written := w
      queue := st.queue ++ (callsW st.written [] root).map (fun c => (c, false)) } ∧
      (∀ i, i ∈ w ↔ i ∈ st.written ∨ i ∈ innerIds root) ∧ After E (nodesAt [] root) st.file f := by
  obtain ⟨id, name, isData, attrs, data, links, subs⟩ := root
  simp only [Bld.grp] at hd
  subst hd
  obtain ⟨hn, hg⟩ := (by simpa [Good] using hg : _ ∧ _)
  obtain ⟨hnames, hk, hgl⟩ := hg
  simp only [ids, Bool.false_eq_true, if_false] at hid
  rw [List.nodup_append, List.nodup_append] at hid
  obtain ⟨⟨hi1, hi2, hi3⟩, hi4⟩ := hid
  have hnames' := hnames
  rw [List.nodup_append] at hnames'
  obtain ⟨⟨o, ho, hok⟩, hr, hl⟩ := hf
  obtain ⟨f2, w2, e2, h2w, h2⟩ := writeNodes_at E st.written subs [] st he hgl hnames'.1 hi1 (fun _ _ => Iff.rfl) hr
  have hll : ∀ x ∈ links, ¬ Has (nodesAtL [] subs) [x.name] := by
    intro x hx h
    obtain ⟨s, hs1, hs2⟩ := hasL_suffix h
    exact hnames'.2.2 s hs1 x.name (List.mem_map_of_mem hx) (suffix_name hs2 List.suffix_rfl)
  obtain ⟨f3, w3, e3, h3w, h3, h3'⟩ := writeLinks_at E [] links
    { st with file := f2, written := w2, queue := st.queue ++ (callsWL st.written [] subs).map (fun c => (c, false)) }
    he hnames'.2.1 hk (by
      intro x hx
      have hlx := hl [x.name] x ⟨[], .node id name false attrs data links subs, by simp [nodesAt], rfl, hx, rfl⟩
      have hwx : x.id ∈ w2 ↔ x.id ∈ st.written := by
        rw [h2w]
        refine ⟨?_, Or.inl⟩
        rintro (h | h)
        · exact h
        · exact absurd rfl (hi3 _ h _ (List.mem_map_of_mem hx))
      simp only [hwx, h2.other _ (hll x hx)]
      exact hlx) hi2
  obtain ⟨e4, hA⟩ := after_group (E := E) (id := id) (name := name) (attrs := attrs) (data := data) (f := st.file) (P := [])
    hnames (by simp [ho]) (fun _ _ => rfl) h2 h3 h3'
  refine ⟨_, w3, ?_, ?_, hA⟩
  · simp only [preRefs, callsW, Bool.false_eq_true, if_false]
    rw [e2, e3, setAttributes_at attrs _ _ ?_ e4]
    · simp [List.append_assoc]
    · exact he
  · intro i
    simp only [h3w, h2w, innerIds, List.mem_append, or_assoc]

theorem hard_mid {nd : Bld} {o : Option Obj} (ho : ∀ x, o = some x → (∀ p, x.kind ≠ .soft p) ∧ ∀ s p, x.kind ≠ .ext s p) :
    (∀ p, (midObj nd o).kind ≠ .soft p) ∧ ∀ s p, (midObj nd o).kind ≠ .ext s p := by
  unfold midObj
  split
  · cases o with
    | none =>
      simp only [Option.getD_none]
      cases nd.data <;> simp [dset0]
    | some x => exact ho x rfl
  · cases o with
    | none => simp
    | some x => exact ho x rfl

theorem nodes_cons (root : Bld) (hd : root.grp) : nodesAt [] root = ([], root) :: innerNodes root := by
  obtain ⟨id, name, isData, attrs, data, links, subs⟩ := root
  simp only [Bld.grp] at hd
  subst hd
  rfl

/-- a builder of the tree is at a path that leads to a group or a dataset -/
theorem hard_after_node {E : Env} {root : Bld} {st : St} (hd : root.grp) (hf : Fits root st) {f : Dict Path Obj}
    (h : After E (nodesAt [] root) st.file f) {q : Path} {nd : Bld} (hq : (q, nd) ∈ nodesAt [] root) : Hard f q := by
  refine ⟨_, h.node _ hq, hard_mid (fun x hx => ?_)⟩
  rw [nodes_cons root hd] at hq
  rcases List.mem_cons.1 hq with hq | hq
  · cases hq
    obtain ⟨o, ho, hk⟩ := hf.top
    rw [ho] at hx
    obtain rfl := Option.some.inj hx
    rw [hk]
    simp
  · have hr := hf.inner.node _ hq
    by_cases hi : nd.id ∈ st.written
    · obtain ⟨o, ho, hk⟩ := hr.1 hi
      simp only at hx
      rw [ho] at hx
      obtain rfl := Option.some.inj hx
      exact hk
    · have := hr.2 hi
      simp only at hx this
      rw [this] at hx
      cases hx

theorem hard_after_old {E : Env} {root : Bld} {st : St} (hd : root.grp) (hf : Fits root st) {f : Dict Path Obj}
    (h : After E (nodesAt [] root) st.file f) {q : Path} (hq : Hard st.file q) : Hard f q := by
  by_cases hn : ∃ nd, (q, nd) ∈ nodesAt [] root
  · obtain ⟨nd, hn⟩ := hn
    exact hard_after_node hd hf h hn
  · obtain ⟨o, ho, hk⟩ := hq
    by_cases hl : ∃ l, LinkAt (nodesAt [] root) q l
    · obtain ⟨l, hl⟩ := hl
      exact ⟨o, by rw [h.link q l hl, ho]; rfl, hk⟩
    · exact ⟨o, by rw [h.other q (fun h => h.elim hn hl), ho], hk⟩

/-- a builder of the tree that is to be written refers to the builder `t` -/
def RefersNew (W : List Nat) (root : Bld) (t : Nat) : Prop :=
  ∃ q nd, (q, nd) ∈ nodesAt [] root ∧ ¬ (nd.isData = true ∧ nd.id ∈ W) ∧
    ((∃ k, (k, WAttr.ref t) ∈ nd.attrs) ∨ nd.isData = true ∧ t ∈ nd.data.targets)

/-- everything that is referred to is in the tree or in the file -/
def ClosedIn (E : Env) (root : Bld) (st : St) : Prop :=
  ∀ t, RefersNew st.written root t → (∃ nd, (getPath E t, nd) ∈ nodesAt [] root) ∨ Hard st.file (getPath E t)

theorem callsW_targets {W : List Nat} {root : Bld} {t : Nat} {c d : Call} (hc : c ∈ callsW W [] root)
    (hd : d = c ∨ d ∈ c.spawn) (ht : t ∈ d.targets) : RefersNew W root t := by
  obtain ⟨⟨q, nd⟩, hx, hc'⟩ := callsW_node W root [] c hc
  refine ⟨q, nd, hx, ?_, nodeCalls_targets.1 ⟨c, nodeCallsW_sub hc', d, hd, ht⟩⟩
  intro h
  simp [nodeCallsW, h] at hc'

theorem write_at {E : Env} {root : Bld} {st : St} (hd : root.grp) (hg : Good E root) (hid : (ids root).Nodup)
    (he : st.err = none) (hq : st.queue = []) (hf : Fits root st) (hc : ClosedIn E root st) {n : Nat}
    (hn : turns ((callsW st.written [] root).map (fun c => (c, false))) < n) :
    ∃ f w, After E (nodesAt [] root) st.file f ∧ (∀ i, i ∈ w ↔ i ∈ st.written ∨ i ∈ ids root) ∧
      writeBuilder E n root st =
        ⟨applyAll E f (callsW st.written [] root ++ (callsW st.written [] root).flatMap Call.spawn), w, [], none⟩ := by
  obtain ⟨f, w, e, hw, hA⟩ := preRefs_at E root st hd hg hid he hf
  refine ⟨f, w ++ [root.id], hA, ?_, ?_⟩
  · intro i
    obtain ⟨id, name, isData, attrs, data, links, subs⟩ := root
    simp only [Bld.grp] at hd
    subst hd
    simp only [List.mem_append, hw, innerIds, ids, Bool.false_eq_true, if_false, Bld.id, or_assoc]
  · rw [write_pre, e, drain_ok n _ ?_ ?_ ?_]
    · simp [St.mark, List.map_map, Function.comp_def, he, hq]
    · exact he
    · intro c hm
      simp only [hq, List.nil_append, List.mem_map] at hm
      obtain ⟨c, hm, rfl⟩ := hm
      obtain ⟨⟨q, nd⟩, hx, hcc⟩ := callsW_node st.written root [] c hm
      have key : ∀ t, RefersNew st.written root t → Hard f (getPath E t) := by
        intro t ht
        rcases hc t ht with ⟨nd, h⟩ | h
        · exact hard_after_node hd hf hA h
        · exact hard_after_old hd hf hA h
      refine ⟨?_, fun t ht => key t (callsW_targets hm (Or.inl rfl) ht), fun d hd t ht => key t (callsW_targets hm (Or.inr hd) ht)⟩
      simp only [nodeCalls_path (nodeCallsW_sub hcc)]
      exact hard_after_node hd hf hA hx
    · simpa [hq] using hn

/-! ## Attributes of groups that are there already -/

theorem get?_putData {k : String} : ∀ (l : Dict String WAttr) (a : Dict String HVal), (Dict.keys l).Nodup →
    (putData l a).get? k = (match l.get? k with
      | some (.data d) => some (.data d)
      | _ => a.get? k) := by
  intro l
  induction l with
  | nil => intro a _; simp [putData, Dict.get?]
  | cons x l ih =>
    obtain ⟨k', v⟩ := x
    intro a hn
    simp only [Dict.keys, List.map_cons, List.nodup_cons] at hn
    have hnone : Dict.get? l k' = none := Dict.get?_eq_none_iff.2 hn.1
    cases v with
    | data d =>
      rw [putData, ih _ hn.2]
      by_cases e : k' = k
      · subst e
        rw [hnone]
        simp [Dict.get?, Dict.get?_set_self]
      · have e' : k ≠ k' := fun h => e h.symm
        simp only [Dict.get?, e, if_false, Dict.get?_set_ne e']
    | ref t =>
      rw [putData, ih _ hn.2]
      by_cases e : k' = k
      · subst e
        rw [hnone]
        simp [Dict.get?]
      · simp only [Dict.get?, e, if_false]

theorem foldRefs_get? {E : Env} {p : Path} {k : String} : ∀ (l : Dict String WAttr) (o : Obj), (Dict.keys l).Nodup →
    ((refCalls p l).foldl (fun o c => eff E c o) o).kind = o.kind ∧
    ((refCalls p l).foldl (fun o c => eff E c o) o).attrs.get? k = (match l.get? k with
      | some (.ref t) => some (.ref (getPath E t))
      | _ => o.attrs.get? k) := by
  intro l
  induction l with
  | nil => intro o _; simp [refCalls, Dict.get?]
  | cons x l ih =>
    obtain ⟨k', v⟩ := x
    intro o hn
    simp only [Dict.keys, List.map_cons, List.nodup_cons] at hn
    have hnone : Dict.get? l k' = none := Dict.get?_eq_none_iff.2 hn.1
    cases v with
    | data d =>
      have h1 : refCalls p ((k', .data d) :: l) = refCalls p l := by simp [refCalls]
      rw [h1]
      obtain ⟨h2, h3⟩ := ih o hn.2
      refine ⟨h2, h3.trans ?_⟩
      by_cases e : k' = k
      · subst e
        rw [hnone]
        simp [Dict.get?]
      · simp only [Dict.get?, e, if_false]
    | ref t =>
      have h1 : refCalls p ((k', .ref t) :: l) = .attr p k' t :: refCalls p l := by simp [refCalls]
      rw [h1, List.foldl_cons]
      obtain ⟨h2, h3⟩ := ih (eff E (.attr p k' t) o) hn.2
      refine ⟨h2, h3.trans ?_⟩
      by_cases e : k' = k
      · subst e
        rw [hnone]
        simp [Dict.get?, eff, Dict.get?_set_self]
      · have e' : k ≠ k' := fun h => e h.symm
        simp only [Dict.get?, e, if_false, eff, Dict.get?_set_ne e']

theorem refCalls_spawn {p : Path} {l : Dict String WAttr} : (refCalls p l).flatMap Call.spawn = [] := by
  refine spawn_spawn _ (fun d hd => ?_)
  obtain ⟨k, t, rfl, _⟩ := refCalls_mem hd
  rfl

theorem apply_at {E : Env} {root : Bld} {st : St} (hg : Good E root) {f : Dict Path Obj}
    (hA : After E (nodesAt [] root) st.file f) {q : Path} {nd : Bld} (h : (q, nd) ∈ nodesAt [] root) :
    (applyAll E f (callsW st.written [] root ++ (callsW st.written [] root).flatMap Call.spawn)).get? q =
      some ((nodeCallsW st.written q nd ++ (nodeCallsW st.written q nd).flatMap Call.spawn).foldl (fun o c => eff E c o)
        (midObj nd (st.file.get? q))) := by
  rw [get?_applyAll, hA.node _ h, List.filter_append, filter_spawn, callsW_filter E st.written root [] hg (q, nd) h]
  rfl

theorem apply_other {E : Env} {root : Bld} {st : St} {f : Dict Path Obj} {q : Path}
    (h : ¬ ∃ nd, (q, nd) ∈ nodesAt [] root) :
    (applyAll E f (callsW st.written [] root ++ (callsW st.written [] root).flatMap Call.spawn)).get? q = f.get? q := by
  have h0 : (callsW st.written [] root).filter (fun c => c.path = q) = [] := by
    refine filter_none ?_
    rintro c hc rfl
    obtain ⟨⟨p, nd⟩, hx, hcc⟩ := callsW_node st.written root [] c hc
    rw [nodeCalls_path (nodeCallsW_sub hcc)] at h
    exact h ⟨nd, hx⟩
  rw [get?_applyAll, List.filter_append, filter_spawn, h0]
  simp

end Verif.H5Write

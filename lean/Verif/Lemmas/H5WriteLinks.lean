import Verif.Lemmas.H5WriteAppend

/-!
# Writing builders to a file: what follows from success
-/

namespace Verif.H5Write
open Verif

/-- An error is not undone, and nothing is marked as written but `I`. -/
def Sound (I : List Nat) (st st' : St) : Prop :=
  st'.err = none → st.err = none ∧ ∀ i ∈ st'.written, i ∈ st.written ∨ i ∈ I

theorem sound_rfl {I : List Nat} {st : St} : Sound I st st := fun h => ⟨h, fun _ hi => Or.inl hi⟩

theorem sound_trans {I J : List Nat} {a b c : St} (h : Sound I a b) (h' : Sound J b c) : Sound (I ++ J) a c := by
  intro hc
  obtain ⟨h1, h2⟩ := h' hc
  obtain ⟨h3, h4⟩ := h h1
  refine ⟨h3, fun i hi => ?_⟩
  rcases h2 i hi with h5 | h5
  · rcases h4 i h5 with h6 | h6
    · exact Or.inl h6
    · exact Or.inr (List.mem_append_left _ h6)
  · exact Or.inr (List.mem_append_right _ h5)

theorem sound_raise {I : List Nat} {st : St} {e : Err} : Sound I st (st.raise e) := by
  intro h
  unfold St.raise at h ⊢
  split at h
  · rename_i h1
    rw [h] at h1; cases h1
  · cases h

theorem sound_create {st : St} {p : Path} {k : HKind} : Sound [] st (st.create p k) := by
  unfold St.create
  split
  · exact sound_rfl
  · split
    · exact sound_raise
    · exact fun h => ⟨h, fun _ hi => Or.inl hi⟩

theorem sound_modify {st : St} {p : Path} {f : Obj → Obj} : Sound [] st (st.modify p f) := by
  unfold St.modify
  split
  · exact sound_rfl
  · split
    · exact sound_raise
    · exact fun h => ⟨h, fun _ hi => Or.inl hi⟩

theorem sound_enqueue {st : St} {c : Call} : Sound [] st (st.enqueue c) := by
  unfold St.enqueue
  split
  · exact sound_rfl
  · exact fun h => ⟨h, fun _ hi => Or.inl hi⟩

theorem sound_mark {st : St} {i : Nat} : Sound [i] st (st.mark i) := by
  unfold St.mark
  split
  · exact sound_rfl
  · exact fun h => ⟨h, fun j hj => by
      rcases List.mem_append.1 hj with hj | hj
      · exact Or.inl hj
      · exact Or.inr hj⟩

theorem sound_require {st : St} {p : Path} : Sound [] st (st.require p) := by
  unfold St.require
  split
  · exact sound_rfl
  · split
    · exact fun h => ⟨h, fun _ hi => Or.inl hi⟩
    · split
      · exact sound_raise
      · exact sound_raise
      · exact sound_raise
      · exact sound_rfl

theorem sound_setAttributes {p : Path} : ∀ (l : Dict String WAttr) {st : St}, Sound [] st (setAttributes p l st)
  | [], _ => sound_rfl
  | (_, .data _) :: l, _ => sound_trans (I := []) (J := []) sound_modify (sound_setAttributes l)
  | (_, .ref _) :: l, _ => sound_trans (I := []) (J := []) sound_enqueue (sound_setAttributes l)

theorem sound_writeDataset {p : Path} {id : Nat} {attrs : Dict String WAttr} {data : WData} {st : St} :
    Sound [id] st (writeDataset p id attrs data st) := by
  unfold writeDataset
  split
  · exact sound_rfl
  · split
    · exact sound_trans (I := []) (J := [id]) (sound_trans (I := []) (J := []) sound_create (sound_setAttributes _)) sound_mark
    · exact sound_trans (I := [id]) (J := []) (sound_trans (I := []) (J := [id]) sound_require sound_mark) sound_enqueue

theorem sound_openGroup {p : Path} {id : Nat} {st : St} : Sound [] st (openGroup p id st) := by
  unfold openGroup
  split
  · split
    · exact sound_raise
    · exact sound_rfl
  · exact sound_create

/-- all links that are new are known -/
def Known (E : Env) (st : St) (ls : List WLink) : Prop := ∀ l ∈ ls, l.id ∉ st.written → linkKind E l ≠ none

theorem known_after {E : Env} {I : List Nat} {st st' : St} {ls : List WLink} (hs : Sound I st st') (he : st'.err = none)
    (hd : ∀ l ∈ ls, l.id ∉ I) (h : Known E st' ls) : Known E st ls := by
  intro l hl hw
  refine h l hl (fun hw' => ?_)
  rcases (hs he).2 _ hw' with h1 | h1
  · exact hw h1
  · exact hd l hl h1

theorem writeLinks_known {E : Env} {p : Path} : ∀ (ls : List WLink) (st : St), (ls.map WLink.id).Nodup →
    Sound (ls.map WLink.id) st (writeLinks E p ls st) ∧ ((writeLinks E p ls st).err = none → Known E st ls)
  | [], _, _ => ⟨sound_rfl, fun _ _ h => by cases h⟩
  | l :: ls, st, hn => by
    rw [List.map_cons, List.nodup_cons] at hn
    obtain ⟨h1, h2⟩ := writeLinks_known (E := E) (p := p) ls (writeLink E p l st) hn.2
    have hs : Sound [l.id] st (writeLink E p l st) := by
      unfold writeLink
      split
      · exact sound_rfl
      · split
        · exact sound_raise
        · exact sound_trans (I := []) (J := [l.id]) sound_create sound_mark
    refine ⟨sound_trans hs h1, fun he => ?_⟩
    have he1 := (h1 he).1
    have hk := known_after hs he1 (fun l' hl' h => hn.1 (by
      rw [List.mem_singleton] at h
      rw [← h]
      exact List.mem_map_of_mem hl')) (h2 he)
    intro l' hl' hw
    rcases List.mem_cons.1 hl' with rfl | hl'
    · intro hnone
      have h3 : writeLink E p l' st = st.raise .value := by
        unfold writeLink
        rw [if_neg hw, hnone]
      rw [h3] at he1
      have h4 := (sound_raise (I := []) he1).1
      simp [St.raise, h4] at he1
    · exact hk l' hl' hw

/-- the links of the groups among some builders -/
def linksOf (ns : List (Path × Bld)) : List WLink := ns.flatMap (fun x => if x.2.isData then [] else x.2.links)

theorem linksOf_append (a b : List (Path × Bld)) : linksOf (a ++ b) = linksOf a ++ linksOf b := List.flatMap_append

theorem mem_linksOf {ns : List (Path × Bld)} {l : WLink} :
    l ∈ linksOf ns ↔ ∃ x ∈ ns, x.2.isData = false ∧ l ∈ x.2.links := by
  unfold linksOf
  rw [List.mem_flatMap]
  constructor
  · rintro ⟨x, hx, h⟩
    split at h
    · cases h
    · rename_i hd
      exact ⟨x, hx, by simpa using hd, h⟩
  · rintro ⟨x, hx, hd, h⟩
    exact ⟨x, hx, by simpa [hd] using h⟩

theorem linksOf_ids {t : Bld} {p : Path} {l : WLink} (h : l ∈ linksOf (nodesAt p t)) : l.id ∈ ids t := by
  obtain ⟨⟨q, nd⟩, hx, hd, h⟩ := mem_linksOf.1 h
  exact link_ids ⟨q, nd, hx, hd, h, rfl⟩

theorem linksOfL_ids {ts : List Bld} {p : Path} {l : WLink} (h : l ∈ linksOf (nodesAtL p ts)) : l.id ∈ idsL ts := by
  obtain ⟨⟨q, nd⟩, hx, hd, h⟩ := mem_linksOf.1 h
  exact linkL_ids ⟨q, nd, hx, hd, h, rfl⟩

theorem sound_mono {I J : List Nat} {a b : St} (h : Sound I a b) (hij : ∀ i ∈ I, i ∈ J) : Sound J a b :=
  fun he => ⟨(h he).1, fun i hi => ((h he).2 i hi).imp id (hij i)⟩

mutual
theorem writeNode_known (E : Env) : ∀ (t : Bld) (p : Path) (st : St), (ids t).Nodup →
    Sound (ids t) st (writeNode E p t st) ∧
    ((writeNode E p t st).err = none → Known E st (linksOf (nodesAt (t.name :: p) t)))
  | .node id name isData attrs data links subs, p, st, hn => by
    unfold writeNode ids nodesAt
    unfold ids at hn
    cases isData with
    | true =>
      simp only [if_true]
      exact ⟨sound_writeDataset, fun _ l hl => by simp [linksOf, Bld.isData] at hl⟩
    | false =>
      simp only [Bool.false_eq_true, if_false] at hn ⊢
      obtain ⟨hn1, _, _⟩ := List.nodup_append.1 hn
      obtain ⟨hn2, hn3, hn4⟩ := List.nodup_append.1 hn1
      obtain ⟨h1, h2⟩ := writeNodes_known E subs (name :: p) (openGroup (name :: p) id st) hn2
      obtain ⟨h3, h4⟩ := writeLinks_known (E := E) (p := name :: p) links _ hn3
      have s0 := sound_openGroup (p := name :: p) (id := id) (st := st)
      have s1 := sound_trans s0 h1
      have s2 := sound_trans s1 h3
      have s3 := sound_trans (sound_trans s2 (sound_setAttributes (p := name :: p) attrs)) (sound_mark (i := id))
      refine ⟨sound_mono s3 (fun i hi => by simpa using hi), fun he => ?_⟩
      have he3 := (sound_mark (i := id) he).1
      have he2 := (sound_setAttributes (p := name :: p) attrs he3).1
      have he1 := (h3 he2).1
      intro l hl hw
      simp only [Bld.name] at hl
      rw [show (name :: p, Bld.node id name false attrs data links subs) :: nodesAtL (name :: p) subs =
        [(name :: p, Bld.node id name false attrs data links subs)] ++ nodesAtL (name :: p) subs from rfl,
        linksOf_append] at hl
      rcases List.mem_append.1 hl with hl | hl
      · have hl' : l ∈ links := by simpa [linksOf, Bld.isData, Bld.links] using hl
        refine known_after s1 he1 (fun l' hl' h => ?_) (h4 he2) l hl' hw
        exact hn4 _ (by simpa using h) _ (List.mem_map_of_mem hl') rfl
      · exact known_after s0 (h1 he1).1 (by simp) (h2 he1) l hl hw

theorem writeNodes_known (E : Env) : ∀ (ts : List Bld) (p : Path) (st : St), (idsL ts).Nodup →
    Sound (idsL ts) st (writeNodes E p ts st) ∧
    ((writeNodes E p ts st).err = none → Known E st (linksOf (nodesAtL p ts)))
  | [], _, _, _ => ⟨sound_rfl, fun _ l hl => by simp [nodesAtL, linksOf] at hl⟩
  | t :: ts, p, st, hn => by
    unfold writeNodes idsL nodesAtL
    unfold idsL at hn
    obtain ⟨hn1, hn2, hn3⟩ := List.nodup_append.1 hn
    obtain ⟨h1, h2⟩ := writeNode_known E t p st hn1
    obtain ⟨h3, h4⟩ := writeNodes_known E ts p (writeNode E p t st) hn2
    refine ⟨sound_trans h1 h3, fun he => ?_⟩
    intro l hl hw
    rw [linksOf_append] at hl
    rcases List.mem_append.1 hl with hl | hl
    · exact h2 (h3 he).1 l hl hw
    · exact known_after h1 (h3 he).1 (fun l' hl' h => hn3 _ h _ (linksOfL_ids hl') rfl) (h4 he) l hl hw
end

theorem drain_err {E : Env} : ∀ (n : Nat) {st : St}, (drain E n st).err = none → st.err = none
  | 0, st, h => (sound_raise (I := []) h).1
  | n + 1, st, h => by
    cases he : st.err with
    | none => rfl
    | some e =>
      unfold drain at h
      simp [he] at h

/-- If a tree is written with success, every link that is new knows its file. -/
theorem write_known {E : Env} {n : Nat} {root : Bld} {st : St} (hd : root.grp) (hid : (ids root).Nodup)
    (he : (writeBuilder E n root st).err = none) : Known E st (linksOf (nodesAt [] root)) := by
  obtain ⟨id, name, isData, attrs, data, links, subs⟩ := root
  simp only [Bld.grp] at hd
  subst hd
  unfold writeBuilder at he
  unfold ids at hid
  simp only [Bool.false_eq_true, if_false] at hid
  obtain ⟨hn1, _, _⟩ := List.nodup_append.1 hid
  obtain ⟨hn2, hn3, hn4⟩ := List.nodup_append.1 hn1
  obtain ⟨h1, h2⟩ := writeNodes_known E subs [] st hn2
  obtain ⟨h3, h4⟩ := writeLinks_known (E := E) (p := []) links (writeNodes E [] subs st) hn3
  have he2 := (sound_setAttributes (p := []) attrs (drain_err n (sound_mark (i := id) he).1)).1
  have he1 := (h3 he2).1
  intro l hl hw
  unfold nodesAt at hl
  simp only [Bool.false_eq_true, if_false] at hl
  rw [show (([] : Path), Bld.node id name false attrs data links subs) :: nodesAtL [] subs =
    [([], Bld.node id name false attrs data links subs)] ++ nodesAtL [] subs from rfl, linksOf_append] at hl
  rcases List.mem_append.1 hl with hl | hl
  · have hl' : l ∈ links := by simpa [linksOf, Bld.isData, Bld.links] using hl
    refine known_after h1 he1 (fun l' hl' h => ?_) (h4 he2) l hl' hw
    exact hn4 _ h _ (List.mem_map_of_mem hl') rfl
  · exact h2 he1 l hl hw

end Verif.H5Write

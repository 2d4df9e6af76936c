import Verif.Lemmas.H5WriteLinks

/-!
# Writing builders to a file: properties
-/

namespace Verif.H5Write
open Verif

/-! ## Checking that a tree fits, used in the examples -/

instance (f : Dict Path Obj) (q : Path) : Decidable (Hard f q) :=
  match h : f.get? q with
  | none => isFalse (by rintro ⟨o, ho, _⟩; rw [h] at ho; cases ho)
  | some o => by
    cases hk : o.kind with
    | soft p => exact isFalse (by rintro ⟨o', ho, h1, _⟩; rw [h] at ho; cases ho; exact h1 p hk)
    | ext s p => exact isFalse (by rintro ⟨o', ho, _, h1⟩; rw [h] at ho; cases ho; exact h1 s p hk)
    | group => exact isTrue ⟨o, h, by simp [hk]⟩
    | data d => exact isTrue ⟨o, h, by simp [hk]⟩
    | nulls => exact isTrue ⟨o, h, by simp [hk]⟩
    | refs l => exact isTrue ⟨o, h, by simp [hk]⟩
    | sref p => exact isTrue ⟨o, h, by simp [hk]⟩

/-- what a builder refers to -/
def refsOf (nd : Bld) : List Nat :=
  nd.attrs.filterMap (fun q => match q.2 with | .data _ => none | .ref t => some t) ++
    (if nd.isData then nd.data.targets else [])

theorem mem_refsOf {nd : Bld} {t : Nat} :
    ((∃ k, (k, WAttr.ref t) ∈ nd.attrs) ∨ nd.isData = true ∧ t ∈ nd.data.targets) → t ∈ refsOf nd := by
  rintro (⟨k, h⟩ | ⟨h1, h2⟩)
  · exact List.mem_append_left _ (List.mem_filterMap.2 ⟨_, h, rfl⟩)
  · exact List.mem_append_right _ (by simpa [h1] using h2)

theorem closed_of {E : Env} {root : Bld}
    (h : ∀ x ∈ nodesAt [] root, ∀ t ∈ refsOf x.2, getPath E t ∈ (nodesAt [] root).map Prod.fst) : Closed E root := by
  rintro t ⟨q, nd, hm, hr⟩
  obtain ⟨⟨a, b⟩, h1, h2⟩ := List.mem_map.1 (h _ hm t (mem_refsOf hr))
  exact ⟨b, by simp only at h2; rw [← h2]; exact h1⟩

theorem closedIn_of {E : Env} {root : Bld} {st : St}
    (h : ∀ x ∈ nodesAt [] root, ¬ (x.2.isData = true ∧ x.2.id ∈ st.written) → ∀ t ∈ refsOf x.2,
      getPath E t ∈ (nodesAt [] root).map Prod.fst ∨ Hard st.file (getPath E t)) : ClosedIn E root st := by
  rintro t ⟨q, nd, hm, hn, hr⟩
  rcases h _ hm hn t (mem_refsOf hr) with h | h
  · obtain ⟨⟨a, b⟩, h1, h2⟩ := List.mem_map.1 h
    exact Or.inl ⟨b, by simp only at h2; rw [← h2]; exact h1⟩
  · exact Or.inr h

theorem fits_of {root : Bld} {st : St} (h1 : st.file.get? [] = some ⟨.group, []⟩)
    (h2 : ∀ x ∈ innerNodes root, (x.2.id ∈ st.written → Hard st.file x.1) ∧ (x.2.id ∉ st.written → st.file.get? x.1 = none))
    (h3 : ∀ x ∈ nodesAt [] root, x.2.isData = false → ∀ l ∈ x.2.links,
      (l.id ∈ st.written → st.file.get? (l.name :: x.1) ≠ none) ∧ (l.id ∉ st.written → st.file.get? (l.name :: x.1) = none))
    (hd : root.grp) : Fits root st := by
  have key : ∀ q l, LinkAt (nodesAt [] root) q l →
      (l.id ∈ st.written → ∃ o, st.file.get? q = some o) ∧ (l.id ∉ st.written → st.file.get? q = none) := by
    rintro q l ⟨p, nd, hm, hd, hl, rfl⟩
    obtain ⟨a, b⟩ := h3 _ hm hd l hl
    exact ⟨fun h => Option.ne_none_iff_exists'.1 (a h), b⟩
  refine ⟨⟨_, h1, rfl⟩, ⟨h2, ?_⟩, key⟩
  rintro q l ⟨p, nd, hm, h⟩
  exact key q l ⟨p, nd, by rw [nodes_cons root hd]; exact List.mem_cons_of_mem _ hm, h⟩

/-! ## A tree that can be written, used in the examples -/

/-- A root with a group `g` that holds a dataset `d` and refers to `t`, a dataset `t` that refers to `g`, a dataset `r` of
references, a dataset `s` that is a reference, a link `l` to `/g/d` and a link `x` to another file. -/
def exTree : Bld :=
  .node 0 "root" false [] (.data "")
    [⟨6, "l", 2⟩, ⟨7, "x", 8⟩]
    [.node 1 "g" false [("unit", .data "mV"), ("about", .ref 3)] (.data "") []
      [.node 2 "d" true [] (.data "[1, 2]") [] []],
     .node 3 "t" true [("up", .ref 1)] (.data "5") [] [],
     .node 4 "r" true [("n", .data "2"), ("first", .ref 1)] (.refs [1, 2]) [] [],
     .node 5 "s" true [] (.sref 3) [] []]

/-- where the builders of `exTree` are; number 8 is one of another file, number 9 has no parent -/
def exMeta : Nat → Meta
  | 1 => ⟨"g", ["g"], none, some "a.h5"⟩
  | 2 => ⟨"d", ["d", "g"], none, some "a.h5"⟩
  | 3 => ⟨"t", ["t"], none, some "a.h5"⟩
  | 4 => ⟨"r", ["r"], none, some "a.h5"⟩
  | 5 => ⟨"s", ["s"], none, some "a.h5"⟩
  | 8 => ⟨"t", [], some [], some "b.h5"⟩
  | 9 => ⟨"lost", [], none, none⟩
  | 10 => ⟨"n", ["n"], none, some "a.h5"⟩
  | 11 => ⟨"m", ["m", "n"], none, some "a.h5"⟩
  | _ => ⟨"root", [], none, some "a.h5"⟩

/-- the file `a.h5` is written -/
def exEnv : Env := ⟨exMeta, fun _ => some "a.h5", "a.h5", none⟩

theorem exTree_good : Good exEnv exTree := by
  simp [exTree, Good, GoodL, Dict.keys, Bld.name, linkKind, writeSource, exEnv, exMeta]

theorem exTree_closed : Closed exEnv exTree := closed_of (by decide +kernel)

theorem exTree_ids : (ids exTree).Nodup := by decide +kernel

/-! ## C129 -/

/-- the content of a builder's object: the data, or the references to where the builders are -/
def shownKind (E : Env) (nd : Bld) : HKind :=
  if nd.isData then
    match nd.data with
    | .data d => .data d
    | .refs l => .refs (l.map (getPath E))
    | .sref t => .sref (getPath E t)
  else .group

/-- An HDF5 object shows a builder: it is of the same kind, has its data, and its attributes and no others. -/
def Shows (E : Env) (nd : Bld) (o : Obj) : Prop :=
  o.kind = shownKind E nd ∧ ∀ k, o.attrs.get? k = (nd.attrs.get? k).map (fun v => match v with
    | .data d => HVal.data d
    | .ref t => HVal.ref (getPath E t))

theorem shows_final {E : Env} {nd : Bld} (hn : (Dict.keys nd.attrs).Nodup) : Shows E nd (finalObj E nd) := by
  refine ⟨?_, fun k => ?_⟩
  · unfold finalObj shownKind
    split
    · cases nd.data <;> rfl
    · rfl
  · simp only [finalObj]
    rw [final_attrs hn]
    cases nd.attrs.get? k with
    | none => rfl
    | some v => cases v <;> rfl

/-- Writing a tree to a new file: it succeeds, every group and dataset of the tree is at its path with its content and
attributes, every link is at its path, there is nothing else in the file, and no call is left in the queue.

Missing: that a write which fails leaves nothing in the file; see `C129_all_or_nothing_fails`. -/
theorem C129_new_file_partial (E : Env) (root : Bld) (hd : root.grp) (hg : Good E root) (hid : (ids root).Nodup)
    (hc : Closed E root) : ∃ N, ∀ n, N ≤ n →
    let st := writeBuilder E n root newFile
    st.err = none ∧ st.queue = [] ∧
    (∀ q nd, (q, nd) ∈ nodesAt [] root → ∃ o, st.file.get? q = some o ∧ Shows E nd o) ∧
    (∀ q l, LinkAt (nodesAt [] root) q l → ∃ k, linkKind E l = some k ∧ st.file.get? q = some ⟨k, []⟩) ∧
    (∀ q o, st.file.get? q = some o → (∃ nd, (q, nd) ∈ nodesAt [] root) ∨ ∃ l, LinkAt (nodesAt [] root) q l) := by
  refine ⟨turns ((calls [] root).map (fun c => (c, false))) + 1, fun n hn => ?_⟩
  have h := write_new hd hg hid hc (n := n) (by omega)
  simp only [h]
  refine ⟨trivial, trivial, ?_, ?_, ?_⟩
  · intro q nd hm
    exact ⟨_, apply_node hg hm, shows_final (good_attrs E root [] hg _ hm)⟩
  · intro q l hl
    refine ⟨(linkKind E l).getD .group, ?_, apply_link hg hl⟩
    obtain ⟨p, nd, hm, hdd, hl', _⟩ := hl
    have := good_links E root [] hg _ hm hdd l hl'
    cases hk : linkKind E l with
    | none => exact absurd hk this
    | some k => rfl
  · intro q o ho
    have hk := Dict.mem_keys_of_mem (Dict.mem_of_get? ho)
    rw [keys_applyAll] at hk
    obtain ⟨⟨a, b⟩, hm, rfl⟩ := List.mem_map.1 hk
    rcases entries_cases E root [] _ hm with ⟨nd, h1, _⟩ | ⟨l, h1, _⟩
    · exact Or.inl ⟨nd, h1⟩
    · exact Or.inr ⟨l, h1⟩

example : ∃ N, ∀ n, N ≤ n →
    let st := writeBuilder exEnv n exTree newFile
    st.err = none ∧ st.queue = [] :=
  let ⟨N, h⟩ := C129_new_file_partial exEnv exTree rfl exTree_good exTree_ids exTree_closed
  ⟨N, fun n hn => ⟨(h n hn).1, (h n hn).2.1⟩⟩

example : (writeBuilder exEnv 20 exTree newFile).err = none ∧
    (writeBuilder exEnv 20 exTree newFile).file.get? ["r"] =
      some ⟨.refs [["g"], ["d", "g"]], [("n", .data "2"), ("first", .ref ["g"])]⟩ ∧
    (writeBuilder exEnv 20 exTree newFile).file.get? ["x"] = some ⟨.ext "b.h5" ["t"], []⟩ := by decide +kernel

/-- a group that holds a link and a dataset of one name -/
def twiceTree : Bld :=
  .node 0 "root" false [] (.data "") [⟨6, "t", 3⟩]
    [.node 3 "t" true [] (.data "5") [] []]

/-- A write that fails leaves what it has written in the file. -/
theorem C129_all_or_nothing_fails : (writeBuilder exEnv 20 twiceTree newFile).err = some .taken ∧
    (writeBuilder exEnv 20 twiceTree newFile).file.get? ["t"] = some ⟨.data "5", []⟩ := by decide +kernel

/-! ## C130 -/

/-- A tree that is written to a new file is written with success if and only if there is a group or dataset of the tree at
every path that a reference leads to; else there is a `RuntimeError`, however often the calls are tried. -/
theorem C130_success_iff (E : Env) (root : Bld) (hd : root.grp) (hg : Good E root) (hid : (ids root).Nodup) :
    ∃ N, ∀ n, N ≤ n →
    ((writeBuilder E n root newFile).err = none ↔ Closed E root) ∧
    (¬ Closed E root → (writeBuilder E n root newFile).err = some .runtime) := by
  let q := (calls [] root).map (fun c => (c, false))
  refine ⟨turns q + turns2 q + 1, fun n hn => ?_⟩
  have hmark : ∀ (st : St) (i : Nat), (st.mark i).err = st.err := by
    intro st i
    unfold St.mark
    split <;> rfl
  have hpath : ∀ c ∈ q, Hard (entries E [] root) c.1.path := by
    intro c hm
    obtain ⟨c, hm', rfl⟩ := List.mem_map.1 hm
    obtain ⟨⟨a, nd⟩, hx, hcc⟩ := calls_node root [] c hm'
    refine (hard_entries hg _).2 ⟨nd, ?_⟩
    simp only [nodeCalls_path hcc]
    exact hx
  have hbad : ¬ Closed E root → (writeBuilder E n root newFile).err ≠ none := by
    intro hnc
    rw [write_pre, hmark, preRefs_new E root hd hg hid]
    refine drain_bad n _ hpath ?_
    refine Classical.byContradiction (fun hne => hnc ?_)
    intro t ht
    obtain ⟨c, hc, d, hdd, htt⟩ := calls_targets.2 ht
    refine Classical.byContradiction (fun hnn => hne ?_)
    exact ⟨(c, false), List.mem_map_of_mem hc, d, hdd, t, htt, fun h => hnn ((hard_entries hg _).1 h)⟩
  have hok : Closed E root → (writeBuilder E n root newFile).err = none := by
    intro hc
    rw [write_new hd hg hid hc (n := n) (by show turns q < n; omega)]
  refine ⟨⟨fun h => ?_, hok⟩, fun hnc => ?_⟩
  · exact Classical.byContradiction (fun hnc => hbad hnc h)
  · have h1 := hbad hnc
    rw [write_pre, hmark, preRefs_new E root hd hg hid] at h1 ⊢
    rcases drain_runtime n ⟨entries E [] root, innerIds root, q, none⟩ rfl hpath (by show turns2 q < n; omega) with h | h
    · exact absurd h h1
    · exact h

/-- a tree that refers to a builder that is not in it -/
def openTree : Bld :=
  .node 0 "root" false [] (.data "") []
    [.node 3 "t" true [("up", .ref 1)] (.data "5") [] []]

example : Closed exEnv exTree ∧ (writeBuilder exEnv 20 openTree newFile).err = some .runtime :=
  ⟨exTree_closed, by decide +kernel⟩

/-- Once a tree is written with success, no dataset of references is left unfilled and every reference in the file leads to
a group or dataset of the file. -/
theorem C130_none_dangling (E : Env) (root : Bld) (hd : root.grp) (hg : Good E root) (hid : (ids root).Nodup) :
    ∃ N, ∀ n, N ≤ n → (writeBuilder E n root newFile).err = none →
    ∀ q o, (writeBuilder E n root newFile).file.get? q = some o →
      o.kind ≠ .nulls ∧
      (∀ k p, (k, HVal.ref p) ∈ o.attrs → Hard (writeBuilder E n root newFile).file p) ∧
      (∀ l, o.kind = .refs l → ∀ p ∈ l, Hard (writeBuilder E n root newFile).file p) ∧
      (∀ p, o.kind = .sref p → Hard (writeBuilder E n root newFile).file p) := by
  obtain ⟨N, hN⟩ := C130_success_iff E root hd hg hid
  refine ⟨N + turns ((calls [] root).map (fun c => (c, false))) + 1, fun n hn he q o ho => ?_⟩
  have hc := (hN n (by omega)).1.1 he
  have h := write_new hd hg hid hc (n := n) (by omega)
  have hnode : ∀ q nd, (q, nd) ∈ nodesAt [] root →
      (writeBuilder E n root newFile).file.get? q = some (finalObj E nd) := by
    intro q nd hm
    rw [h]
    exact apply_node hg hm
  have hhard : ∀ t, Refers root t → Hard (writeBuilder E n root newFile).file (getPath E t) := by
    intro t ht
    obtain ⟨nd, hm⟩ := hc t ht
    refine ⟨_, hnode _ _ hm, ?_⟩
    unfold finalObj
    split
    · exact kindOf_hard nd.data
    · simp
  have hcase : (∃ nd, (q, nd) ∈ nodesAt [] root ∧ o = finalObj E nd) ∨ (∃ k, o = ⟨k, []⟩ ∧ ((∃ p, k = .soft p) ∨ ∃ s p, k = .ext s p)) := by
    have hk := Dict.mem_keys_of_mem (Dict.mem_of_get? ho)
    rw [h, keys_applyAll] at hk
    obtain ⟨⟨a, b⟩, hm, rfl⟩ := List.mem_map.1 hk
    rcases entries_cases E root [] _ hm with ⟨nd, h1, _⟩ | ⟨l, h1, _⟩
    · rw [hnode _ _ h1] at ho
      exact Or.inl ⟨nd, h1, (Option.some.inj ho).symm⟩
    · have h2 := apply_link (E := E) hg h1
      rw [h] at ho
      simp only at ho h2
      rw [h2] at ho
      obtain ⟨p, nd, hm', hdd, hl', _⟩ := h1
      have hkk := good_links E root [] hg _ hm' hdd l hl'
      cases hkl : linkKind E l with
      | none => exact absurd hkl hkk
      | some k =>
        refine Or.inr ⟨k, ?_, linkKind_soft hkl⟩
        rw [← Option.some.inj ho]
        simp [linkObj, hkl]
  rcases hcase with ⟨nd, hm, rfl⟩ | ⟨k, rfl, hk⟩
  · have hk : ∀ k', (finalObj E nd).kind = k' → k' = shownKind E nd := by
      intro k' hk'
      rw [← hk']
      exact (shows_final (good_attrs E root [] hg _ hm)).1
    refine ⟨?_, ?_, ?_, ?_⟩
    · intro h0
      have := hk _ h0
      unfold shownKind at this
      split at this
      · split at this <;> cases this
      · cases this
    · intro k p hp
      simp only [finalObj, List.mem_append, dataAttrs, refAttrs, List.mem_filterMap] at hp
      rcases hp with ⟨⟨k', v⟩, hm', hv⟩ | ⟨⟨k', v⟩, hm', hv⟩
      · cases v <;> simp at hv
      · cases v with
        | data d => simp at hv
        | ref t =>
          simp at hv
          rw [← hv.2]
          exact hhard t ⟨q, nd, hm, Or.inl ⟨k', hm'⟩⟩
    · intro l h0 p hp
      have := hk _ h0
      unfold shownKind at this
      split at this
      · rename_i hdd
        split at this
        · cases this
        · rename_i l' hl'
          cases this
          obtain ⟨t, ht, rfl⟩ := List.mem_map.1 hp
          exact hhard t ⟨q, nd, hm, Or.inr ⟨hdd, by rw [hl']; exact ht⟩⟩
        · cases this
      · cases this
    · intro p h0
      have := hk _ h0
      unfold shownKind at this
      split at this
      · rename_i hdd
        split at this
        · cases this
        · cases this
        · rename_i t ht'
          cases this
          exact hhard t ⟨q, nd, hm, Or.inr ⟨hdd, by rw [ht']; simp [WData.targets]⟩⟩
      · cases this
  · rcases hk with ⟨p, rfl⟩ | ⟨s, p, rfl⟩ <;> simp

example : (writeBuilder exEnv 20 exTree newFile).err = none ∧
    (writeBuilder exEnv 20 exTree newFile).file.get? ["s"] = some ⟨.sref ["t"], []⟩ := by decide +kernel

/-- the builders of the tree know their places: by their parents, or by their location -/
def Placed (E : Env) (root : Bld) : Prop :=
  ∀ q nd, (q, nd) ∈ nodesAt [] root →
    ((E.info nd.id).location = none ∧ (E.info nd.id).chain = q) ∨
    ∃ l, (E.info nd.id).location = some l ∧ q = (E.info nd.id).name :: l

theorem placed_path {E : Env} {root : Bld} (h : Placed E root) {q : Path} {nd : Bld} (hm : (q, nd) ∈ nodesAt [] root) :
    getPath E nd.id = q := by
  unfold getPath
  rcases h q nd hm with ⟨h1, h2⟩ | ⟨l, h1, h2⟩
  · simp [h1, h2]
  · simp [h1, h2]

/-- A tree that refers only to its own builders, which know their places, can be written, and each reference leads to the
very builder.

Missing: references to other builders; see the failures below. -/
theorem C130_leads_to_target_partial (E : Env) (root : Bld) (hd : root.grp) (hg : Good E root) (hid : (ids root).Nodup)
    (hp : Placed E root) (hr : ∀ t, Refers root t → ∃ q nd, (q, nd) ∈ nodesAt [] root ∧ nd.id = t) :
    ∃ N, ∀ n, N ≤ n →
    let st := writeBuilder E n root newFile
    st.err = none ∧
    ∀ q nd q' nd', (q, nd) ∈ nodesAt [] root → (q', nd') ∈ nodesAt [] root →
      (∀ k, nd.attrs.get? k = some (.ref nd'.id) →
        ∃ o o', st.file.get? q = some o ∧ o.attrs.get? k = some (.ref q') ∧ st.file.get? q' = some o' ∧ Shows E nd' o') ∧
      (nd.isData = true → nd.data = .sref nd'.id →
        ∃ o o', st.file.get? q = some o ∧ o.kind = .sref q' ∧ st.file.get? q' = some o' ∧ Shows E nd' o') ∧
      (∀ (l : List Nat) (i : Nat), nd.isData = true → nd.data = .refs l → l[i]? = some nd'.id →
        ∃ (o o' : Obj) (ps : List Path), st.file.get? q = some o ∧ o.kind = .refs ps ∧ ps[i]? = some q' ∧ st.file.get? q' = some o' ∧
          Shows E nd' o') := by
  have hc : Closed E root := by
    intro t ht
    obtain ⟨q, nd, hm, rfl⟩ := hr t ht
    exact ⟨nd, by rw [placed_path hp hm]; exact hm⟩
  obtain ⟨N, hN⟩ := C129_new_file_partial E root hd hg hid hc
  refine ⟨N, fun n hn => ?_⟩
  obtain ⟨h1, _, h2, _⟩ := hN n hn
  refine ⟨h1, ?_⟩
  intro q nd q' nd' hm hm'
  obtain ⟨o, ho, hs⟩ := h2 q nd hm
  obtain ⟨o', ho', hs'⟩ := h2 q' nd' hm'
  have hpq := placed_path hp hm'
  refine ⟨?_, ?_, ?_⟩
  · intro k hk
    refine ⟨o, o', ho, ?_, ho', hs'⟩
    rw [hs.2 k, hk]
    simp [hpq]
  · intro hdd hk
    refine ⟨o, o', ho, ?_, ho', hs'⟩
    rw [hs.1]
    simp [shownKind, hdd, hk, hpq]
  · intro l i hdd hk hi
    refine ⟨o, o', l.map (getPath E), ho, ?_, ?_, ho', hs'⟩
    · rw [hs.1]
      simp [shownKind, hdd, hk]
    · simp [hi, hpq]

theorem exTree_placed : Placed exEnv exTree := by
  have h : ∀ x ∈ nodesAt [] exTree, (exEnv.info x.2.id).location = none ∧ (exEnv.info x.2.id).chain = x.1 := by decide +kernel
  intro q nd hm
  exact Or.inl (h _ hm)

theorem exTree_inside : ∀ t, Refers exTree t → ∃ q nd, (q, nd) ∈ nodesAt [] exTree ∧ nd.id = t := by
  have h : ∀ x ∈ nodesAt [] exTree, ∀ t ∈ refsOf x.2, t ∈ (nodesAt [] exTree).map (fun x => x.2.id) := by decide +kernel
  rintro t ⟨q, nd, hm, hr⟩
  obtain ⟨⟨a, b⟩, h1, h2⟩ := List.mem_map.1 (h _ hm t (mem_refsOf hr))
  exact ⟨a, b, h1, h2⟩

example : ∃ N, ∀ n, N ≤ n → (writeBuilder exEnv n exTree newFile).err = none :=
  let ⟨N, h⟩ := C130_leads_to_target_partial exEnv exTree rfl exTree_good exTree_ids exTree_placed exTree_inside
  ⟨N, fun n hn => (h n hn).1⟩

/-- a tree with a reference to a builder without a parent, number 9 -/
def orphanTree : Bld :=
  .node 0 "root" false [] (.data "") [] [.node 3 "t" true [("up", .ref 9)] (.data "5") [] []]

/-- A reference to a builder that has no parent, and is nowhere in the file, is written as a reference to the root. -/
theorem C130_orphan_fails : (writeBuilder exEnv 20 orphanTree newFile).err = none ∧
    (writeBuilder exEnv 20 orphanTree newFile).file.get? ["t"] = some ⟨.data "5", [("up", .ref [])]⟩ ∧
    ∀ x ∈ nodesAt [] orphanTree, x.2.id ≠ 9 := by decide +kernel

/-- a tree with a reference to a builder of another file, number 8, which is at `/t` there -/
def foreignTree : Bld :=
  .node 0 "root" false [] (.data "") []
    [.node 1 "g" false [("about", .ref 8)] (.data "") [] [], .node 3 "t" true [] (.data "5") [] []]

/-- A reference to a builder of another file is written as a reference to whatever is at that path in this file. -/
theorem C130_other_file_fails : (writeBuilder exEnv 20 foreignTree newFile).err = none ∧
    (exEnv.info 8).source ≠ some exEnv.fname ∧
    (writeBuilder exEnv 20 foreignTree newFile).file.get? ["g"] = some ⟨.group, [("about", .ref ["t"])]⟩ ∧
    (writeBuilder exEnv 20 foreignTree newFile).file.get? ["t"] = some ⟨.data "5", []⟩ ∧
    ∀ x ∈ nodesAt [] foreignTree, x.2.id ≠ 8 := by decide +kernel

/-! ## C131 -/

/-- Writing to a file in which there is something, whatever the tree and whether or not it succeeds: everything stays; no
content is changed but that of a dataset of references which the tree holds and which this object has not written; no
attribute is changed but those a group of the tree, or such a dataset, sets.

Missing: that nothing at all is changed but what is new; see `C131_references_fails`. -/
theorem C131_nothing_lost_partial (E : Env) (n : Nat) (root : Bld) (hd : root.grp) (st : St) (hq : st.queue = [])
    (q : Path) (o : Obj) (ho : st.file.get? q = some o) :
    ∃ o', (writeBuilder E n root st).file.get? q = some o' ∧
      ((∀ nd, (q, nd) ∈ nodesAt [] root → nd.isData = true → (∃ d, nd.data = .data d) ∨ nd.id ∈ st.written) →
        o'.kind = o.kind) ∧
      ∀ k, (∀ nd, (q, nd) ∈ nodesAt [] root → k ∈ Dict.keys nd.attrs →
          nd.isData = true ∧ ((∃ d, nd.data = .data d) ∨ nd.id ∈ st.written)) →
        o'.attrs.get? k = o.attrs.get? k := by
  let D : Path → Prop := fun q => ∃ nd, (q, nd) ∈ nodesAt [] root ∧ nd.isData = true ∧ nd.data.isRef = true ∧ nd.id ∉ st.written
  let A : Path → String → Prop := fun q k => ∃ nd, (q, nd) ∈ nodesAt [] root ∧ k ∈ Dict.keys nd.attrs ∧
    (nd.isData = true → nd.data.isRef = true ∧ nd.id ∉ st.written)
  have h := keep_write (E := E) (n := n) (A := A) (D := D) hd hq (fun x hx => by
    refine ⟨fun hdd k hk => ⟨x.2, hx, hk, by simp [hdd]⟩, fun hdd hr hw => ⟨⟨x.2, hx, hdd, hr, hw⟩, fun k hk => ⟨x.2, hx, hk, fun _ => ⟨hr, hw⟩⟩⟩⟩)
  obtain ⟨o', h1, h2, h3⟩ := h.obj q o ho
  have hr : ∀ d : WData, (∃ s, d = .data s) → d.isRef = false := by rintro d ⟨s, rfl⟩; rfl
  refine ⟨o', h1, fun hk => h2 ?_, fun k hk => h3 k ?_⟩
  · rintro ⟨nd, hm, hdd, hrr, hw⟩
    rcases hk nd hm hdd with h | h
    · rw [hr _ h] at hrr; cases hrr
    · exact hw h
  · rintro ⟨nd, hm, hkk, hdd⟩
    obtain ⟨h4, h5⟩ := hk nd hm hkk
    obtain ⟨h6, h7⟩ := hdd h4
    rcases h5 with h | h
    · rw [hr _ h] at h6; cases h6
    · exact h7 h

/-- a tree with a new dataset of references `r`, number 10 -/
def newRefsTree : Bld :=
  .node 0 "root" false [] (.data "") [] [.node 10 "r" true [] (.refs []) [] []]

/-- A new dataset of references takes the place of another dataset of that name, without an error; a new dataset of data
does not. -/
theorem C131_references_fails :
    let st := writeBuilder exEnv 20 exTree newFile
    st.file.get? ["r"] = some ⟨.refs [["g"], ["d", "g"]], [("n", .data "2"), ("first", .ref ["g"])]⟩ ∧
    (writeBuilder exEnv 20 newRefsTree st).err = none ∧
    (writeBuilder exEnv 20 newRefsTree st).file.get? ["r"] =
      some ⟨.refs [], [("n", .data "2"), ("first", .ref ["g"])]⟩ := by decide +kernel

/-- a tree that has a new dataset `t` of data, number 10, and a new attribute of `g` -/
def clashTree : Bld :=
  .node 0 "root" false [] (.data "") []
    [.node 1 "g" false [("new", .data "1")] (.data "") [] [], .node 10 "t" true [("v", .data "9")] (.data "6") [] []]

/-- in `exTree`, the content of `t` and of everything else stays, though the write fails after it has set an attribute -/
example : let st := writeBuilder exEnv 20 exTree newFile
    st.queue = [] ∧ (writeBuilder exEnv 20 clashTree st).err = some .taken ∧
    (writeBuilder exEnv 20 clashTree st).file.get? ["t"] = st.file.get? ["t"] ∧
    (writeBuilder exEnv 20 clashTree st).file.get? ["g"] =
      some ⟨.group, [("unit", .data "mV"), ("about", .ref ["t"]), ("new", .data "1")]⟩ := by decide +kernel

/-! ## C132 -/

/-- Adding to a file: what this object has written or read is in the file where the tree has it, and nothing is in the way
of the rest.  The write succeeds; every new dataset, group and link is there with its content and attributes; every group
that was there has the attributes of the tree, and keeps its others; datasets and links that were there, and everything that
is not in the tree, stay as they are; and nothing else is new.

Missing: that the file shows the tree after the write; see `C132_dataset_attributes_fails`. -/
theorem C132_append_partial (E : Env) (root : Bld) (st : St) (hd : root.grp) (hg : Good E root) (hid : (ids root).Nodup)
    (he : st.err = none) (hq : st.queue = []) (hf : Fits root st) (hc : ClosedIn E root st) : ∃ N, ∀ n, N ≤ n →
    let st' := writeBuilder E n root st
    st'.err = none ∧ st'.queue = [] ∧
    (∀ q nd, (q, nd) ∈ nodesAt [] root → st.file.get? q = none → ∃ o, st'.file.get? q = some o ∧ Shows E nd o) ∧
    (∀ q nd o, (q, nd) ∈ nodesAt [] root → st.file.get? q = some o → nd.isData = true → st'.file.get? q = some o) ∧
    (∀ q nd o, (q, nd) ∈ nodesAt [] root → st.file.get? q = some o → nd.isData = false →
      ∃ o', st'.file.get? q = some o' ∧ o'.kind = o.kind ∧
        ∀ k, o'.attrs.get? k = (match nd.attrs.get? k with
          | some (.data d) => some (.data d)
          | some (.ref t) => some (.ref (getPath E t))
          | none => o.attrs.get? k)) ∧
    (∀ q l, LinkAt (nodesAt [] root) q l → st.file.get? q = none →
      ∃ k, linkKind E l = some k ∧ st'.file.get? q = some ⟨k, []⟩) ∧
    (∀ q, (¬ ∃ nd, (q, nd) ∈ nodesAt [] root) → st.file.get? q ≠ none → st'.file.get? q = st.file.get? q) ∧
    (∀ q, st'.file.get? q ≠ none → st.file.get? q ≠ none ∨ (∃ nd, (q, nd) ∈ nodesAt [] root) ∨
      ∃ l, LinkAt (nodesAt [] root) q l) ∧
    (∀ i, i ∈ st'.written ↔ i ∈ st.written ∨ i ∈ ids root) := by
  refine ⟨turns ((callsW st.written [] root).map (fun c => (c, false))) + 1, fun n hn => ?_⟩
  obtain ⟨f, w, hA, hw, hs⟩ := write_at hd hg hid he hq hf hc (n := n) (by omega)
  simp only [hs]
  have hlk : ∀ q l, LinkAt (nodesAt [] root) q l → ¬ ∃ nd, (q, nd) ∈ nodesAt [] root := by
    rintro q l hl ⟨nd, hm⟩
    exact path_unique (E := E) hg hl hm
  refine ⟨trivial, trivial, ?_, ?_, ?_, ?_, ?_, ?_, hw⟩
  · intro q nd hm hnone
    have hni : nd.isData = true → nd.id ∉ st.written := by
      intro hdd hi
      rw [nodes_cons root hd] at hm
      rcases List.mem_cons.1 hm with hm | hm
      · cases hm
        obtain ⟨o, ho, _⟩ := hf.top
        rw [ho] at hnone
        cases hnone
      · obtain ⟨o, ho, _⟩ := (hf.inner.node _ hm).1 hi
        simp only at ho
        rw [ho] at hnone
        cases hnone
    have hcw : nodeCallsW st.written q nd = nodeCalls q nd := by
      unfold nodeCallsW
      rw [if_neg (fun h => hni h.1 h.2)]
    have hn := good_attrs E root [] hg _ hm
    have hmid : midObj nd none = obj0 nd := by
      unfold midObj obj0
      split
      · rfl
      · simp [putData_fresh nd.attrs [] hn (by simp [Dict.keys])]
    rw [apply_at hg hA hm, hcw, hnone, hmid, fold_node hn]
    exact ⟨_, rfl, shows_final hn⟩
  · intro q nd o hm ho hdd
    have hi : nd.id ∈ st.written := by
      rw [nodes_cons root hd] at hm
      rcases List.mem_cons.1 hm with hm | hm
      · cases hm
        obtain ⟨id, name, isData, attrs, data, links, subs⟩ := root
        simp only [Bld.grp] at hd
        simp [Bld.isData, hd] at hdd
      · refine Classical.byContradiction (fun hi => ?_)
        have := (hf.inner.node _ hm).2 hi
        simp only at this
        rw [this] at ho
        cases ho
    have hcw : nodeCallsW st.written q nd = [] := by simp [nodeCallsW, hdd, hi]
    rw [apply_at hg hA hm, hcw, ho]
    simp [midObj, hdd]
  · intro q nd o hm ho hdd
    have hn := good_attrs E root [] hg _ hm
    have hcw : nodeCallsW st.written q nd = refCalls q nd.attrs := by simp [nodeCallsW, nodeCalls, hdd]
    rw [apply_at hg hA hm, hcw, ho, refCalls_spawn, List.append_nil]
    refine ⟨_, rfl, ?_, fun k => ?_⟩
    · rw [(foldRefs_get? (k := "") nd.attrs _ hn).1]
      simp [midObj, hdd]
    · rw [(foldRefs_get? (k := k) nd.attrs _ hn).2]
      simp only [midObj, hdd, Bool.false_eq_true, if_false, Option.getD_some, get?_putData nd.attrs _ hn]
      cases nd.attrs.get? k with
      | none => rfl
      | some v => cases v <;> rfl
  · intro q l hl hnone
    refine ⟨(linkKind E l).getD .group, ?_, ?_⟩
    · obtain ⟨p, nd, hm, hdd, hl', _⟩ := hl
      have := good_links E root [] hg _ hm hdd l hl'
      cases hk : linkKind E l with
      | none => exact absurd hk this
      | some k => rfl
    · rw [apply_other (hlk q l hl), hA.link q l hl, hnone]
      rfl
  · intro q hnd hne
    rw [apply_other hnd]
    by_cases hl : ∃ l, LinkAt (nodesAt [] root) q l
    · obtain ⟨l, hl⟩ := hl
      obtain ⟨o, ho⟩ := Option.ne_none_iff_exists'.1 hne
      rw [hA.link q l hl, ho]
      rfl
    · exact hA.other q (fun h => h.elim hnd hl)
  · intro q hne
    by_cases hnd : ∃ nd, (q, nd) ∈ nodesAt [] root
    · exact Or.inr (Or.inl hnd)
    · by_cases hl : ∃ l, LinkAt (nodesAt [] root) q l
      · exact Or.inr (Or.inr hl)
      · refine Or.inl ?_
        rw [apply_other hnd, hA.other q (fun h => h.elim hnd hl)] at hne
        exact hne

/-- `exTree` with a new group `n` that holds a dataset `m` which refers to `g`, and a new attribute of `g` -/
def moreTree : Bld :=
  .node 0 "root" false [] (.data "") [⟨6, "l", 2⟩, ⟨12, "l2", 3⟩]
    [.node 1 "g" false [("unit", .data "V"), ("more", .ref 11)] (.data "") []
      [.node 2 "d" true [] (.data "[1, 2]") [] []],
     .node 10 "n" false [] (.data "") [] [.node 11 "m" true [("of", .ref 1)] (.refs [2, 3]) [] []]]

theorem moreTree_good : Good exEnv moreTree := by
  simp [moreTree, Good, GoodL, Dict.keys, Bld.name, linkKind, writeSource, exEnv, exMeta]

/-- the file with `exTree` -/
def exWritten : St := writeBuilder exEnv 20 exTree newFile

example : ∃ N, ∀ n, N ≤ n → (writeBuilder exEnv n moreTree exWritten).err = none :=
  let ⟨N, h⟩ := C132_append_partial exEnv moreTree exWritten rfl moreTree_good (by decide +kernel) (by decide +kernel)
    (by decide +kernel) (fits_of (by decide +kernel) (by decide +kernel) (by decide +kernel) rfl)
    (closedIn_of (by decide +kernel))
  ⟨N, fun n hn => (h n hn).1⟩

example : (writeBuilder exEnv 20 moreTree exWritten).file.get? ["g"] =
      some ⟨.group, [("unit", .data "V"), ("about", .ref ["t"]), ("more", .ref ["m", "n"])]⟩ ∧
    (writeBuilder exEnv 20 moreTree exWritten).file.get? ["m", "n"] =
      some ⟨.refs [["d", "g"], ["t"]], [("of", .ref ["g"])]⟩ := by decide +kernel

/-- `exTree` with a new attribute of the group `g` and one of the dataset `d` -/
def attrsTree : Bld :=
  .node 0 "root" false [] (.data "") []
    [.node 1 "g" false [("new", .data "1")] (.data "") []
      [.node 2 "d" true [("new", .data "1")] (.data "[1, 2]") [] []]]

/-- An attribute that is added to a group is written when the file is written again; one that is added to a dataset is not,
and there is no error. -/
theorem C132_dataset_attributes_fails :
    (writeBuilder exEnv 20 attrsTree exWritten).err = none ∧
    ((writeBuilder exEnv 20 attrsTree exWritten).file.get? ["g"]).map (fun o => o.attrs.get? "new") =
      some (some (.data "1")) ∧
    ((writeBuilder exEnv 20 attrsTree exWritten).file.get? ["d", "g"]).map (fun o => o.attrs.get? "new") =
      some none := by decide +kernel

/-! ## C133 -/

/-- Writing a tree a second time changes nothing. -/
theorem C133_again (E : Env) (root : Bld) (hd : root.grp) (hg : Good E root) (hid : (ids root).Nodup)
    (hc : Closed E root) : ∃ N, ∀ n, N ≤ n →
    let st := writeBuilder E n root newFile
    (writeBuilder E n root st).err = none ∧ (writeBuilder E n root st).queue = [] ∧
    ∀ q, ((writeBuilder E n root st).file.get? q = none ↔ st.file.get? q = none) ∧
      ∀ o, st.file.get? q = some o → ∃ o', (writeBuilder E n root st).file.get? q = some o' ∧ o'.kind = o.kind ∧
        ∀ k, o'.attrs.get? k = o.attrs.get? k := by
  let N1 := turns ((calls [] root).map (fun c => (c, false))) + 1
  have hst := write_new hd hg hid hc (n := N1) (by show _ < N1; omega)
  have hmem : ∀ i, i ∈ ids root → i ∈ (writeBuilder E N1 root newFile).written := by
    intro i hi
    rw [hst]
    obtain ⟨id, name, isData, attrs, data, links, subs⟩ := root
    simp only [Bld.grp] at hd
    subst hd
    simpa only [innerIds, ids, Bool.false_eq_true, if_false, Bld.id] using hi
  have hnode : ∀ q nd, (q, nd) ∈ nodesAt [] root →
      (writeBuilder E N1 root newFile).file.get? q = some (finalObj E nd) := by
    intro q nd hm
    rw [hst]
    exact apply_node hg hm
  have hlink : ∀ q l, LinkAt (nodesAt [] root) q l →
      (writeBuilder E N1 root newFile).file.get? q = some (linkObj E l) := by
    intro q l hl
    rw [hst]
    exact apply_link hg hl
  have hhard : ∀ nd : Bld, (∀ p, (finalObj E nd).kind ≠ .soft p) ∧ ∀ s p, (finalObj E nd).kind ≠ .ext s p := by
    intro nd
    unfold finalObj
    split
    · exact kindOf_hard nd.data
    · simp
  have hLk : ∀ q l, LinkAt (nodesAt [] root) q l →
      (l.id ∈ (writeBuilder E N1 root newFile).written → ∃ o, (writeBuilder E N1 root newFile).file.get? q = some o) ∧
      (l.id ∉ (writeBuilder E N1 root newFile).written → (writeBuilder E N1 root newFile).file.get? q = none) :=
    fun q l hl => ⟨fun _ => ⟨_, hlink q l hl⟩, fun h => absurd (hmem _ (link_ids hl)) h⟩
  have hF : Fits root (writeBuilder E N1 root newFile) := by
    refine ⟨⟨_, hnode [] root (by rw [nodes_cons root hd]; exact List.mem_cons_self ..), ?_⟩, ⟨?_, ?_⟩, hLk⟩
    · obtain ⟨id, name, isData, attrs, data, links, subs⟩ := root
      simp only [Bld.grp] at hd
      subst hd
      rfl
    · intro x hx
      have hx' : (x.1, x.2) ∈ nodesAt [] root := by rw [nodes_cons root hd]; exact List.mem_cons_of_mem _ hx
      exact ⟨fun _ => ⟨_, hnode _ _ hx', hhard _⟩, fun h => absurd (hmem _ (node_ids root [] _ hx').1) h⟩
    · rintro q l ⟨p, nd, hm, h⟩
      exact hLk q l ⟨p, nd, by rw [nodes_cons root hd]; exact List.mem_cons_of_mem _ hm, h⟩
  have hC : ClosedIn E root (writeBuilder E N1 root newFile) := by
    rintro t ⟨q, nd, hm, _, hr⟩
    exact Or.inl (hc t ⟨q, nd, hm, hr⟩)
  obtain ⟨N2, h2⟩ := C132_append_partial E root _ hd hg hid (by rw [hst]) (by rw [hst]) hF hC
  refine ⟨N1 + N2, fun n hn => ?_⟩
  have hsame : writeBuilder E n root newFile = writeBuilder E N1 root newFile := by
    rw [hst, write_new hd hg hid hc (n := n) (by show _ < n; omega)]
  simp only [hsame]
  obtain ⟨a1, a2, _, a4, a5, _, a7, a8, _⟩ := h2 n (by omega)
  have hsome : ∀ q o, (writeBuilder E N1 root newFile).file.get? q = some o →
      ∃ o', (writeBuilder E n root (writeBuilder E N1 root newFile)).file.get? q = some o' ∧ o'.kind = o.kind ∧
        ∀ k, o'.attrs.get? k = o.attrs.get? k := by
    intro q o ho
    by_cases hnd : ∃ nd, (q, nd) ∈ nodesAt [] root
    · obtain ⟨nd, hm⟩ := hnd
      cases hdd : nd.isData with
      | true => exact ⟨o, a4 q nd o hm ho hdd, rfl, fun _ => rfl⟩
      | false =>
        obtain ⟨o', h3, h4, h5⟩ := a5 q nd o hm ho hdd
        refine ⟨o', h3, h4, fun k => ?_⟩
        rw [h5]
        rw [hnode q nd hm] at ho
        obtain rfl := Option.some.inj ho
        have := (shows_final (E := E) (good_attrs E root [] hg _ hm)).2 k
        rw [this]
        cases nd.attrs.get? k with
        | none => rfl
        | some v => cases v <;> rfl
    · exact ⟨o, by rw [a7 q hnd (by rw [ho]; simp), ho], rfl, fun _ => rfl⟩
  refine ⟨a1, a2, fun q => ⟨⟨fun h => ?_, fun h => ?_⟩, fun o ho => hsome q o ho⟩⟩
  · refine Classical.byContradiction (fun hne => ?_)
    obtain ⟨o, ho⟩ := Option.ne_none_iff_exists'.1 hne
    obtain ⟨o', h3, _⟩ := hsome q o ho
    rw [h] at h3
    cases h3
  · refine Classical.byContradiction (fun hne => ?_)
    rcases a8 q hne with h3 | ⟨nd, h3⟩ | ⟨l, h3⟩
    · exact h3 h
    · rw [hnode q nd h3] at h; cases h
    · rw [hlink q l h3] at h; cases h

example : ∃ N, ∀ n, N ≤ n → (writeBuilder exEnv n exTree (writeBuilder exEnv n exTree newFile)).err = none :=
  let ⟨N, h⟩ := C133_again exEnv exTree rfl exTree_good exTree_ids exTree_closed
  ⟨N, fun n hn => (h n hn).1⟩

/-- a tree whose dataset `s` is a reference to `g`, which is not in the tree -/
def lateTree : Bld :=
  .node 0 "root" false [] (.data "") [] [.node 5 "s" true [("v", .data "1")] (.sref 1) [] []]

/-- the same with `g` -/
def lateTree' : Bld :=
  .node 0 "root" false [] (.data "") []
    [.node 1 "g" false [] (.data "") [] [], .node 5 "s" true [("v", .data "1")] (.sref 1) [] []]

/-- When a write fails because a reference leads nowhere, and is done again with what was missing, there is no error, but the
dataset of references has no references and no attributes. -/
theorem C133_retry_fails :
    let st := writeBuilder exEnv 20 lateTree newFile
    let st' := writeBuilder exEnv 20 lateTree' { st with err := none }
    st.err = some .runtime ∧ st'.err = none ∧ st'.queue = [] ∧ st'.file.get? ["g"] = some ⟨.group, []⟩ ∧
    st'.file.get? ["s"] = some ⟨.nulls, []⟩ ∧
    (writeBuilder exEnv 20 lateTree' newFile).file.get? ["s"] = some ⟨.sref ["g"], [("v", .data "1")]⟩ := by
  decide +kernel

/-! ## C134 -/

/-- In a new file, a link is a soft link if its goal is in the same source as the link (or the file that is exported, or the
file that is written), and a link to another file else; and it has the path of its goal.  If the source of the goal is
unknown, and that of the link is known, there is a `ValueError`.

Missing: links to a builder that has no parent, and links whose own source is unknown; see the failures below. -/
theorem C134_links_partial (E : Env) (root : Bld) (hd : root.grp) (hg : Good E root) (hid : (ids root).Nodup)
    (hc : Closed E root) : ∃ N, ∀ n, N ≤ n →
    ∀ p nd l, (p, nd) ∈ nodesAt [] root → nd.isData = false → l ∈ nd.links →
      let m := E.info l.target
      let file := (writeBuilder E n root newFile).file
      let same := m.source = some E.fname ∨ (∃ s, E.exportSource = some s ∧ m.source = some s) ∨
        (E.exportSource = none ∧ m.source = E.linkSource l.id)
      ∀ q, (m.location = none ∧ m.chain = q) ∨ (∃ loc, m.location = some loc ∧ q = m.name :: loc) →
        (same → file.get? (l.name :: p) = some ⟨.soft q, []⟩) ∧
        (¬ same → ∃ f, m.source = some f ∧ file.get? (l.name :: p) = some ⟨.ext f q, []⟩) := by
  obtain ⟨N, hN⟩ := C129_new_file_partial E root hd hg hid hc
  refine ⟨N, fun n hn p nd l hm hdd hl => ?_⟩
  obtain ⟨_, _, _, h4, _⟩ := hN n hn
  obtain ⟨k, hk, hfile⟩ := h4 (l.name :: p) l ⟨p, nd, hm, hdd, hl, rfl⟩
  intro m file same q h1
  have hpath : getPath E l.target = q := by
    unfold getPath
    rcases h1 with ⟨h1, h2⟩ | ⟨loc, h1, h2⟩
    · simp only [m] at h1 h2
      simp [h1, h2]
    · simp only [m] at h1 h2
      simp [h1, h2]
  have hsame : same ↔ ((E.info l.target).source = writeSource E l ∨ (E.info l.target).source = some E.fname) := by
    simp only [same, writeSource, m]
    cases E.exportSource with
    | none => simp only [reduceCtorEq, false_and, exists_false, false_or, true_and]; exact or_comm
    | some s =>
      simp only [Option.some.injEq, reduceCtorEq, false_and, or_false]
      constructor
      · rintro (h | ⟨s', rfl, h⟩)
        · exact Or.inr h
        · exact Or.inl h
      · rintro (h | h)
        · exact Or.inr ⟨s, rfl, h⟩
        · exact Or.inl h
  unfold linkKind at hk
  refine ⟨fun hs => ?_, fun hs => ?_⟩
  · rw [if_pos (hsame.1 hs)] at hk
    rw [hpath] at hk
    cases hk
    exact hfile
  · rw [if_neg (fun h => hs (hsame.2 h))] at hk
    cases hsrc : (E.info l.target).source with
    | none => rw [hsrc] at hk; cases hk
    | some f =>
      rw [hsrc, hpath] at hk
      cases hk
      exact ⟨f, rfl, hfile⟩

example : ([], exTree) ∈ nodesAt [] exTree ∧ exTree.isData = false ∧
    (exEnv.info 2).source = exEnv.linkSource 6 ∧ ¬ (exEnv.info 8).source = exEnv.linkSource 7 ∧
    (writeBuilder exEnv 20 exTree newFile).file.get? ["l"] = some ⟨.soft ["d", "g"], []⟩ ∧
    (writeBuilder exEnv 20 exTree newFile).file.get? ["x"] = some ⟨.ext "b.h5" ["t"], []⟩ :=
  ⟨by rw [nodes_cons exTree rfl]; exact List.mem_cons_self .., by decide +kernel⟩

/-- A tree is not written with success, to a new file or any other, if a new link leads to a builder of which the source is
not known, while its own source or that of the export is. -/
theorem C134_unknown_source (E : Env) (n : Nat) (root : Bld) (st : St) (hd : root.grp) (hid : (ids root).Nodup)
    (p : Path) (nd : Bld) (l : WLink) (hm : (p, nd) ∈ nodesAt [] root) (hg : nd.isData = false) (hl : l ∈ nd.links)
    (hw : l.id ∉ st.written) (ht : (E.info l.target).source = none)
    (hs : E.exportSource ≠ none ∨ E.linkSource l.id ≠ none) : (writeBuilder E n root st).err ≠ none := by
  intro he
  refine write_known hd hid he l (mem_linksOf.2 ⟨_, hm, hg, hl⟩) hw ?_
  unfold linkKind
  rw [ht, if_neg]
  rintro (h | h)
  · unfold writeSource at h
    split at h
    · rename_i h1
      rcases hs with hs | hs
      · exact hs h1
      · exact hs h.symm
    · cases h
  · cases h

/-- a tree with a link to number 9, of which the source is not known, deep down -/
def unknownTree : Bld :=
  .node 0 "root" false [] (.data "") []
    [.node 1 "g" false [] (.data "") [⟨6, "l", 9⟩] [.node 2 "d" true [] (.data "[1, 2]") [] []]]

example : (exEnv.info 9).source = none ∧ exEnv.linkSource 6 ≠ none ∧
    (writeBuilder exEnv 20 unknownTree newFile).err = some .value := by decide +kernel

/-- a tree with a link to number 10, at `/n`, which is not in the tree, and one to number 13, which has no parent -/
def looseTree : Bld :=
  .node 0 "root" false [] (.data "") [⟨6, "l", 10⟩, ⟨7, "k", 13⟩] []

/-- A link to something that is not in the file is written without an error, while a reference to it is not; and a link to a
builder that has no parent becomes a link to the root. -/
theorem C134_dangling_fails :
    (writeBuilder exEnv 20 looseTree newFile).err = none ∧
    (writeBuilder exEnv 20 looseTree newFile).file.get? ["l"] = some ⟨.soft ["n"], []⟩ ∧
    (writeBuilder exEnv 20 looseTree newFile).file.get? ["n"] = none ∧
    (writeBuilder exEnv 20 looseTree newFile).file.get? ["k"] = some ⟨.soft [], []⟩ ∧
    ∀ x ∈ nodesAt [] looseTree, x.2.id ≠ 13 := by decide +kernel

end Verif.H5Write

import Verif.Lemmas.H5ReadMore

/-!
# Reading a file into builders: properties
-/

namespace Verif.H5Read
open Verif

/-- An endless chain of objects from `o`, each a member of the one before, or the goal of one of its links or
references. -/
def EndlessFrom (F : File) (o : Oid) : Prop := ∃ f : Nat → Oid, f 0 = o ∧ ∀ i, Needs F (f i) (f (i + 1))

theorem ends_iff {F : File} {o : Oid} : Ends F o ↔ ¬ EndlessFrom F o := by
  classical
  constructor
  · intro h
    induction h with
    | intro o _ ih =>
      rintro ⟨f, h0, hs⟩
      exact ih (f 1) (by rw [← h0]; exact hs 0) ⟨fun i => f (i + 1), rfl, fun i => hs (i + 1)⟩
  · intro h
    refine Classical.byContradiction (fun hn => h ?_)
    have step : ∀ x : { x // ¬ Ends F x }, ∃ y : { x // ¬ Ends F x }, Needs F x.1 y.1 := by
      intro x
      refine Classical.byContradiction (fun hx => x.2 ⟨_, fun y hy => ?_⟩)
      refine Classical.byContradiction (fun hy' => hx ⟨⟨y, hy'⟩, hy⟩)
    obtain ⟨g, hg⟩ := Classical.axiomOfChoice step
    let s : Nat → { x // ¬ Ends F x } := fun i => Nat.rec ⟨o, hn⟩ (fun _ x => g x) i
    exact ⟨fun i => (s i).1, rfl, fun i => hg (s i)⟩

/-! ## A file that can be read, used in the examples -/

/-- group, with attributes and members -/
def grp (name : String) (attrs : Dict String HVal) (members : Dict String Entry) : Node :=
  ⟨false, name, attrs, members, .data ""⟩

/-- dataset, with attributes and data -/
def dst (name : String) (attrs : Dict String HVal) (d : HData) : Node := ⟨true, name, attrs, [], d⟩

/-- A root with a group `g` that holds a dataset `d`, a dataset `t` that refers to `g`, a dataset `r` of references, a link
`l` to `/g/d`, a broken link `x` and the cached specifications. -/
def exF : File where
  objs := fun o =>
    if o = "/" then some (grp "" [(".specloc", .ref "s")]
      [("g", .hard "g"), ("l", .link "d" (some "d")), ("r", .hard "r"), ("s", .hard "s"), ("t", .hard "t"),
       ("x", .link "y" none)])
    else if o = "g" then some (grp "g" [("unit", .data "mV")] [("d", .hard "d")])
    else if o = "d" then some (dst "d" [] (.data "[1, 2]"))
    else if o = "t" then some (dst "t" [("about", .ref "g")] (.data "5"))
    else if o = "r" then some (dst "r" [] (.refs ["g", "d"]))
    else if o = "s" then some (grp "s" [] [])
    else none
  ignore := fun o => o = "s"

/-- the object `t` of a table and its region column `c`, which refers to the table -/
def selfF : File where
  objs := fun o =>
    if o = "/" then some (grp "" [] [("t", .hard "t")])
    else if o = "t" then some (grp "t" [] [("c", .hard "c")])
    else if o = "c" then some (dst "c" [("table", .ref "t")] (.data "[0]"))
    else none
  ignore := fun _ => false

/-- what reading makes of `exF` -/
def exRead : Addr × St := (4, {
  heap := [
    .dset "d" [] (.data "[1, 2]"),
    .group "g" [("unit", .data "mV")] [] [("d", 0)] [],
    .dset "r" [] (.refs ["g", "d"]),
    .dset "t" [("about", .bldr 1)] (.data "5"),
    .group "root" [] [("g", 1)] [("r", 2), ("t", 3)] [("l", 0)]],
  built := [("d", 0), ("g", 1), ("r", 2), ("t", 3)] })

theorem exF_read : readBuilder exF 4 "/" = .ok exRead := by decide +kernel

/-- the objects of `exF` -/
theorem exF_cases {o : Oid} {nd : Node} (h : exF.objs o = some nd) :
    o = "/" ∨ o = "g" ∨ o = "d" ∨ o = "t" ∨ o = "r" ∨ o = "s" := by
  simp only [exF] at h
  repeat' (split at h; simp_all)
  cases h

theorem exF_canon : Canon exF := by
  constructor
  · intro o nd k p np h hm hp
    rcases exF_cases h with rfl | rfl | rfl | rfl | rfl | rfl <;> (cases h; simp [grp, dst] at hm)
    · rcases hm with ⟨rfl, rfl⟩ | ⟨rfl, rfl⟩ | ⟨rfl, rfl⟩ | ⟨rfl, rfl⟩ <;> (cases hp; rfl)
    · obtain ⟨rfl, rfl⟩ := hm; cases hp; rfl
  · intro o nd k b p np h hm hp
    rcases exF_cases h with rfl | rfl | rfl | rfl | rfl | rfl <;> (cases h; simp [grp, dst] at hm)
    obtain ⟨rfl, rfl, rfl⟩ := hm; cases hp; rfl

/-! ## C125 -/

/-- A file with an endless chain of members, links and references cannot be read, whatever the recursion limit. -/
theorem C125_success_no_chain (F : File) (n : Nat) (root : Oid) (r : Addr × St)
    (h : readBuilder F n root = .ok r) : ¬ EndlessFrom F root :=
  ends_iff.1 (readObj_recOK F n root (some "root") ⟨[], []⟩ r.1 r.2 h (fun o ho => by simp [Dict.keys] at ho)).2.2.1

example : ¬ EndlessFrom exF "/" := C125_success_no_chain exF 4 "/" _ exF_read

/-- Without such a chain, a high enough recursion limit is never exceeded. -/
theorem C125_no_chain_ends (F : File) (root : Oid) (h : ¬ EndlessFrom F root) :
    ∃ m, ∀ n, m ≤ n → readBuilder F n root ≠ .error .recursion := by
  obtain ⟨m, hm⟩ := ends_deep (ends_iff.2 h)
  exact ⟨m, fun n hn => hm n hn (some "root") ⟨[], []⟩⟩

example : ∃ m, ∀ n, m ≤ n → readBuilder exF n "/" ≠ .error .recursion :=
  C125_no_chain_ends exF "/" (C125_success_no_chain exF 4 "/" _ exF_read)

/-- Once a file can be read, a higher recursion limit gives the same builders. -/
theorem C125_limit_irrelevant (F : File) (n m : Nat) (hnm : n ≤ m) (root : Oid) (r : Addr × St)
    (h : readBuilder F n root = .ok r) : readBuilder F m root = .ok r :=
  readObj_le_of_le F hnm root (some "root") ⟨[], []⟩ r h

example : readBuilder exF 1000 "/" = .ok exRead := C125_limit_irrelevant exF 4 1000 (by decide) "/" _ exF_read

/-- A file without endless chains is read, if nothing is missing, no attribute is a region reference, no scalar dataset
refers to a group, no group has an attribute and a member of the same name, and objects go by one name.

Missing: that every file can be read; see the failures below. -/
theorem C125_total_partial (F : File) (hF : Canon F) (hC : Clean F) (root : Oid) (hroot : F.objs root ≠ none)
    (h : ¬ EndlessFrom F root) : ∃ m r, ∀ n, m ≤ n → readBuilder F n root = .ok r := by
  obtain ⟨m, hm⟩ := C125_no_chain_ends F root h
  cases hr : readBuilder F m root with
  | error e =>
    have := readObj_only hF hC m root (some "root") ⟨[], []⟩ e hr hroot (fun o ho => by simp [Dict.keys] at ho)
      (fun o a ha => by simp at ha)
    subst this
    exact absurd hr (hm m (Nat.le_refl _))
  | ok r => exact ⟨m, r, fun n hn => C125_limit_irrelevant F m n hn root r hr⟩

theorem exF_clean : Clean exF := by
  constructor
  · rintro o p ⟨nd, h, hcase⟩
    rcases exF_cases h with rfl | rfl | rfl | rfl | rfl | rfl <;> (cases h; simp [grp, dst] at hcase)
    · rcases hcase with ⟨k, h1, h2⟩ | ⟨_, k, h1 | ⟨b, h1⟩⟩
      · exact absurd h1.1 h2
      · rcases h1 with ⟨_, rfl⟩ | ⟨_, rfl⟩ | ⟨_, rfl⟩ | ⟨_, rfl⟩ <;> simp [exF]
      · obtain ⟨_, _, rfl⟩ := h1; simp [exF]
    · obtain ⟨_, k, _, rfl⟩ := hcase; simp [exF]
    · obtain ⟨k, ⟨_, rfl⟩, _⟩ := hcase; simp [exF]
  · intro o nd k p h hm
    rcases exF_cases h with rfl | rfl | rfl | rfl | rfl | rfl <;> (cases h; simp [grp, dst] at hm)
  · intro o nd p np h _ hm
    rcases exF_cases h with rfl | rfl | rfl | rfl | rfl | rfl <;> (cases h; simp [grp, dst] at hm)
  · intro o nd h
    rcases exF_cases h with rfl | rfl | rfl | rfl | rfl | rfl <;> (cases h; simp [grp, dst, Dict.keys])
  · intro o nd k h hd hk
    rcases exF_cases h with rfl | rfl | rfl | rfl | rfl | rfl <;> cases h <;> simp [grp, dst, Dict.keys] at hd hk ⊢
    · subst hk; decide
    · subst hk; decide

example : ∃ m r, ∀ n, m ≤ n → readBuilder exF n "/" = .ok r :=
  C125_total_partial exF exF_canon exF_clean "/" (by simp [exF, grp]) (C125_success_no_chain exF 4 "/" _ exF_read)

theorem selfF_root : selfF.objs "/" = some (grp "" [] [("t", .hard "t")]) := by simp [selfF]
theorem selfF_table : selfF.objs "t" = some (grp "t" [] [("c", .hard "c")]) := by simp [selfF]
theorem selfF_col : selfF.objs "c" = some (dst "c" [("table", .ref "t")] (.data "[0]")) := by simp [selfF]

theorem selfF_loop : ∀ n nm, readObj selfF n "t" nm ⟨[], []⟩ = .error .recursion := by
  intro n
  induction n using Nat.strongRecOn with
  | _ n ih =>
    intro nm
    have hi : ∀ o, selfF.ignore o = false := fun _ => rfl
    match n with
    | 0 => rfl
    | 1 =>
      simp [readObj, selfF_table, grp, readAttrs, readMembers, readMember, fetch, hi, bind, Except.bind]
    | n + 2 =>
      have h3 := ih n (by omega) none
      simp [readObj, selfF_table, selfF_col, grp, dst, readAttrs, readMembers, readMember, readAttr, fetch, hi, bind,
        Except.bind, h3]

/-- A table that has a region column for its own rows, which refers to the table by the attribute `table`, exceeds every
recursion limit. -/
theorem C125_self_reference_fails : ∀ n, readBuilder selfF n "/" = .error .recursion := by
  intro n
  have hi : ∀ o, selfF.ignore o = false := fun _ => rfl
  match n with
  | 0 => rfl
  | n + 1 =>
    have h2 := selfF_loop n (some "t")
    simp [readBuilder, readObj, selfF_root, grp, readAttrs, readMembers, readMember, fetch, hi, bind, Except.bind, h2]

/-- a file whose group `g` has the attribute `a` and the member `a` -/
def clashF : File where
  objs := fun o =>
    if o = "/" then some (grp "" [] [("g", .hard "g")])
    else if o = "g" then some (grp "g" [("a", .data "1")] [("a", .hard "a")])
    else if o = "a" then some (dst "a" [] (.data "2"))
    else none
  ignore := fun _ => false

/-- A group with an attribute and a member of the same name, which HDF5 allows, makes the whole file unreadable. -/
theorem C125_name_clash_fails : readBuilder clashF 4 "/" = .error .value := by decide +kernel

/-- a file whose scalar dataset `d` refers to the group `g` -/
def groupRefF : File where
  objs := fun o =>
    if o = "/" then some (grp "" [] [("d", .hard "d"), ("g", .hard "g")])
    else if o = "d" then some (dst "d" [] (.sref "g"))
    else if o = "g" then some (grp "g" [] [])
    else none
  ignore := fun _ => false

/-- A scalar dataset that refers to a group makes the whole file unreadable. -/
theorem C125_group_reference_fails : readBuilder groupRefF 4 "/" = .error .attribute := by decide +kernel

/-! ## C126 -/

/-- The builder that reading made for an object: the one returned for the root, the one of `get_builder` for the rest. -/
def builderAt (root : Oid) (r : Addr × St) (o : Oid) : Option BNode :=
  if o = root then r.2.heap[r.1]?
  else match getBuilder r.2 o with
  | .ok a => r.2.heap[a]?
  | .error _ => none

theorem getBuilder_iff {st : St} {o : Oid} {x : Addr} : getBuilder st o = .ok x ↔ st.built.get? o = some x := by
  unfold getBuilder
  split
  · rename_i h; rw [h]; constructor <;> (intro h; cases h; rfl)
  · rename_i h; rw [h]; constructor <;> (intro h; cases h)

/-- the objects that are read: the root, and what can be reached from it -/
def Below (F : File) (root o : Oid) : Prop := Relation.TransGen (Needs F) root o

theorem empty_closed (F : File) : Closed F ⟨[], []⟩ := fun o ho => by simp [Dict.keys] at ho

theorem empty_inv (F : File) : InvH F ⟨[], []⟩ := fun o a ha => by simp at ha

theorem read_below {F : File} {n : Nat} {root : Oid} {r : Addr × St} (h : readBuilder F n root = .ok r) {o : Oid} :
    Below F root o ↔ o ∈ Dict.keys r.2.built := by
  obtain ⟨c, g, e, m⟩ := readObj_recOK F n root (some "root") ⟨[], []⟩ r.1 r.2 h (empty_closed F)
  constructor
  · intro hb
    induction hb with
    | single h => exact m _ h
    | tail _ h ih => exact (c _ ih).2 _ h
  · intro ho
    rcases g.new o ho with h | h
    · simp [Dict.keys] at h
    · exact h

theorem read_root {F : File} {n : Nat} {root : Oid} {r : Addr × St} (h : readBuilder F n root = .ok r) :
    ¬ Below F root root :=
  ends_irrefl (readObj_recOK F n root (some "root") ⟨[], []⟩ r.1 r.2 h (empty_closed F)).2.2.1

/-- the builder of every object that is read shows it -/
theorem read_img {F : File} (hF : Canon F) {n : Nat} {root : Oid} {r : Addr × St}
    (h : readBuilder F n root = .ok r) {o : Oid} (ho : o = root ∨ Below F root o) :
    ∃ b nm, builderAt root r o = some b ∧ Img F r.2 nm o b := by
  obtain ⟨_, hi, nd, b, h1, h2, h3⟩ := readObj_recH hF n root (some "root") ⟨[], []⟩ r.1 r.2 h (empty_closed F)
    (empty_inv F)
  rcases ho with rfl | ho
  · exact ⟨b, _, by simp [builderAt, h2], h3⟩
  · have hne : o ≠ root := fun e => read_root h (e ▸ ho)
    obtain ⟨x, hx⟩ : ∃ x, r.2.built.get? o = some x := by
      have := (read_below h).1 ho
      cases hg : r.2.built.get? o with
      | none => exact absurd this (Dict.get?_eq_none_iff.1 hg)
      | some x => exact ⟨x, rfl⟩
    obtain ⟨nd', b', h4, h5, h6⟩ := hi o x hx
    exact ⟨b', _, by simp [builderAt, hne, getBuilder_iff.2 hx, h5], h6⟩

theorem below_step {F : File} {root o p : Oid} (ho : o = root ∨ Below F root o) (h : Needs F o p) : Below F root p := by
  rcases ho with rfl | ho
  · exact Relation.TransGen.single h
  · exact Relation.TransGen.tail ho h

theorem read_get {F : File} {n : Nat} {root : Oid} {r : Addr × St} (h : readBuilder F n root = .ok r) {o : Oid}
    (ho : Below F root o) : getBuilder r.2 o = .ok (addr r.2.built o) := by
  have := (read_below h).1 ho
  rw [getBuilder_iff]
  cases hg : r.2.built.get? o with
  | none => exact absurd this (Dict.get?_eq_none_iff.1 hg)
  | some x => simp [addr, hg]

/-- the attributes of a builder -/
def BNode.attrs : BNode → Dict String BAttr
  | .group _ a _ _ _ => a
  | .dset _ a _ => a

/-- the groups of a builder -/
def BNode.groups : BNode → Dict String Addr
  | .group _ _ g _ _ => g
  | .dset _ _ _ => []

/-- the datasets of a builder -/
def BNode.dsets : BNode → Dict String Addr
  | .group _ _ _ d _ => d
  | .dset _ _ _ => []

/-- the links of a builder -/
def BNode.links : BNode → Dict String Addr
  | .group _ _ _ _ l => l
  | .dset _ _ _ => []

theorem img_attrs {F : File} {st : St} {nm : String} {o : Oid} {nd : Node} {b : BNode} (hnd : F.objs o = some nd)
    (h : Img F st nm o b) : b.attrs = pureAttrs st.built nd.attrs [] := by
  obtain ⟨nd', h1, h2, h3⟩ := h
  rw [hnd] at h1; cases h1
  cases hd : nd.isData with
  | true => obtain ⟨d, hb, _⟩ := h2 hd; rw [hb]; rfl
  | false =>
    have := h3 hd
    simp only [mkGroup] at this
    split at this
    · cases this; rfl
    · cases this

theorem img_group {F : File} {st : St} {nm : String} {o : Oid} {nd : Node} {b : BNode} (hnd : F.objs o = some nd)
    (hd : nd.isData = false) (h : Img F st nm o b) :
    b.groups = (pureParts F st.built nd.members {}).groups ∧
    b.dsets = someDsets (pureParts F st.built nd.members {}).dsets ∧
    b.links = linkDict (pureParts F st.built nd.members {}).links := by
  obtain ⟨nd', h1, _, h3⟩ := h
  rw [hnd] at h1; cases h1
  have := h3 hd
  simp only [mkGroup] at this
  split at this
  · cases this; exact ⟨rfl, rfl, rfl⟩
  · cases this

/-- Wherever a reference attribute refers to an object, the builder has the one builder of the object.

Missing: scalar datasets that are references, whose goal is read anew; see `C126_scalar_reference_fails`. -/
theorem C126_attribute_partial (F : File) (hF : Canon F) (n : Nat) (root : Oid) (r : Addr × St)
    (h : readBuilder F n root = .ok r) (o : Oid) (ho : o = root ∨ Below F root o) (nd : Node)
    (hnd : F.objs o = some nd) (hn : (Dict.keys nd.attrs).Nodup) (k : String) (p : Oid) (hk : k ≠ ".specloc")
    (hm : (k, HVal.ref p) ∈ nd.attrs) :
    ∃ b x, builderAt root r o = some b ∧ getBuilder r.2 p = .ok x ∧ b.attrs.get? k = some (.bldr x) := by
  obtain ⟨b, nm, hb, hi⟩ := read_img hF h ho
  refine ⟨b, _, hb, read_get h (below_step ho (needs_attr hnd k p hm hk)), ?_⟩
  rw [img_attrs hnd hi, get?_pureAttrs _ _ hn, Dict.get?_of_mem hn hm]
  simp [pureAttr, hk]

example : builderAt "/" exRead "t" = some (.dset "t" [("about", .bldr 1)] (.data "5")) ∧
    getBuilder exRead.2 "g" = .ok 1 := by decide +kernel

/-- Wherever a group holds or links to an object, the group's builder has the one builder of the object.

Missing: links of one group whose goals have the same last part, of which one is lost; see `C127_link_lost_fails`. -/
theorem C126_member_partial (F : File) (hF : Canon F) (n : Nat) (root : Oid) (r : Addr × St)
    (h : readBuilder F n root = .ok r) (o : Oid) (ho : o = root ∨ Below F root o) (nd : Node)
    (hnd : F.objs o = some nd) (hd : nd.isData = false) (hn : (Dict.keys nd.members).Nodup)
    (hl : LinkNames F nd.members) (k : String) (p : Oid) (np : Node) (hp : F.objs p = some np)
    (hig : F.ignore p = false) :
    ∃ b x, builderAt root r o = some b ∧
      ((k, Entry.hard p) ∈ nd.members → getBuilder r.2 p = .ok x ∧
        (if np.isData then b.dsets.get? k else b.groups.get? k) = some x) ∧
      (∀ base, (k, Entry.link base (some p)) ∈ nd.members → getBuilder r.2 p = .ok x ∧ b.links.get? k = some x) := by
  obtain ⟨b, nm, hb, hi⟩ := read_img hF h ho
  obtain ⟨hg, hds, hls⟩ := img_group hnd hd hi
  refine ⟨b, addr r.2.built p, hb, ?_, ?_⟩
  · intro hm
    refine ⟨read_get h (below_step ho (needs_member hnd hd k _ p hm rfl hig)), ?_⟩
    have hgm := Dict.get?_of_mem hn hm
    split
    · rename_i hnp
      rw [hds, get?_someDsets (dsets_nodup nd.members {} (by simp [Dict.keys])), get?_dsets _ _ hn, hgm]
      simp [dsetPart, hig, isD, hp, hnp]
    · rename_i hnp
      rw [hg, get?_groups _ _ hn, hgm]
      simp [groupPart, hig, isD, hp, hnp]
  · intro base hm
    refine ⟨read_get h (below_step ho (needs_member hnd hd k _ p hm rfl hig)), ?_⟩
    rw [hls, get?_links hn hl]
    exact ⟨base, p, hm, hig, rfl⟩

example : builderAt "/" exRead "/" = some (.group "root" [] [("g", 1)] [("r", 2), ("t", 3)] [("l", 0)]) ∧
    builderAt "/" exRead "g" = some (.group "g" [("unit", .data "mV")] [] [("d", 0)] []) ∧
    getBuilder exRead.2 "d" = .ok 0 := by decide +kernel

/-- No two objects have the same builder. -/
theorem C126_distinct (F : File) (n : Nat) (root : Oid) (r : Addr × St) (h : readBuilder F n root = .ok r)
    (o p : Oid) (x : Addr) (ho : getBuilder r.2 o = .ok x) (hp : getBuilder r.2 p = .ok x) : o = p := by
  obtain ⟨i, _, _⟩ := readObj_recI F n root (some "root") ⟨[], []⟩ r.1 r.2 h
    ⟨fun o a ha => by simp at ha, fun o p a ha => by simp at ha⟩
  exact i.inj o p x (getBuilder_iff.1 ho) (getBuilder_iff.1 hp)

example : getBuilder exRead.2 "g" = .ok 1 ∧ getBuilder exRead.2 "d" = .ok 0 := by decide +kernel

/-- a file whose dataset `e` is a scalar reference to the dataset `d` -/
def scalarRefF : File where
  objs := fun o =>
    if o = "/" then some (grp "" [] [("d", .hard "d"), ("e", .hard "e")])
    else if o = "d" then some (dst "d" [] (.data "1"))
    else if o = "e" then some (dst "e" [] (.sref "d"))
    else none
  ignore := fun _ => false

/-- A scalar dataset that refers to a dataset already read gets another builder than the group that holds it: the reference
and the member are different builders, and become different containers. -/
theorem C126_scalar_reference_fails : ∃ r, readBuilder scalarRefF 4 "/" = .ok r ∧
    builderAt "/" r "/" = some (.group "root" [] [] [("d", 0), ("e", 2)] []) ∧
    builderAt "/" r "e" = some (.dset "e" [] (.ref 1)) ∧ getBuilder r.2 "d" = .ok 0 := by
  refine ⟨(3, ⟨[.dset "d" [] (.data "1"), .dset "d" [] (.data "1"), .dset "e" [] (.ref 1),
    .group "root" [] [] [("d", 0), ("e", 2)] []], [("d", 0), ("e", 2)]⟩), ?_⟩
  decide +kernel

/-! ## C127 -/

/-- The attributes of a builder are those of the object, but for the location of the cached specifications: data as it is,
references as builders. -/
theorem C127_attributes (F : File) (hF : Canon F) (n : Nat) (root : Oid) (r : Addr × St)
    (h : readBuilder F n root = .ok r) (o : Oid) (ho : o = root ∨ Below F root o) (nd : Node)
    (hnd : F.objs o = some nd) (hn : (Dict.keys nd.attrs).Nodup) (k : String) :
    ∃ b, builderAt root r o = some b ∧
      (∀ d, b.attrs.get? k = some (.data d) ↔ (k ≠ ".specloc" ∧ (k, HVal.data d) ∈ nd.attrs)) ∧
      (∀ x, b.attrs.get? k = some (.bldr x) ↔
        (k ≠ ".specloc" ∧ ∃ p, (k, HVal.ref p) ∈ nd.attrs ∧ getBuilder r.2 p = .ok x)) := by
  obtain ⟨b, nm, hb, hi⟩ := read_img hF h ho
  refine ⟨b, hb, ?_, ?_⟩
  · intro d
    rw [img_attrs hnd hi, get?_pureAttrs _ _ hn]
    constructor
    · intro hg
      split at hg
      · simp at hg
      · rename_i v hv
        unfold pureAttr at hg
        split at hg
        · simp at hg
        · rename_i hk
          cases v with
          | data e => simp at hg; subst hg; exact ⟨hk, Dict.mem_of_get? hv⟩
          | ref p => simp at hg
          | region p => simp at hg
    · rintro ⟨hk, hm⟩
      rw [Dict.get?_of_mem hn hm]
      simp [pureAttr, hk]
  · intro x
    rw [img_attrs hnd hi, get?_pureAttrs _ _ hn]
    constructor
    · intro hg
      split at hg
      · simp at hg
      · rename_i v hv
        unfold pureAttr at hg
        split at hg
        · simp at hg
        · rename_i hk
          cases v with
          | data e => simp at hg
          | region p => simp at hg
          | ref p =>
            simp at hg
            subst hg
            have hm := Dict.mem_of_get? hv
            exact ⟨hk, p, hm, read_get h (below_step ho (needs_attr hnd k p hm hk))⟩
    · rintro ⟨hk, p, hm, hx⟩
      rw [Dict.get?_of_mem hn hm]
      simp [pureAttr, hk, addr, getBuilder_iff.1 hx]

example : ∃ b, builderAt "/" exRead "g" = some b ∧ b.attrs.get? "unit" = some (.data "mV") :=
  ⟨.group "g" [("unit", .data "mV")] [] [("d", 0)] [], by decide +kernel⟩

/-- The groups of a group's builder are the groups it holds, under their names. -/
theorem C127_groups (F : File) (hF : Canon F) (n : Nat) (root : Oid) (r : Addr × St)
    (h : readBuilder F n root = .ok r) (o : Oid) (ho : o = root ∨ Below F root o) (nd : Node)
    (hnd : F.objs o = some nd) (hd : nd.isData = false) (hn : (Dict.keys nd.members).Nodup) (k : String) (x : Addr) :
    ∃ b, builderAt root r o = some b ∧
      (b.groups.get? k = some x ↔ ∃ p, (k, Entry.hard p) ∈ nd.members ∧ F.ignore p = false ∧
        (∀ np, F.objs p = some np → np.isData = false) ∧ getBuilder r.2 p = .ok x) := by
  obtain ⟨b, nm, hb, hi⟩ := read_img hF h ho
  refine ⟨b, hb, ?_⟩
  rw [(img_group hnd hd hi).1, get?_groups _ _ hn]
  simp only [Dict.get?_nil, Option.or_none]
  constructor
  · intro hg
    unfold groupPart at hg
    split at hg
    · rename_i p hp
      split at hg
      · cases hg
      · rename_i hig
        split at hg
        · cases hg
        · rename_i hD
          cases hg
          have hm := Dict.mem_of_get? hp
          refine ⟨p, hm, by simpa using hig, ?_, read_get h (below_step ho (needs_member hnd hd k _ p hm rfl (by simpa using hig)))⟩
          intro np hnp
          simpa [isD, hnp] using hD
    · cases hg
  · rintro ⟨p, hm, hig, hnp, hx⟩
    rw [Dict.get?_of_mem hn hm]
    have : isD F p = false := by
      unfold isD
      cases hp : F.objs p with
      | none => rfl
      | some np => simpa using hnp np hp
    simp [groupPart, hig, this, addr, getBuilder_iff.1 hx]

example : ∃ b, builderAt "/" exRead "/" = some b ∧ b.groups = [("g", 1)] ∧ getBuilder exRead.2 "g" = .ok 1 :=
  ⟨.group "root" [] [("g", 1)] [("r", 2), ("t", 3)] [("l", 0)], by decide +kernel⟩

/-- The datasets of a group's builder are the datasets it holds, under their names; broken links leave nothing. -/
theorem C127_datasets (F : File) (hF : Canon F) (n : Nat) (root : Oid) (r : Addr × St)
    (h : readBuilder F n root = .ok r) (o : Oid) (ho : o = root ∨ Below F root o) (nd : Node)
    (hnd : F.objs o = some nd) (hd : nd.isData = false) (hn : (Dict.keys nd.members).Nodup) (k : String) (x : Addr) :
    ∃ b, builderAt root r o = some b ∧
      (b.dsets.get? k = some x ↔ ∃ p np, (k, Entry.hard p) ∈ nd.members ∧ F.ignore p = false ∧
        F.objs p = some np ∧ np.isData = true ∧ getBuilder r.2 p = .ok x) := by
  obtain ⟨b, nm, hb, hi⟩ := read_img hF h ho
  refine ⟨b, hb, ?_⟩
  rw [(img_group hnd hd hi).2.1, get?_someDsets (dsets_nodup nd.members {} (by simp [Dict.keys])), get?_dsets _ _ hn]
  simp only [Dict.get?_nil, Option.or_none]
  constructor
  · intro hg
    unfold dsetPart at hg
    split at hg
    · rename_i p hp
      split at hg
      · cases hg
      · rename_i hig
        split at hg
        · rename_i hD
          cases hg
          have hm := Dict.mem_of_get? hp
          have hget := read_get h (below_step ho (needs_member hnd hd k _ p hm rfl (by simpa using hig)))
          unfold isD at hD
          cases hnp : F.objs p with
          | none => simp [hnp] at hD
          | some np => exact ⟨p, np, hm, by simpa using hig, hnp, by simpa [hnp] using hD, hget⟩
        · cases hg
    · cases hg
    · cases hg
  · rintro ⟨p, np, hm, hig, hnp, hD, hx⟩
    rw [Dict.get?_of_mem hn hm]
    simp [dsetPart, hig, isD, hnp, hD, addr, getBuilder_iff.1 hx]

example : ∃ b, builderAt "/" exRead "/" = some b ∧ b.dsets = [("r", 2), ("t", 3)] :=
  ⟨.group "root" [] [("g", 1)] [("r", 2), ("t", 3)] [("l", 0)], by decide +kernel⟩

/-- The links of a group's builder are the links it holds that are not broken, under their names.

Missing: links of one group whose goals have the same last part; see `C127_link_lost_fails`. -/
theorem C127_links_partial (F : File) (hF : Canon F) (n : Nat) (root : Oid) (r : Addr × St)
    (h : readBuilder F n root = .ok r) (o : Oid) (ho : o = root ∨ Below F root o) (nd : Node)
    (hnd : F.objs o = some nd) (hd : nd.isData = false) (hn : (Dict.keys nd.members).Nodup)
    (hl : LinkNames F nd.members) (k : String) (x : Addr) :
    ∃ b, builderAt root r o = some b ∧
      (b.links.get? k = some x ↔ ∃ base p, (k, Entry.link base (some p)) ∈ nd.members ∧ F.ignore p = false ∧
        getBuilder r.2 p = .ok x) := by
  obtain ⟨b, nm, hb, hi⟩ := read_img hF h ho
  refine ⟨b, hb, ?_⟩
  rw [(img_group hnd hd hi).2.2, get?_links hn hl]
  constructor
  · rintro ⟨base, p, hm, hig, rfl⟩
    exact ⟨base, p, hm, hig, read_get h (below_step ho (needs_member hnd hd k _ p hm rfl hig))⟩
  · rintro ⟨base, p, hm, hig, hx⟩
    exact ⟨base, p, hm, hig, by simp [addr, getBuilder_iff.1 hx]⟩

example : ∃ b, builderAt "/" exRead "/" = some b ∧ b.links = [("l", 0)] ∧ getBuilder exRead.2 "d" = .ok 0 :=
  ⟨.group "root" [] [("g", 1)] [("r", 2), ("t", 3)] [("l", 0)], by decide +kernel⟩

/-- The builder of a dataset holds its data: values and arrays of references as they are. -/
theorem C127_data (F : File) (hF : Canon F) (n : Nat) (root : Oid) (r : Addr × St)
    (h : readBuilder F n root = .ok r) (o : Oid) (ho : o = root ∨ Below F root o) (nd : Node)
    (hnd : F.objs o = some nd) (hd : nd.isData = true) :
    ∃ nm at' d, builderAt root r o = some (.dset nm at' d) ∧ (∀ s, nd.data = .data s → d = .data s) ∧
      (∀ l, nd.data = .refs l → d = .refs l) ∧
      (∀ p, nd.data = .sref p → ∃ a np bt e, F.objs p = some np ∧ d = .ref a ∧
        r.2.heap[a]? = some (.dset np.name bt e)) := by
  obtain ⟨b, nm, hb, nd', h1, h2, _⟩ := read_img hF h ho
  rw [hnd] at h1; cases h1
  obtain ⟨d, hbd, hdi⟩ := h2 hd
  refine ⟨nm, _, d, by rw [hb, hbd], ?_, ?_, ?_⟩
  · intro s hs; simpa [DataImg, hs] using hdi
  · intro l hs; simpa [DataImg, hs] using hdi
  · intro p hs
    simp only [DataImg, hs] at hdi
    obtain ⟨a, np, e, h3, h4, h5⟩ := hdi
    exact ⟨a, np, _, e, h3, h4, h5⟩

example : builderAt "/" exRead "r" = some (.dset "r" [] (.refs ["g", "d"])) := by decide +kernel

/-- a group with two links, to `/a/data` and `/b/data` -/
def linksF : File where
  objs := fun o =>
    if o = "/" then some (grp "" [] [("a", .hard "a"), ("b", .hard "b"), ("s", .hard "s")])
    else if o = "a" then some (grp "a" [] [("data", .hard "ad")])
    else if o = "b" then some (grp "b" [] [("data", .hard "bd")])
    else if o = "ad" then some (dst "data" [] (.data "1"))
    else if o = "bd" then some (dst "data" [] (.data "2"))
    else if o = "s" then some (grp "s" [] [("x", .link "data" (some "ad")), ("y", .link "data" (some "bd"))])
    else none
  ignore := fun _ => false

/-- what reading makes of it -/
def linksRead : Addr × St := (5, ⟨[.dset "data" [] (.data "1"), .group "a" [] [] [("data", 0)] [],
  .dset "data" [] (.data "2"), .group "b" [] [] [("data", 2)] [],
  .group "s" [] [] [] [("y", 2)], .group "root" [] [("a", 1), ("b", 3), ("s", 4)] [] []],
  [("ad", 0), ("a", 1), ("bd", 2), ("b", 3), ("s", 4)]⟩)

/-- Of two links in one group to objects that have the same name in different groups, the first is lost, silently. -/
theorem C127_link_lost_fails : readBuilder linksF 4 "/" = .ok linksRead ∧
    builderAt "/" linksRead "s" = some (.group "s" [] [] [] [("y", 2)]) := by
  decide +kernel

/-! ## C128 -/

/-- After reading, exactly the objects below the root can be looked up.

Missing: the root itself; see `C128_root_fails`. -/
theorem C128_lookup_partial (F : File) (n : Nat) (root : Oid) (r : Addr × St) (h : readBuilder F n root = .ok r) (o : Oid) :
    (∃ x, getBuilder r.2 o = .ok x) ↔ Below F root o := by
  constructor
  · rintro ⟨x, hx⟩
    exact (read_below h).2 (Dict.mem_keys_of_mem (Dict.mem_of_get? (getBuilder_iff.1 hx)))
  · intro hb
    exact ⟨_, read_get h hb⟩

example : ∃ x, getBuilder exRead.2 "d" = .ok x := ⟨0, by decide +kernel⟩

/-- The root can never be looked up, so that an element of a dataset of references that refers to it cannot be resolved. -/
theorem C128_root_fails (F : File) (n : Nat) (root : Oid) (r : Addr × St) (h : readBuilder F n root = .ok r) :
    getBuilder r.2 root = .error .value := by
  cases hg : getBuilder r.2 root with
  | ok x => exact absurd ((C128_lookup_partial F n root r h root).1 ⟨x, hg⟩) (read_root h)
  | error e =>
    unfold getBuilder at hg
    split at hg
    · cases hg
    · cases hg; rfl

example : getBuilder exRead.2 "/" = .error .value := C128_root_fails exF 4 "/" _ exF_read

end Verif.H5Read

import Verif.Lemmas.Share

/-! # Properties of copies and merges of catalogs and type maps (C192–C194) -/

namespace Verif.Share
open Verif Verif.Namespace

/-! ## C192 class generators -/

/-- The generators of a type map after a history of `register_generator`. -/
def regs (gs : List Gen) : List Gen := gs.foldl registerGen initGens

/-- Every generator is held once, and those held are the two of a new type map and the registered ones. -/
theorem C192_once (gs : List Gen) : (regs gs).Nodup ∧ ∀ g, g ∈ regs gs ↔ g ∈ gs ∨ g = mci ∨ g = custom := by
  refine ⟨nodup_foldl gs (by decide), fun g => ?_⟩
  unfold regs
  rw [mem_foldl, initGens_eq]
  simp

/-- A generator whose last registration is later is asked earlier. -/
theorem C192_later_first (pre post : List Gen) (a b : Gen) (ha : a ∉ post) (hb : b ∉ post) (hab : b ≠ a)
    (hm : b ∈ regs (pre ++ a :: post)) : [a, b].Sublist (regs (pre ++ a :: post)) := by
  have hb' : b ∈ pre.foldl registerGen initGens := by
    unfold regs at hm
    rw [List.foldl_append, List.foldl_cons, mem_foldl, mem_registerGen] at hm
    rcases hm with h | h | h
    · exact absurd h hb
    · exact absurd h hab
    · exact h
  unfold regs
  rw [List.foldl_append, List.foldl_cons]
  refine sublist_foldl post ha hb ?_
  rw [registerGen_eq]
  exact (List.singleton_sublist.2 ((List.mem_erase_of_ne hab).2 hb')).cons_cons a

example : regs [5, 6, 5, 7] = [7, 5, 6, mci, custom] := by decide

/-- A field is given to the generator registered last among those that apply to it. -/
theorem C192_used (applies : Gen → Bool) (pre post : List Gen) (g : Gen) (hg : applies g = true)
    (hp : ∀ x ∈ post, applies x = false) : genFor applies (regs (pre ++ g :: post)) = some g := by
  have hgp : g ∉ post := fun h => by rw [hp g h] at hg; cases hg
  refine find?_sublist_first (C192_once _).1 (((C192_once _).2 g).2 (.inl (by simp))) hg fun b hb hpb hbg => ?_
  exact C192_later_first pre post g b hgp (fun h => by rw [hp b h] at hpb; cases hpb) hbg hb

/-- A field to which no registered generator applies is given to `MCIClassGenerator` or `CustomClassGenerator`; the latter
applies to every field, so every field is handled. -/
theorem C192_default (applies : Gen → Bool) (gs : List Gen) (hp : ∀ x ∈ gs, applies x = false)
    (hc : applies custom = true) : genFor applies (regs gs) = some (if applies mci then mci else custom) := by
  have hmc : ∀ g ∈ gs, g ≠ custom ∧ (applies mci = true → g ≠ mci) := by
    intro g hg
    have hpg := hp g hg
    constructor
    · intro e
      rw [e, hc] at hpg
      cases hpg
    · intro h e
      rw [e, h] at hpg
      cases hpg
  have hdef : ∀ b ∈ regs gs, applies b = true → b = mci ∨ b = custom := fun b hb hpb =>
    (((C192_once gs).2 b).1 hb).elim (fun h => by rw [hp b h] at hpb; cases hpb) id
  by_cases hm : applies mci = true
  · rw [if_pos hm]
    refine find?_sublist_first (C192_once _).1 (((C192_once _).2 _).2 (.inr (.inl rfl))) hm fun b hb hpb hbm => ?_
    have : b = custom := (hdef b hb hpb).resolve_left hbm
    subst this
    exact sublist_foldl gs (fun h => (hmc _ h).2 hm rfl) (fun h => (hmc _ h).1 rfl) (by decide)
  · rw [if_neg hm]
    refine find?_sublist_first (C192_once _).1 (((C192_once _).2 _).2 (.inr (.inr rfl))) hc fun b hb hpb hbm => ?_
    have : b = mci := (hdef b hb hpb).resolve_right hbm
    subst this
    exact absurd hpb hm

/-- field of a table: the generator for tables (5) applies -/
example : genFor (fun g => g == 5 || g == custom) (regs [5]) = some 5 ∧
    genFor (fun g => g == mci || g == custom) (regs [5]) = some mci :=
  ⟨C192_used _ [] [] 5 rfl (by simp), C192_default _ [5] (by decide) rfl⟩

/-- The generators that can be reached by registering, copying, and merging different type maps. -/
inductive Reach : List Gen → Prop where
  | init : Reach initGens
  | reg {l : List Gen} (g : Gen) : Reach l → Reach (registerGen l g)
  | merge {l m : List Gen} : Reach l → Reach m → Reach (mergeGens l m)

theorem reach_ok {l : List Gen} (h : Reach l) : l.Nodup ∧ mci ∈ l ∧ custom ∈ l := by
  induction h with
  | init => decide
  | reg g _ ih => exact ⟨nodup_registerGen ih.1, mem_registerGen.2 (.inr ih.2.1), mem_registerGen.2 (.inr ih.2.2)⟩
  | merge _ _ ih1 ih2 =>
    rw [mergeGens_eq ih1.1 ih2.1]
    refine ⟨?_, List.mem_append_left _ ih2.2.1, List.mem_append_left _ ih2.2.2⟩
    rw [List.nodup_append]
    refine ⟨ih2.1, ih1.1.filter _, ?_⟩
    intro a ha b hb e
    subst e
    have := (List.mem_filter.1 hb).2
    rw [List.contains_iff_mem.2 ha] at this
    cases this

/-- A copy of a type map has the same generators in the same order. -/
theorem C192_copy (t t' : TM) (ht : Reach t.gens) (h : copyTM t = (t', .ok ())) : t'.gens = t.gens := by
  obtain ⟨_, e⟩ := mergeTM_ok h
  rw [e, mergeGens_eq (show initGens.Nodup by decide) (reach_ok ht).1]
  show t.gens ++ ([mci, custom] : List Gen).filter (fun g => !t.gens.contains g) = t.gens
  rw [show ([mci, custom] : List Gen).filter (fun g => !t.gens.contains g) = [] from ?_, List.append_nil]
  simp [(reach_ok ht).2.1, (reach_ok ht).2.2]

example : (copyTM ⟨TypeMap.init [] 0, regs [5, 6]⟩).2 = .ok () ∧
    (copyTM ⟨TypeMap.init [] 0, regs [5, 6]⟩).1.gens = [6, 5, mci, custom] := by decide

/-- Merging keeps all generators: those of the other type map come first, then the rest, each in their order. -/
theorem C192_merge_order (t u t' : TM) (ht : Reach t.gens) (hu : Reach u.gens) (h : mergeTM t u = (t', .ok ())) :
    t'.gens = u.gens ++ t.gens.filter (fun g => !u.gens.contains g) := by
  obtain ⟨_, e⟩ := mergeTM_ok h
  rw [e, mergeGens_eq (reach_ok ht).1 (reach_ok hu).1]

/-- After a merge the generators of the other type map are used as they were there.  Missing: the generators that only
this type map has are not used any more (see below). -/
theorem C192_merge_partial (t u t' : TM) (ht : Reach t.gens) (hu : Reach u.gens) (h : mergeTM t u = (t', .ok ()))
    (applies : Gen → Bool) (g : Gen) (hg : genFor applies u.gens = some g) : genFor applies t'.gens = some g := by
  rw [C192_merge_order t u t' ht hu h]
  unfold genFor at hg ⊢
  rw [List.find?_append, hg]
  rfl

/-- Whatever generators a type map has, after merging any other type map into it no field is given to a generator that the
other one does not have: `CustomClassGenerator`, which applies to every field, comes before them. -/
theorem C192_merge_forgets (t u t' : TM) (ht : Reach t.gens) (hu : Reach u.gens) (h : mergeTM t u = (t', .ok ()))
    (applies : Gen → Bool) (hc : applies custom = true) : genFor applies t'.gens = genFor applies u.gens := by
  cases hg : genFor applies u.gens with
  | some g => exact C192_merge_partial t u t' ht hu h applies g hg
  | none =>
    unfold genFor at hg
    have := List.find?_eq_none.1 hg custom (reach_ok hu).2.2
    exact absurd hc this

/-- The package's type map has a generator for tables (5).  After merging a new type map into it, a column of a generated
table class is no longer given to that generator. -/
theorem C192_merge_fails :
    let t : TM := ⟨TypeMap.init [] 0, regs [5]⟩
    let u : TM := ⟨TypeMap.init [] 0, initGens⟩
    let applies := fun g => g == 5 || g == custom
    genFor applies t.gens = some 5 ∧ (mergeTM t u).2 = .ok () ∧ genFor applies (mergeTM t u).1.gens = some custom := by
  decide

/-- `get_type_map(extensions=t)` merges a type map with itself while its list of generators is being iterated over: the
order changes, and `MCIClassGenerator` comes after `CustomClassGenerator`, so it is not used any more. -/
theorem C192_self_fails :
    let t : TM := ⟨TypeMap.init [] 0, regs [5]⟩
    let applies := fun g => g == mci || g == custom
    t.gens = [5, mci, custom] ∧ (getTypeMapOf t).2 = .ok () ∧ (getTypeMapOf t).1.gens = [5, custom, mci] ∧
    genFor applies t.gens = some mci ∧ genFor applies (getTypeMapOf t).1.gens = some custom := by decide

/-! ## C193 `get_type_map` -/

/-- With a list of type maps, if it returns: the class of every type is the one the last of them has, or the package's. -/
theorem C193_last_wins_partial (f : Nat) (g : TM) (us : List TM) (t : TM) (hg : TypeMap.Inv g.st)
    (hu : ∀ u ∈ us, TypeMap.Inv u.st) (h : getTypeMapList f g (us.map .map) = (t, .ok ())) (k : TypeMap.Key) :
    TypeMap.entry t.st.ct k =
      (us.reverse.findSome? fun u => TypeMap.entry u.st.ct k).or (TypeMap.entry g.st.ct k) := by
  unfold getTypeMapList at h
  rcases hr : copyTM g with ⟨t1, r⟩
  rw [hr] at h
  cases r with
  | error e => simp at h
  | ok v =>
    obtain ⟨m, _⟩ := mergeTM_ok hr
    obtain ⟨e1, _⟩ := merge_entry hg.wf m k
    obtain ⟨e2, _⟩ := applyExts_entry f us t1 t (fun u hm => (hu u hm).wf) h k
    rw [e2, e1]
    congr 1
    show (TypeMap.entry g.st.ct k).or (TypeMap.entry (TypeMap.fresh g.st).ct k) = _
    rw [show TypeMap.entry (TypeMap.fresh g.st).ct k = none from rfl]
    cases TypeMap.entry g.st.ct k <;> rfl

/-- A type map with types of a namespace that the package does not have cannot be in the list: the namespaces of the
type maps are not taken over. -/
theorem C193_own_namespace (f : Nat) (g : TM) (us : List TM) (hg : TypeMap.Inv g.st) (hu : ∀ u ∈ us, TypeMap.Inv u.st)
    (u : TM) (hm : u ∈ us) (k : TypeMap.Key) (e : TypeMap.Entry) (he : TypeMap.entry u.st.ct k = some e)
    (hk : ∀ s, TypeMap.getSpec g.st.cat k ≠ .ok s) : (getTypeMapList f g (us.map .map)).2 ≠ .ok () := by
  intro hok
  rcases hl : getTypeMapList f g (us.map .map) with ⟨t, r⟩
  rw [hl] at hok
  simp only at hok
  subst hok
  unfold getTypeMapList at hl
  rcases hr : copyTM g with ⟨t1, r⟩
  rw [hr] at hl
  cases r with
  | error e => simp at hl
  | ok v =>
    obtain ⟨m, _⟩ := mergeTM_ok hr
    obtain ⟨s, hs⟩ := applyExts_specs f us t1 t (fun u hm => (hu u hm).wf) hl u hm k e he
    rw [(merge_entry hg.wf m k).2] at hs
    exact hk s hs

/-- The catalog of the package, and one with a further namespace. -/
def exCat : Dict String (Dict String TypeMap.SpecT) := [("core", [("Base", .group none (some "Base") [] [])])]

def exCat2 : Dict String (Dict String TypeMap.SpecT) := exCat ++ [("lab", [("Probe", .group none (some "Probe") [] [])])]

def exG : TM := ⟨TypeMap.run 10 (TypeMap.init exCat 100) [.define [0], .define [0], .reg ("core", "Base") 2], regs [5]⟩

/-- another type map that has a class of its own for `Base` -/
def exU : TM := ⟨TypeMap.run 10 (TypeMap.init exCat 100) [.define [0], .define [0], .reg ("core", "Base") 3], initGens⟩

/-- a type map with a namespace of its own -/
def exW : TM := ⟨TypeMap.run 10 (TypeMap.init exCat2 100) [.define [0], .define [0], .reg ("lab", "Probe") 3], initGens⟩

example : (getTypeMapList 10 exG ([exU].map .map)).2 = .ok () ∧
    TypeMap.entry (getTypeMapList 10 exG ([exU].map .map)).1.st.ct ("core", "Base") = some (.cls 3) := by decide +kernel

/-- The type maps of the example are reached by calls, so the hypotheses of the two theorems hold for them. -/
theorem exInv : TypeMap.Inv exG.st ∧ TypeMap.Inv exU.st ∧ TypeMap.Inv exW.st := by
  refine ⟨?_, ?_, ?_⟩
  all_goals
    refine (TypeMap.run_spec 10 _ _ (TypeMap.init_inv _ _) ?_).2.1
    exact ⟨by decide, trivial⟩

theorem C193_own_namespace_fails : (getTypeMapList 10 exG [.map exW]).2 = .error .keyError := by decide +kernel

/-- The types of a type map given directly keep their classes. -/
theorem C193_direct (t t' : TM) (ht : TypeMap.Inv t.st) (h : getTypeMapOf t = (t', .ok ())) (k : TypeMap.Key) :
    TypeMap.entry t'.st.ct k = TypeMap.entry t.st.ct k := by
  unfold getTypeMapOf mergeSelf at h
  rcases hr : TypeMap.merge t.st t.st with ⟨st, r⟩
  rw [hr] at h
  cases r with
  | error e => simp at h
  | ok v =>
    simp only [Prod.mk.injEq] at h
    rw [← h.1]
    rw [(merge_entry ht.wf hr k).1]
    cases TypeMap.entry t.st.ct k <;> rfl

example : (getTypeMapOf exW).2 = .ok () ∧
    TypeMap.entry (getTypeMapOf exW).1.st.ct ("lab", "Probe") = some (.cls 3) := by decide +kernel

/-! ## C194 copies of catalogs -/

/-- A program that makes any calls, then copies catalog `i`: the copy shows what the original shows. -/
theorem C194_copy (os : List Op) (i : Nat) (v : State) (hv : (run World.empty os).1.views[i]? = some v) :
    (step (run World.empty os).1 (.copy i)).1.views = (run World.empty os).1.views ++ [v] := by
  obtain ⟨_, h, _⟩ := step_sim (run_inv os inv_empty) (.copy i) trivial
  rw [h]
  simp only [stepV, hv]

/-- Programs behave as if catalogs and copies shared nothing — every call gives the same and every catalog shows the
same — as long as no call writes into a shared record: it adds no new type to a source known before a copy was made, and
does not load a namespace of which a load failed before a copy was made.  Missing: those calls (see below). -/
theorem C194_refines_partial (os : List Op) (h : SafeRun World.empty os) :
    (run World.empty os).2 = (runV [] os).2 ∧ (run World.empty os).1.views = (runV [] os).1 :=
  ⟨(run_sim os inv_empty h).2.2, (run_sim os inv_empty h).2.1⟩

/-- Loading a file whose namespaces were never attempted in a catalog leaves all others alone. -/
theorem C194_load_partial (os : List Op) (i : Nat) (rd : Reader) (resolve : Bool) (path : String) (v : State)
    (hv : (run World.empty os).1.views[i]? = some v)
    (hf : ∀ defs, rd.readNs path = .ok defs → ∀ d ∈ defs, Dict.get? v.includedSources d.name = none)
    (j : Nat) (hj : j ≠ i) :
    (step (run World.empty os).1 (.load i rd resolve path)).1.views[j]? = (run World.empty os).1.views[j]? := by
  obtain ⟨_, h, _⟩ := step_sim (run_inv os inv_empty) (.load i rd resolve path) (by
    intro c hc defs hd d hm r hr
    rw [views_get, hc] at hv
    cases hv
    have := hf defs hd d hm
    rw [view_inc, hr] at this
    cases this)
  rw [h]
  simp only [stepV, hv]
  rw [List.getElem?_set_ne (fun e => hj e.symm)]

/-- Adding a namespace whose types from known sources are known already leaves all other catalogs alone. -/
theorem C194_add_partial (os : List Op) (i : Nat) (name : String) (n : NSpace) (v : State)
    (hv : (run World.empty os).1.views[i]? = some v)
    (hf : ∀ t ∈ n.cat.specs.keys, ∀ l, Dict.get? v.loaded (Dict.get? n.cat.sources t).join = some l → t ∈ l)
    (j : Nat) (hj : j ≠ i) :
    (step (run World.empty os).1 (.add i name n)).1.views[j]? = (run World.empty os).1.views[j]? := by
  obtain ⟨_, h, _⟩ := step_sim (run_inv os inv_empty) (.add i name n) (by
    intro c hc p hp t ht r hr
    rw [List.mem_singleton] at hp
    subst hp
    rw [views_get, hc] at hv
    cases hv
    refine .inl (hf t ht _ ?_)
    rw [view_loaded, hr]
    rfl)
  rw [h]
  simp only [stepV, hv]
  rw [List.getElem?_set_ne (fun e => hj e.symm)]

/-- Merging a catalog all of whose types from known sources are known already leaves all other catalogs alone. -/
theorem C194_merge_partial (os : List Op) (i k : Nat) (v u : State)
    (hv : (run World.empty os).1.views[i]? = some v) (hu : (run World.empty os).1.views[k]? = some u)
    (hf : ∀ p ∈ u.namespaces, ∀ t ∈ p.2.cat.specs.keys, ∀ l,
      Dict.get? v.loaded (Dict.get? p.2.cat.sources t).join = some l → t ∈ l)
    (j : Nat) (hj : j ≠ i) :
    (step (run World.empty os).1 (.merge i k)).1.views[j]? = (run World.empty os).1.views[j]? := by
  obtain ⟨_, h, _⟩ := step_sim (run_inv os inv_empty) (.merge i k) (by
    intro c d hc hd p hp t ht r hr
    rw [views_get, hc] at hv
    cases hv
    rw [views_get, hd] at hu
    cases hu
    refine .inl (hf p hp t ht _ ?_)
    rw [view_loaded, hr]
    rfl)
  rw [h]
  simp only [stepV, hv, hu]
  rw [List.getElem?_set_ne (fun e => hj e.symm)]

/-- namespaces with one type, from a file `core.yaml` -/
def exNs (t : String) : NSpace := ⟨"1", ⟨[(t, ⟨t, none, [], 0⟩)], [(t, some "core.yaml")]⟩⟩

/-- reads `ns.yaml`, whose namespace `x` has the files `a.yaml` and `b.yaml`, of which the latter cannot be read -/
def exRd : Reader :=
  { depth := 10, dir := "d"
    readNs := fun p => .ok [⟨"x", "1", if p == "ns.yaml" then [⟨some "a.yaml", none, none⟩, ⟨some "b.yaml", none, none⟩]
      else [⟨some "c.yaml", none, none⟩], none⟩]
    readSpec := fun s => if s == "b.yaml" then .error .valueError
      else .ok [⟨some s, [], none, [⟨s, none, [], 0⟩]⟩] }

example : (run World.empty [.new, .load 0 exRd true "ok.yaml", .copy 0, .add 1 "core" (exNs "T")]).1.views.map
    (fun v => (v.namespaces.keys, getTypes v "c.yaml", getTypes v "core.yaml")) =
    [(["x"], ["c.yaml"], []), (["x", "core"], ["c.yaml"], ["T"])] := by decide +kernel

example : ∀ j ≠ 1, (step (run World.empty [.new, .load 0 exRd true "ok.yaml", .copy 0]).1
    (.add 1 "core" (exNs "T"))).1.views[j]? =
    (run World.empty [.new, .load 0 exRd true "ok.yaml", .copy 0]).1.views[j]? :=
  C194_add_partial [.new, .load 0 exRd true "ok.yaml", .copy 0] 1 "core" (exNs "T")
    ⟨[("x", ⟨"1", ⟨[("c.yaml", ⟨"c.yaml", none, [], 0⟩)], [("c.yaml", some "c.yaml")]⟩⟩)],
      [(some "c.yaml", ["c.yaml"])], [("d/ok.yaml", [("x", [])])], [("x", ["c.yaml"])]⟩ (by decide +kernel)
    (by decide +kernel)

/-- A namespace added to a catalog and, under another name, to its copy: all calls are of the kind asked for. -/
theorem exSafe : SafeRun World.empty [.new, .add 0 "lab" (exNs "T"), .copy 0, .add 1 "again" (exNs "T")] := by
  refine ⟨trivial, ?_, trivial, ?_, trivial⟩
  · intro c hc p hp t ht r hr
    cases hc
    cases List.mem_singleton.1 hp
    cases List.mem_singleton.1 ht
    cases hr
  · intro c hc p hp t ht r hr
    cases hc
    cases List.mem_singleton.1 hp
    cases List.mem_singleton.1 ht
    have h0 : some 0 = some r := hr
    cases h0
    exact .inl (by decide)

example : (run World.empty [.new, .add 0 "lab" (exNs "T"), .copy 0, .add 1 "again" (exNs "T")]).1.views =
    (runV [] [.new, .add 0 "lab" (exNs "T"), .copy 0, .add 1 "again" (exNs "T")]).1 :=
  (C194_refines_partial _ exSafe).2

/-- Two extensions each have a file `core.yaml`.  Adding the second to a copy of the catalog with the first adds its type to
what the original lists for that file. -/
theorem C194_add_fails :
    let os : List Op := [.new, .add 0 "lab" (exNs "T"), .copy 0]
    let w := (run World.empty os).1
    let w' := (step w (.add 1 "other" (exNs "U"))).1
    w.views.map (fun v => getTypes v "core.yaml") = [["T"], ["T"]] ∧
    w'.views.map (fun v => (v.namespaces.keys, getTypes v "core.yaml")) =
      [(["lab"], ["T", "U"]), (["lab", "other"], ["T", "U"])] := by decide +kernel

/-- A load that fails leaves the list of sources read so far behind.  Loading the namespace into a copy from another file
appends to that list, also for the original. -/
theorem C194_load_fails :
    let os : List Op := [.new, .load 0 exRd true "ns.yaml", .copy 0]
    let w := (run World.empty os).1
    let w' := (step w (.load 1 exRd true "ok.yaml")).1
    w.views.map (fun v => Dict.get? v.includedSources "x") = [some ["a.yaml"], some ["a.yaml"]] ∧
    w'.views.map (fun v => (v.namespaces.keys, Dict.get? v.includedSources "x")) =
      [([], some ["a.yaml", "c.yaml"]), (["x"], some ["a.yaml", "c.yaml"])] := by decide +kernel

end Verif.Share

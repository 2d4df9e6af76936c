import Verif.Lemmas.NsLoad

/-!
# C176–C178: what is written for a namespace, and loading it again
-/

namespace Verif.NsWrite
open Verif Verif.Namespace

namespace Ex

/-- an entry that defines a type; `inc`: the type it extends -/
def ty (d : String) (inc : Option String) (n : Nat) : Item := ⟨some d, inc.toList, none, [⟨d, inc, [], n⟩]⟩

/-- groups and datasets -/
def g (d : String) (inc : Option String) : BSpec := ⟨true, ty d inc 0⟩

/-- a dataset -/
def d (d : String) (inc : Option String) : BSpec := ⟨false, ty d inc 1⟩

/-- an empty builder -/
def b0 : Builder := ⟨"ext", "1.0", [], [], {}⟩

/-- a catalog with a namespace `core` that has the type `Base` -/
def st : State := ⟨[("core", ⟨"1.0", ⟨[("Base", ⟨"Base", none, [], 7⟩)], [("Base", some "base.yaml")]⟩⟩)], [(some "base.yaml", ["Base"])], [], []⟩

/-- an extension of it in two files -/
def ops : List Op := [.ns "core", .spec "a.yaml" (g "G" (some "Base")), .spec "a.yaml" (d "D" none), .spec "b.yaml" (g "H" (some "G"))]

end Ex

/-! ## Helpers -/

/-- a builder that has just been made -/
abbrev start (name version : String) : Builder := ⟨name, version, [], [], {}⟩

theorem run_name (os : List Op) (b : Builder) : (run b os).name = b.name ∧ (run b os).version = b.version := by
  induction os generalizing b with
  | nil => exact ⟨rfl, rfl⟩
  | cons o os ih =>
    unfold run
    have : (step b o).1.name = b.name ∧ (step b o).1.version = b.version := by
      cases o with
      | spec s sp =>
        unfold step addSpec
        simp only
        split
        · exact ⟨rfl, rfl⟩
        · split <;> exact ⟨rfl, rfl⟩
      | source s d t =>
        unfold step addSource
        simp only
        split <;> exact ⟨rfl, rfl⟩
      | type t src ns =>
        cases src with
        | some s =>
          unfold step includeType
          simp only
          split <;> exact ⟨rfl, rfl⟩
        | none => cases ns <;> exact ⟨rfl, rfl⟩
      | ns n => exact ⟨rfl, rfl⟩
    exact ⟨(ih _).1.trans this.1, (ih _).2.trans this.2⟩

/-- no source has an empty list of types -/
def Filled (d : Dict String Src) : Prop := ∀ s i, Dict.get? d s = some i → i.types ≠ some []

theorem put_filled {d : Dict String Src} (h : Filled d) (s : String) (a t : Option String) : Filled (putSource d s a t) := by
  intro s' i hi
  unfold putSource at hi
  rw [Dict.get?_set] at hi
  by_cases hs : s' = s
  · rw [if_pos hs] at hi
    cases hi
    simp only
    cases ho : Dict.get? d s with
    | none => exact (by intro e; cases e)
    | some j => exact h s j ho
  · rw [if_neg hs] at hi
    exact h s' i hi

theorem append_filled {d : Dict String Src} (h : Filled d) (s : String) (x : Ty) : Filled (appendType d s x) := by
  intro s' i hi
  unfold appendType at hi
  rw [Dict.get?_set] at hi
  by_cases hs : s' = s
  · rw [if_pos hs] at hi
    cases hi
    simp only
    intro e
    injection e with e
    exact (List.append_ne_nil_of_right_ne_nil _ (List.cons_ne_nil x [])) e
  · rw [if_neg hs] at hi
    exact h s' i hi

theorem run_filled : ∀ {os : List Op} {b : Builder}, Filled b.sources → Filled (run b os).sources
  | [], _, h => h
  | o :: os, b, h => by
    unfold run
    apply run_filled
    cases o with
    | spec s sp =>
      unfold step addSpec
      simp only
      split
      · exact h
      · split
        · exact h
        · exact append_filled (put_filled h _ _ _) _ _
    | source s d t =>
      unfold step addSource
      simp only
      split
      · exact h
      · exact put_filled h _ _ _
    | type t src ns =>
      cases src with
      | some s =>
        unfold step includeType
        simp only
        split
        · exact h
        · exact append_filled (put_filled h _ _ _) _ _
      | none => cases ns <;> exact h
    | ns n => exact h

theorem export_ok {b : Builder} {fs f : Dict String File} {path : String} (h : «export» b fs path = (f, .ok ())) :
    ∃ f' els, exportSources fs b.sources = (f', .ok els) ∧ f = Dict.set f' path (.ns b.name b.version (nsEls b ++ els)) := by
  unfold «export» at h
  split at h
  · cases h
  · rename_i f' els he
    split at h
    · cases h
    · cases h
      exact ⟨f', els, he, rfl⟩

theorem specs_mem {b : Bool} {i : Item} : ∀ {l : List Ty}, i ∈ specs b l ↔ ∃ sp, Ty.spec sp ∈ l ∧ sp.isGroup = b ∧ sp.item = i
  | [] => by simp [specs]
  | .name s :: l => by
    unfold specs
    rw [specs_mem]
    constructor
    · rintro ⟨sp, h, hh⟩; exact ⟨sp, List.mem_cons_of_mem _ h, hh⟩
    · rintro ⟨sp, h, hh⟩
      rcases List.mem_cons.1 h with h | h
      · cases h
      · exact ⟨sp, h, hh⟩
  | .spec x :: l => by
    unfold specs
    have ih := specs_mem (b := b) (i := i) (l := l)
    split
    · rename_i hb
      rw [List.mem_cons, ih]
      constructor
      · rintro (rfl | ⟨sp, h, hh⟩)
        · exact ⟨x, List.mem_cons_self .., hb, rfl⟩
        · exact ⟨sp, List.mem_cons_of_mem _ h, hh⟩
      · rintro ⟨sp, h, hh, he⟩
        rcases List.mem_cons.1 h with h | h
        · cases h; exact .inl he.symm
        · exact .inr ⟨sp, h, hh, he⟩
    · rename_i hb
      rw [ih]
      constructor
      · rintro ⟨sp, h, hh⟩; exact ⟨sp, List.mem_cons_of_mem _ h, hh⟩
      · rintro ⟨sp, h, hh, he⟩
        rcases List.mem_cons.1 h with h | h
        · cases h; exact (hb hh).elim
        · exact ⟨sp, h, hh, he⟩

theorem names_mem {t : String} : ∀ {l : List Ty}, t ∈ names l ↔ Ty.name t ∈ l
  | [] => by simp [names]
  | .name s :: l => by unfold names; rw [List.mem_cons, names_mem, List.mem_cons, Ty.name.injEq]
  | .spec x :: l => by unfold names; rw [names_mem, List.mem_cons]; simp

theorem ofSource_mem {s : String} {x : Ty} {l : List (String × Ty)} : x ∈ ofSource s l ↔ (s, x) ∈ l := by
  unfold ofSource
  rw [List.mem_map]
  constructor
  · rintro ⟨y, hy, rfl⟩
    rw [List.mem_filter] at hy
    have : y.1 = s := of_decide_eq_true hy.2
    subst this
    exact hy.1
  · intro h
    exact ⟨(s, x), List.mem_filter.2 ⟨h, decide_eq_true rfl⟩, rfl⟩

/-- the specs of groups or of datasets among the types of a source, in order -/
def specsIn (isGroup : Bool) (l : List Ty) : List Item := l.filterMap (fun x => match x with
  | .spec b => if b.isGroup = isGroup then some b.item else none
  | .name _ => none)

/-- the names among them, in order -/
def namesIn (l : List Ty) : List String := l.filterMap (fun x => match x with
  | .spec _ => none
  | .name s => some s)

theorem specs_eq (g : Bool) : ∀ l : List Ty, specs g l = specsIn g l
  | [] => rfl
  | .name s :: l => by
    unfold specs
    rw [specs_eq g l]
    rfl
  | .spec b :: l => by
    unfold specs specsIn
    rw [specs_eq g l]
    by_cases h : b.isGroup = g
    · rw [if_pos h, List.filterMap_cons_some (b := b.item) (by simp only [h, if_true])]
      rfl
    · rw [if_neg h, List.filterMap_cons_none (by simp only [h, if_false])]
      rfl

theorem names_eq : ∀ l : List Ty, names l = namesIn l
  | [] => rfl
  | .name s :: l => by
    unfold names
    rw [names_eq l]
    rfl
  | .spec b :: l => by
    unfold names
    rw [names_eq l]
    rfl

/-! ## C177: the files -/

/-- every spec that was added is in the file of its source, once for each time it was added and in this order, groups and datasets apart; files of other names stay as they
were; the namespace lists the included namespaces and then the sources -/
theorem C177_files (name version : String) (os : List Op) (fs f : Dict String File) (path : String)
    (h : «export» (run (start name version) os) fs path = (f, .ok ())) :
    (∀ s ∈ Dict.keys (run (start name version) os).sources, s ≠ path → (∃ sp, (s, Ty.spec sp) ∈ taken (start name version) os) →
      Dict.get? f s = some (.specs (specsIn true (ofSource s (taken (start name version) os))) (specsIn false (ofSource s (taken (start name version) os))))) ∧
    (∀ s, s ∉ Dict.keys (run (start name version) os).sources → s ≠ path → Dict.get? f s = Dict.get? fs s) ∧
    ∃ els, Dict.get? f path = some (.ns name version els) ∧ els.map El.el =
      (run (start name version) os).nss.map (fun x => ⟨none, some x.1, x.2⟩) ++
      (Dict.keys (run (start name version) os).sources).map (fun s => ⟨some s, none,
        if (namesIn (ofSource s (taken (start name version) os))).isEmpty then none else some (namesIn (ofSource s (taken (start name version) os)))⟩) := by
  simp only [← specs_eq, ← names_eq]
  obtain ⟨f', els, he, hf⟩ := export_ok h
  have hn : (Dict.keys (run (start name version) os).sources).Nodup := run_nodup (by exact List.nodup_nil)
  obtain ⟨h1, h2⟩ := exportSources_ok hn he
  have htypes : ∀ s i, (s, i) ∈ (run (start name version) os).sources → i.types.getD [] = ofSource s (taken (start name version) os) := by
    intro s i hm
    have := types_run os (start name version) s
    unfold typesOf at this
    rw [Dict.get?_of_mem hn hm] at this
    simpa using this
  refine ⟨?_, ?_, nsEls (run (start name version) os) ++ els, ?_, ?_⟩
  · intro s hs hp ⟨sp, hsp⟩
    obtain ⟨⟨s', i⟩, hm, rfl⟩ := List.mem_map.1 hs
    obtain ⟨ts, e1, e2, _⟩ := h2 s' i hm
    have e3 := htypes s' i hm
    rw [e1, Option.getD_some] at e3
    simp only at *
    rw [hf, Dict.get?_set_ne hp]
    have hout : out ts = true := by
      unfold out
      rw [Bool.not_eq_true', Bool.and_eq_false_iff]
      have hmem : sp.item ∈ specs sp.isGroup ts := specs_mem.2 ⟨sp, by rw [e3]; exact ofSource_mem.2 hsp, rfl, rfl⟩
      cases hg : sp.isGroup with
      | true => left; rw [hg] at hmem; cases hx : specs true ts with
        | nil => rw [hx] at hmem; cases hmem
        | cons => rfl
      | false => right; rw [hg] at hmem; cases hx : specs false ts with
        | nil => rw [hx] at hmem; cases hmem
        | cons => rfl
    rw [(e2 hout).2, e3]
  · intro s hs hp
    rw [hf, Dict.get?_set_ne hp]
    have := exportSources_other (fs := fs) hs
    rw [he] at this
    exact this
  · rw [hf, Dict.get?_set_self, (run_name os _).1, (run_name os _).2]
  · rw [List.map_append, h1]
    congr 1
    · unfold nsEls
      rw [List.map_map]
      rfl
    · unfold Dict.keys
      rw [List.map_map, List.map_map]
      apply List.map_congr_left
      rintro ⟨s, i⟩ hm
      simp only [Function.comp, elOf, htypes s i hm]

example : (fun r : Dict String File × Except Err Unit => (r.1, r.2)) («export» (run Ex.b0 Ex.ops) [] "ns.yaml") =
    ([("a.yaml", .specs [Ex.ty "G" (some "Base") 0] [Ex.ty "D" none 1]), ("b.yaml", .specs [Ex.ty "H" (some "G") 0] []),
      ("ns.yaml", .ns "ext" "1.0" [⟨⟨none, some "core", none⟩, none, none⟩, ⟨⟨some "a.yaml", none, none⟩, none, none⟩, ⟨⟨some "b.yaml", none, none⟩, none, none⟩])], .ok ()) := by
  decide +kernel

/-- an export does not need anything from files that are there, and writes the same again -/
theorem C177_again (b : Builder) (fs f : Dict String File) (path : String) (h : «export» b fs path = (f, .ok ())) (hn : (Dict.keys b.sources).Nodup) (fs' : Dict String File) :
    ∃ f', «export» b fs' path = (f', .ok ()) ∧ ∀ s, (s = path ∨ ∃ i ts, (s, i) ∈ b.sources ∧ i.types = some ts ∧ out ts = true) → Dict.get? f' s = Dict.get? f s := by
  have hres : ∀ (l : List (String × Src)) (fs fs' f : Dict String File) (els : List El), exportSources fs l = (f, .ok els) →
      ∃ f', exportSources fs' l = (f', .ok els) := by
    intro l
    induction l with
    | nil => intro fs fs' f els h; cases h; exact ⟨fs', rfl⟩
    | cons x l ih =>
      intro fs fs' f els h
      obtain ⟨p, i⟩ := x
      unfold exportSources at h ⊢
      split at h
      · cases h
      · rename_i ts hts
        simp only at h ⊢
        split at h
        · cases h
        · rename_i hc
          split at h
          · cases h
          · rename_i f1 els1 he
            cases h
            obtain ⟨f2, h2⟩ := ih _ (if (!((specs true ts).isEmpty && (specs false ts).isEmpty)) = true then
              Dict.set fs' p (.specs (specs true ts) (specs false ts)) else fs') _ _ he
            refine ⟨f2, ?_⟩
            rw [if_neg hc, h2]
  obtain ⟨f1, els, he, hf⟩ := export_ok h
  obtain ⟨f2, he2⟩ := hres _ _ fs' _ _ he
  have hw : b.name.toList.any whitespace.contains = false := by
    unfold «export» at h
    rw [he] at h
    simp only at h
    split at h
    · cases h
    · rename_i hw; exact Bool.not_eq_true _ ▸ hw
  refine ⟨Dict.set f2 path (.ns b.name b.version (nsEls b ++ els)), ?_, ?_⟩
  · unfold «export»
    rw [he2]
    simp only [hw, Bool.false_eq_true, if_false]
  · intro s hs
    rw [hf]
    by_cases hp : s = path
    · rw [hp, Dict.get?_set_self, Dict.get?_set_self]
    · rw [Dict.get?_set_ne hp, Dict.get?_set_ne hp]
      rcases hs with hs | ⟨i, ts, hi, hts, ho⟩
      · exact (hp hs).elim
      · obtain ⟨_, h1⟩ := exportSources_ok hn he
        obtain ⟨_, h2⟩ := exportSources_ok hn he2
        obtain ⟨ts1, e1, e2, _⟩ := h1 s i hi
        obtain ⟨ts2, e3, e4, _⟩ := h2 s i hi
        rw [hts] at e1 e3
        cases e1
        cases e3
        rw [(e2 ho).2, (e4 ho).2]

example : («export» (run Ex.b0 Ex.ops) («export» (run Ex.b0 Ex.ops) [] "ns.yaml").1 "ns.yaml") = «export» (run Ex.b0 Ex.ops) [] "ns.yaml" := by decide +kernel

/-- the title of a source is its `doc`, or `None` -/
theorem C177_title_fails : Dict.get? («export» (run Ex.b0 [.source "a.yaml" (some "the doc") (some "the title"), .spec "a.yaml" (Ex.g "G" none),
      .source "b.yaml" none (some "the title"), .spec "b.yaml" (Ex.g "H" none)]) [] "ns.yaml").1 "ns.yaml" =
    some (.ns "ext" "1.0" [⟨⟨some "a.yaml", none, none⟩, some "the doc", some (some "the doc")⟩, ⟨⟨some "b.yaml", none, none⟩, none, some none⟩]) := by decide +kernel

/-- a source that was added without types makes an export fail; the files of the sources before it have been written -/
theorem C177_empty_source_fails : «export» (run Ex.b0 [.spec "a.yaml" (Ex.g "G" none), .source "b.yaml" none none]) [] "ns.yaml" =
    ([("a.yaml", .specs [Ex.ty "G" none 0] [])], .error .keyError) := by decide +kernel

/-- the namespace replaces a source of the same name -/
theorem C177_path_fails : «export» (run Ex.b0 [.spec "a.yaml" (Ex.g "G" none)]) [] "a.yaml" =
    ([("a.yaml", .ns "ext" "1.0" [⟨⟨some "a.yaml", none, none⟩, none, none⟩])], .ok ()) := by decide +kernel

/-- a name that cannot be used is found out only when the spec files have been written -/
theorem C177_name_fails : «export» (run ⟨"my ext", "1.0", [], [], {}⟩ [.spec "a.yaml" (Ex.g "G" none)]) [] "ns.yaml" =
    ([("a.yaml", .specs [Ex.ty "G" none 0] [])], .error .valueError) := by decide +kernel

/-- a spec added with a source that is refused stays registered, and cannot be added with another source then -/
theorem C177_refused_fails : (step Ex.b0 (.spec "d/a.yaml" (Ex.g "G" none))).2 = .error .valueError ∧ (step Ex.b0 (.spec "a.yaml" (Ex.g "G" none))).2 = .ok () ∧
    (step (run Ex.b0 [.spec "d/a.yaml" (Ex.g "G" none)]) (.spec "a.yaml" (Ex.g "G" none))).2 = .error .valueError := by decide +kernel

/-! ## C176: loading it again -/

/-- the specs in the order in which they are loaded: source by source, datasets before groups -/
def loadOrder (b : Builder) (l : List (String × Ty)) : List Item := (Dict.keys b.sources).flatMap (fun s => specsIn false (ofSource s l) ++ specsIn true (ofSource s l))

/-- a namespace that was exported can be loaded, where the included namespaces can, if each spec needs only types that are loaded before it; it then has the types that were
added and those that are included, and no others.  `c0`: what is included -/
theorem C176_loaded_partial (name version : String) (os : List Op) (fs f : Dict String File) (path : String)
    (h : «export» (run (start name version) os) fs path = (f, .ok ())) (hpath : path ∉ Dict.keys (run (start name version) os).sources)
    (hspecs : ∀ s t, (s, Ty.name t) ∉ taken (start name version) os) (st : State) (dir : String) (depth : Nat)
    (hseen : Dict.get? st.includedSpecs (dir ++ "/" ++ path) = none) (hname : Dict.has st.namespaces name = false)
    (hsrc : ∀ s ∈ Dict.keys (run (start name version) os).sources, Dict.get? st.loaded (some s) = none)
    (c0 : Cat) (inc : Included)
    (hinc : schemaLoop (readerOf f dir depth) true name st {} [] ((run (start name version) os).nss.map (fun x => ⟨none, some x.1, x.2⟩)) = (st, .ok (c0, inc)))
    (hnew : ∀ s sp e, (s, Ty.spec sp) ∈ taken (start name version) os → e ∈ sp.item.regs → Dict.get? c0.specs e.dfn = none)
    (hfine : ∀ s sp, (s, Ty.spec sp) ∈ taken (start name version) os → sp.item.key ≠ none ∧ sp.item.bad = none)
    (hord : Ordered (fun n => ∃ x, Dict.get? c0.specs n = some x) (loadOrder (run (start name version) os) (taken (start name version) os))) :
    ∃ st' c, load (readerOf f dir depth) true st path = (st', .ok [(name, inc)]) ∧ Dict.get? st'.namespaces name = some ⟨version, c⟩ ∧
      (∀ t e, Dict.get? c.specs t = some e ↔ Dict.get? c0.specs t = some e ∨ ∃ s sp, (s, Ty.spec sp) ∈ taken (start name version) os ∧ e ∈ sp.item.regs ∧ e.dfn = t) ∧
      ∀ s sp e, (s, Ty.spec sp) ∈ taken (start name version) os → e ∈ sp.item.regs → Dict.get? c.sources e.dfn = some (some s) := by
  obtain ⟨hf1, _, els, hf3, hf4⟩ := C177_files name version os fs f path h
  simp only [← specs_eq, ← names_eq] at hf1 hf4
  unfold loadOrder at hord
  simp only [← specs_eq] at hord
  have hn : (Dict.keys (run (start name version) os).sources).Nodup := run_nodup (by exact List.nodup_nil)
  have hfill : Filled (run (start name version) os).sources := run_filled (fun s i hi => by cases hi)
  generalize hb : run (start name version) os = b at *
  generalize hl : taken (start name version) os = l at *
  -- every source has a spec
  have hne : ∀ s ∈ Dict.keys b.sources, ∃ sp, (s, Ty.spec sp) ∈ l := by
    intro s hs
    obtain ⟨f', els', he, _⟩ := export_ok h
    obtain ⟨_, h2⟩ := exportSources_ok hn he
    obtain ⟨⟨s', i⟩, hm, rfl⟩ := List.mem_map.1 hs
    obtain ⟨ts, e1, _, _⟩ := h2 s' i hm
    have e3 := types_run os (start name version) s'
    rw [hb, hl] at e3
    unfold typesOf at e3
    rw [Dict.get?_of_mem hn hm] at e3
    simp only [e1, Option.getD_some] at e3
    have e4 : ts = ofSource s' l := by simpa using e3
    cases hts : ts with
    | nil => exact (hfill s' i (Dict.get?_of_mem hn hm) (by rw [e1, hts])).elim
    | cons x r =>
      have hx : (s', x) ∈ l := ofSource_mem.1 (by rw [← e4, hts]; exact List.mem_cons_self ..)
      cases x with
      | name t => exact (hspecs s' t hx).elim
      | spec sp => exact ⟨sp, hx⟩
  have hnm : ∀ s, names (ofSource s l) = [] := by
    intro s
    cases hx : names (ofSource s l) with
    | nil => rfl
    | cons t r => exact (hspecs s t (ofSource_mem.1 (names_mem.1 (by rw [hx]; exact List.mem_cons_self ..)))).elim
  -- the plan
  let p : Plan := (Dict.keys b.sources).map (fun s => (s, specs false (ofSource s l) ++ specs true (ofSource s l)))
  have hpm : ∀ x, x ∈ p → x.1 ∈ Dict.keys b.sources ∧ x.2 = specs false (ofSource x.1 l) ++ specs true (ofSource x.1 l) := by
    intro x hx
    obtain ⟨s, hs, rfl⟩ := List.mem_map.1 hx
    exact ⟨hs, rfl⟩
  have hpe : ∀ s e, (s, e) ∈ planEntries p ↔ s ∈ Dict.keys b.sources ∧ ∃ sp, (s, Ty.spec sp) ∈ l ∧ e ∈ sp.item.regs := by
    intro s e
    unfold planEntries
    rw [List.mem_flatMap]
    constructor
    · rintro ⟨x, hx, hh⟩
      obtain ⟨h1, h2⟩ := hpm x hx
      obtain ⟨h3, i, hi, he⟩ := mem_entries.1 hh
      subst h3
      rw [h2] at hi
      rcases List.mem_append.1 hi with hi | hi
      · obtain ⟨sp, g1, _, rfl⟩ := specs_mem.1 hi
        exact ⟨h1, sp, ofSource_mem.1 g1, he⟩
      · obtain ⟨sp, g1, _, rfl⟩ := specs_mem.1 hi
        exact ⟨h1, sp, ofSource_mem.1 g1, he⟩
    · rintro ⟨h1, sp, h2, h3⟩
      refine ⟨(s, _), List.mem_map.2 ⟨s, h1, rfl⟩, mem_entries.2 ⟨rfl, sp.item, ?_, h3⟩⟩
      rw [List.mem_append]
      cases hg : sp.isGroup with
      | false => exact .inl (specs_mem.2 ⟨sp, ofSource_mem.2 h2, hg, rfl⟩)
      | true => exact .inr (specs_mem.2 ⟨sp, ofSource_mem.2 h2, hg, rfl⟩)
  have hkeys : ∀ s sp, (s, Ty.spec sp) ∈ l → s ∈ Dict.keys b.sources := by
    intro s sp hm
    have e3 := types_run os (start name version) s
    rw [hb, hl] at e3
    unfold typesOf at e3
    have hx := ofSource_mem.2 hm
    cases hg : Dict.get? b.sources s with
    | none => rw [hg] at e3; simp at e3; rw [e3] at hx; cases hx
    | some i => exact Dict.mem_keys_of_mem (Dict.mem_of_get? hg)
  have hcons : Cons c0 (planEntries p) := by
    refine ⟨fun s e s' e' h1 h2 h3 => ?_, fun s e h1 => ?_⟩
    · obtain ⟨_, sp, g1, g2⟩ := (hpe s e).1 h1
      obtain ⟨_, sp', g3, g4⟩ := (hpe s' e').1 h2
      have a1 := taken_has g2 (by rw [hl]; exact g1)
      have a2 := taken_has g4 (by rw [hl]; exact g3)
      unfold Has at a1 a2
      rw [h3] at a1
      rw [a1.1, a1.2] at a2
      obtain ⟨a3, a4⟩ := a2
      injection a3 with a3
      injection a4 with a4
      injection a4 with a4
      exact ⟨a3, a4⟩
    · obtain ⟨_, sp, g1, g2⟩ := (hpe s e).1 h1
      exact hnew s sp e g1 g2
  have hread : ∀ x ∈ p, (readerOf f dir depth).readSpec x.1 = .ok x.2 := by
    intro x hx
    obtain ⟨h1, h2⟩ := hpm x hx
    have := hf1 x.1 h1 (fun e => hpath (e ▸ h1)) (hne x.1 h1)
    unfold readerOf
    simp only
    rw [this, h2]
  have hafter0 : After c0 [] c0 := ⟨fun s e he => (by cases he), fun t _ => ⟨rfl, rfl⟩⟩
  obtain ⟨st1, c, g1, g2, g3, g4⟩ := schemaLoop_after hcons (rd := readerOf f dir depth) (name := name) (inc := inc) (p := p) (st := st) (c := c0) (P := []) rfl hread
    (by
      have : p.map Prod.fst = Dict.keys b.sources := by
        show ((Dict.keys b.sources).map _).map Prod.fst = _
        rw [List.map_map]
        exact List.map_id' _
      rw [this]; exact hn)
    (fun x hx => hsrc x.1 (hpm x hx).1) (fun x hx => by cases hx) (fun x hx => hx)
    (by
      intro x hx i hi
      obtain ⟨h1, h2⟩ := hpm x hx
      rw [h2] at hi
      rcases List.mem_append.1 hi with hi | hi
      · obtain ⟨sp, k1, _, rfl⟩ := specs_mem.1 hi
        exact hfine x.1 sp (ofSource_mem.1 k1)
      · obtain ⟨sp, k1, _, rfl⟩ := specs_mem.1 hi
        exact hfine x.1 sp (ofSource_mem.1 k1))
    (by
      have : p.flatMap Prod.snd = (Dict.keys b.sources).flatMap (fun s => specs false (ofSource s l) ++ specs true (ofSource s l)) := by
        show ((Dict.keys b.sources).map _).flatMap Prod.snd = _
        rw [List.flatMap_map]
      rw [this]
      exact Ordered_mono (fun n hn => .inl hn) hord) hafter0
  rw [List.nil_append] at g2
  have hschema : schemaLoop (readerOf f dir depth) true name st {} [] (els.map El.el) = (st1, .ok (c, inc)) := by
    rw [hf4, schemaLoop_app hinc, ← g1]
    congr 1
    show _ = ((Dict.keys b.sources).map _).map _
    rw [List.map_map]
    apply List.map_congr_left
    intro s _
    simp only [Function.comp, hnm s, List.isEmpty_nil, if_true]
  have hns : loadNamespace (readerOf f dir depth) true st ⟨name, version, els.map El.el, none⟩ =
      ({ st1 with namespaces := Dict.set st1.namespaces name ⟨version, c⟩ }, .ok inc) := by
    unfold loadNamespace
    simp only [hname, Bool.false_eq_true, if_false, hschema]
  have hall : load (readerOf f dir depth) true st path =
      ({ st1 with namespaces := Dict.set st1.namespaces name ⟨version, c⟩, includedSpecs := Dict.set st1.includedSpecs (dir ++ "/" ++ path) [(name, inc)] }, .ok [(name, inc)]) := by
    unfold load
    have hd : (readerOf f dir depth).dir = dir := rfl
    have hr : (readerOf f dir depth).readNs path = .ok [⟨name, version, els.map El.el, none⟩] := by
      unfold readerOf
      simp only [hf3]
    simp only [hd, hseen, hr]
    have hfil : [(⟨name, version, els.map El.el, none⟩ : NSDef)].filter (fun d => !Dict.has st.namespaces d.name) = [⟨name, version, els.map El.el, none⟩] := by
      simp [hname]
    rw [hfil]
    unfold loadLoop
    rw [hns]
    simp only
    unfold loadLoop
    rfl
  refine ⟨_, c, hall, Dict.get?_set_self, ?_, ?_⟩
  · intro t e
    by_cases hx : ∃ s e', (s, e') ∈ planEntries p ∧ e'.dfn = t
    · obtain ⟨s, e', k1, k2⟩ := hx
      have k3 := g2.here s e' k1
      obtain ⟨_, sp, k4, k5⟩ := (hpe s e').1 k1
      have k6 := hnew s sp e' k4 k5
      unfold Has at k3
      rw [k2] at k3 k6
      rw [k3.1, k6]
      constructor
      · intro hh
        cases hh
        exact .inr ⟨s, sp, k4, k5, k2⟩
      · rintro (hh | ⟨s2, sp2, k7, k8, k9⟩)
        · cases hh
        · have k10 := (hpe s2 e).2 ⟨hkeys _ _ k7, sp2, k7, k8⟩
          rw [(hcons.one _ _ _ _ k1 k10 (k2.trans k9.symm)).1]
    · rw [(g2.rest t (fun s e' k1 k2 => hx ⟨s, e', k1, k2⟩)).1]
      constructor
      · exact .inl
      · rintro (hh | ⟨s2, sp2, k7, k8, k9⟩)
        · exact hh
        · exact (hx ⟨s2, e, (hpe s2 e).2 ⟨hkeys _ _ k7, sp2, k7, k8⟩, k9⟩).elim
  · intro s sp e k1 k2
    exact (g2.here s e ((hpe s e).2 ⟨hkeys _ _ k1, sp, k1, k2⟩)).2


/-- the files of the example -/
def exFiles : Dict String File := («export» (run Ex.b0 Ex.ops) [] "ns.yaml").1

example : (load (readerOf exFiles "d" 5) true Ex.st "ns.yaml").2 = .ok [("ext", [("core", ["Base"])])] ∧
    (Dict.get? (load (readerOf exFiles "d" 5) true Ex.st "ns.yaml").1.namespaces "ext").map (fun n => (n.version, n.cat.specs.keys)) = some ("1.0", ["Base", "D", "G", "H"]) := by
  decide +kernel

example : ∃ c0 inc, schemaLoop (readerOf exFiles "d" 5) true "ext" Ex.st {} [] ((run Ex.b0 Ex.ops).nss.map (fun x => ⟨none, some x.1, x.2⟩)) = (Ex.st, .ok (c0, inc)) ∧
    Ordered (fun n => ∃ x, Dict.get? c0.specs n = some x) (loadOrder (run Ex.b0 Ex.ops) (taken Ex.b0 Ex.ops)) := by
  refine ⟨⟨[("Base", ⟨"Base", none, [], 7⟩)], [("Base", some "base.yaml")]⟩, [("core", ["Base"])], by decide +kernel, ?_⟩
  have : loadOrder (run Ex.b0 Ex.ops) (taken Ex.b0 Ex.ops) = [Ex.ty "D" none 1, Ex.ty "G" (some "Base") 0, Ex.ty "H" (some "G") 0] := by decide +kernel
  rw [this]
  refine ⟨fun n hn => (by cases hn), fun n hn => .inl ?_, fun n hn => ?_, trivial⟩
  · have : n = "Base" := List.mem_singleton.1 hn
    subst this
    exact ⟨_, rfl⟩
  · have : n = "G" := List.mem_singleton.1 hn
    subst this
    exact .inr ⟨_, List.mem_singleton.2 rfl, rfl⟩

/-- specs of one source in an order in which each needs only earlier types can be loaded in the order datasets, groups, if no dataset needs a type of a group -/
theorem ordered_split : ∀ {l : List Ty} {known : String → Prop},
    Ordered known (l.filterMap (fun x => match x with
      | .name _ => none
      | .spec b => some b.item)) →
    (∀ b, Ty.spec b ∈ l → b.isGroup = false → ∀ b', Ty.spec b' ∈ l → b'.isGroup = true → ∀ e ∈ b'.item.regs, e.dfn ∉ b.item.needs) →
    Ordered known (specs false l ++ specs true l) := by
  suffices H : ∀ (l : List Ty) (known k1 : String → Prop) (G : List Ty),
      Ordered known (l.filterMap (fun x => match x with
        | .name _ => none
        | .spec b => some b.item)) →
      (∀ n, known n → k1 n ∨ ∃ b, Ty.spec b ∈ G ∧ b.isGroup = true ∧ ∃ e ∈ b.item.regs, e.dfn = n) →
      (∀ b, Ty.spec b ∈ l → b.isGroup = false → ∀ b', Ty.spec b' ∈ G ++ l → b'.isGroup = true → ∀ e ∈ b'.item.regs, e.dfn ∉ b.item.needs) →
      Ordered k1 (specs false l) ∧ ∀ k2 : String → Prop, (∀ n, k1 n → k2 n) → (∀ i ∈ specs false l, ∀ e ∈ i.regs, k2 e.dfn) →
        (∀ b, Ty.spec b ∈ G → b.isGroup = true → ∀ e ∈ b.item.regs, k2 e.dfn) → Ordered k2 (specs true l) by
    intro l known h hd
    obtain ⟨h1, h2⟩ := H l known known [] h (fun n hn => .inl hn) (fun b hb hg b' hb' => hd b hb hg b' (by simpa using hb'))
    rw [Ordered_append]
    refine ⟨h1, h2 _ (fun n hn => .inl hn) (fun i hi e he => .inr ⟨i, hi, e, he, rfl⟩) (fun b hb => by cases hb)⟩
  intro l
  induction l with
  | nil => intro known k1 G _ _ _; exact ⟨trivial, fun _ _ _ _ => trivial⟩
  | cons x l ih =>
    intro known k1 G h hk hd
    cases x with
    | name t =>
      exact ih known k1 G h hk (fun b hb hg b' hb' => hd b (List.mem_cons_of_mem _ hb) hg b' (by
        rcases List.mem_append.1 hb' with hb' | hb'
        · exact List.mem_append_left _ hb'
        · exact List.mem_append_right _ (List.mem_cons_of_mem _ hb')))
    | spec b =>
      have h' : Ordered known (b.item :: l.filterMap (fun x => match x with
        | .name _ => none
        | .spec b => some b.item)) := h
      cases hg : b.isGroup with
      | false =>
        have hs : specs false (.spec b :: l) = b.item :: specs false l := by simp [specs, hg]
        have hs' : specs true (.spec b :: l) = specs true l := by simp [specs, hg]
        rw [hs, hs']
        have hneeds : ∀ n ∈ b.item.needs, k1 n := by
          intro n hn
          rcases hk n (h'.1 n hn) with hh | ⟨b', hb', hg', e, he, hd'⟩
          · exact hh
          · exact (hd b (List.mem_cons_self ..) hg b' (List.mem_append_left _ hb') hg' e he (hd' ▸ hn)).elim
        obtain ⟨i1, i2⟩ := ih _ (fun n => k1 n ∨ ∃ e ∈ b.item.regs, e.dfn = n) G h'.2 (fun n hn => by
          rcases hn with hn | hn
          · rcases hk n hn with hh | hh
            · exact .inl (.inl hh)
            · exact .inr hh
          · exact .inl (.inr hn)) (fun c hc hg' b' hb' => hd c (List.mem_cons_of_mem _ hc) hg' b' (by
            rcases List.mem_append.1 hb' with hb' | hb'
            · exact List.mem_append_left _ hb'
            · exact List.mem_append_right _ (List.mem_cons_of_mem _ hb')))
        refine ⟨⟨hneeds, i1⟩, fun k2 a1 a2 a3 => i2 k2 (fun n hn => ?_) (fun i hi => a2 i (List.mem_cons_of_mem _ hi)) a3⟩
        rcases hn with hn | ⟨e, he, hh⟩
        · exact a1 n hn
        · exact hh ▸ a2 b.item (List.mem_cons_self ..) e he
      | true =>
        have hs : specs false (.spec b :: l) = specs false l := by simp [specs, hg]
        have hs' : specs true (.spec b :: l) = b.item :: specs true l := by simp [specs, hg]
        rw [hs, hs']
        obtain ⟨i1, i2⟩ := ih _ k1 (G ++ [.spec b]) h'.2 (fun n hn => by
          rcases hn with hn | ⟨e, he, hh⟩
          · rcases hk n hn with hh | ⟨b', hb', rest⟩
            · exact .inl hh
            · exact .inr ⟨b', List.mem_append_left _ hb', rest⟩
          · exact .inr ⟨b, List.mem_append_right _ (List.mem_singleton.2 rfl), hg, e, he, hh⟩) (fun c hc hg' b' hb' => hd c (List.mem_cons_of_mem _ hc) hg' b' (by
            rw [List.append_assoc] at hb'
            exact hb'))
        refine ⟨i1, fun k2 a1 a2 a3 => ⟨fun n hn => ?_, i2 _ (fun n hn => .inl (a1 n hn)) (fun i hi e he => .inl (a2 i hi e he)) (fun c hc hg' e he => ?_)⟩⟩
        · rcases hk n (h'.1 n hn) with hh | ⟨b', hb', hg', e, he, hd'⟩
          · exact a1 n hh
          · exact hd' ▸ a3 b' hb' hg' e he
        · rcases List.mem_append.1 hc with hc | hc
          · exact .inl (a3 c hc hg' e he)
          · rw [List.mem_singleton] at hc
            cases hc
            exact .inr ⟨e, he, rfl⟩

/-- if there is one source only, it is enough that each spec needs only types that were added before it, and no dataset one of a group -/
theorem C176_one_source (b : Builder) (s : String) (hs : Dict.keys b.sources = [s]) (l : List BSpec) (known : String → Prop) (h : Ordered known (l.map BSpec.item))
    (hd : ∀ a ∈ l, a.isGroup = false → ∀ g ∈ l, g.isGroup = true → ∀ e ∈ g.item.regs, e.dfn ∉ a.item.needs) :
    Ordered known (loadOrder b (l.map (fun x => (s, Ty.spec x)))) := by
  have ho : ofSource s (l.map (fun x => (s, Ty.spec x))) = l.map Ty.spec := by
    unfold ofSource
    rw [List.filter_eq_self.2 (fun x hx => by obtain ⟨y, _, rfl⟩ := List.mem_map.1 hx; exact decide_eq_true rfl), List.map_map]
    rfl
  unfold loadOrder
  simp only [← specs_eq]
  rw [hs]
  simp only [List.flatMap_cons, List.flatMap_nil, List.append_nil, ho]
  apply ordered_split
  · rw [List.filterMap_map]
    have : List.filterMap ((fun x => match x with
        | Ty.name _ => none
        | Ty.spec b => some b.item) ∘ Ty.spec) l = l.map BSpec.item := by
      rw [← List.filterMap_eq_map]
      rfl
    rw [this]
    exact h
  · intro a ha hg b' hb' hg'
    obtain ⟨a', ha', e1⟩ := List.mem_map.1 ha
    obtain ⟨b'', hb'', e2⟩ := List.mem_map.1 hb'
    cases e1
    cases e2
    exact hd a ha' hg b' hb'' hg'

example : Ordered (fun n => n = "Base") ([Ex.g "G" (some "Base"), Ex.d "D" none, Ex.g "H" (some "G")].map BSpec.item) := by
  refine ⟨fun n hn => List.mem_singleton.1 hn, fun n hn => (by cases hn), fun n hn => ?_, trivial⟩
  have : n = "G" := List.mem_singleton.1 hn
  exact .inl (.inr ⟨_, List.mem_singleton.2 rfl, this.symm⟩)

theorem addAll_ok (s : String) : ∀ (l : List BSpec) (b b' : Builder), addAllSpecs b s l = (b', .ok ()) →
    run b (l.map (Op.spec s)) = b' ∧ taken b (l.map (Op.spec s)) = l.map (fun x => (s, Ty.spec x))
  | [], b, b', h => by cases h; exact ⟨rfl, rfl⟩
  | sp :: l, b, b', h => by
    unfold addAllSpecs at h
    split at h
    · cases h
    · rename_i b1 h1
      obtain ⟨e1, e2⟩ := addAll_ok s l b1 b' h
      have hst : step b (.spec s sp) = (b1, .ok ()) := h1
      rw [List.map_cons]
      unfold run taken
      rw [hst]
      refine ⟨e1, ?_⟩
      simp only
      rw [e2]
      unfold takenOne
      rw [hst]
      rfl

/-- `export_spec` adds the specs to one source and exports; what it raises before that leaves the files as they were -/
theorem C176_export_spec (b : Builder) (l : List BSpec) (fs : Dict String File) (hl : l ≠ []) :
    (∀ f, exportSpec b l fs = (f, .ok ()) →
      «export» (run b (l.map (Op.spec (b.name ++ ".extensions.yaml")))) fs (b.name ++ ".namespace.yaml") = (f, .ok ()) ∧
      taken b (l.map (Op.spec (b.name ++ ".extensions.yaml"))) = l.map (fun x => (b.name ++ ".extensions.yaml", Ty.spec x))) ∧
    ((addAllSpecs b (b.name ++ ".extensions.yaml") l).2 ≠ .ok () → (exportSpec b l fs).1 = fs) := by
  unfold exportSpec
  have : l.isEmpty = false := by cases l with
    | nil => exact (hl rfl).elim
    | cons => rfl
  simp only [this, Bool.false_eq_true, if_false]
  constructor
  · intro f h
    split at h
    · cases h
    · rename_i b' hb
      obtain ⟨e1, e2⟩ := addAll_ok _ _ _ _ hb
      rw [e1]
      exact ⟨h, e2⟩
  · intro h
    split
    · rfl
    · rename_i b' hb
      rw [hb] at h
      exact (h rfl).elim

example : (exportSpec (run Ex.b0 [.ns "core"]) [Ex.g "G" (some "Base"), Ex.d "D" none] []).2 = .ok () ∧
    (load (readerOf (exportSpec (run Ex.b0 [.ns "core"]) [Ex.g "G" (some "Base"), Ex.d "D" none] []).1 "d" 5) true Ex.st "ext.namespace.yaml").2 =
      .ok [("ext", [("core", ["Base"])])] := by decide +kernel

/-- specs added in an order in which each needs only earlier types, but to two sources in turn: the namespace is exported and cannot be loaded -/
theorem C176_sources_fails :
    let os : List Op := [.spec "a.yaml" (Ex.g "G" none), .spec "b.yaml" (Ex.g "H" (some "G")), .spec "a.yaml" (Ex.g "I" (some "H"))]
    («export» (run Ex.b0 os) [] "ns.yaml").2 = .ok () ∧
    (load (readerOf («export» (run Ex.b0 os) [] "ns.yaml").1 "d" 5) true {} "ns.yaml").2 = .error .valueError := by decide +kernel

/-- a type with the name of one that is included is added and exported, and cannot be loaded -/
theorem C176_clash_fails :
    let os : List Op := [.ns "core", .spec "a.yaml" (Ex.g "Base" none)]
    («export» (run Ex.b0 os) [] "ns.yaml").2 = .ok () ∧
    (load (readerOf («export» (run Ex.b0 os) [] "ns.yaml").1 "d" 5) true Ex.st "ns.yaml").2 = .error .valueError := by decide +kernel

/-- a spec that defines no type is added and exported, and cannot be loaded -/
theorem C176_untyped_fails :
    let os : List Op := [.spec "a.yaml" ⟨true, ⟨none, [], none, []⟩⟩]
    («export» (run Ex.b0 os) [] "ns.yaml").2 = .ok () ∧
    (load (readerOf («export» (run Ex.b0 os) [] "ns.yaml").1 "d" 5) true Ex.st "ns.yaml").2 = .error .valueError := by decide +kernel

/-- two namespaces whose sources have the same name, in different directories, cannot both be loaded -/
theorem C176_same_source_fails :
    let f1 := («export» (run Ex.b0 [.spec "types.yaml" (Ex.g "G" none)]) [] "ns.yaml").1
    let f2 := («export» (run ⟨"other", "1.0", [], [], {}⟩ [.spec "types.yaml" (Ex.g "H" none)]) [] "ns.yaml").1
    (load (readerOf f2 "d2" 5) true {} "ns.yaml").2 = .ok [("other", [])] ∧
    (load (readerOf f2 "d2" 5) true (load (readerOf f1 "d1" 5) true {} "ns.yaml").1 "ns.yaml").2 = .error .valueError := by decide +kernel

/-! ## C178: including -/

/-- the types that were included by name from a namespace, in order -/
def asked (n : String) (os : List Op) : List String := os.filterMap (fun o => match o with
  | .type t none (some m) => if m = n then some t else none
  | _ => none)

theorem nss_run (n : String) : ∀ (os : List Op) (b : Builder), Dict.get? (run b os).nss n =
    if asked n os = [] then (if Op.ns n ∈ os then some ((Dict.get? b.nss n).getD none) else Dict.get? b.nss n)
    else some (some (((Dict.get? b.nss n).getD none).getD [] ++ asked n os))
  | [], b => by simp [run, asked]
  | o :: os, b => by
    unfold run
    rw [nss_run n os]
    have hcons : ∀ x, asked n (x :: os) = asked n [x] ++ asked n os := fun x => by
      unfold asked
      rw [← List.filterMap_append]
      rfl
    rw [hcons]
    cases o with
    | spec s sp =>
      have : (step b (.spec s sp)).1.nss = b.nss := by
        unfold step addSpec
        simp only
        split
        · rfl
        · split <;> rfl
      rw [this]
      simp [asked]
    | source s d t =>
      have : (step b (.source s d t)).1.nss = b.nss := by
        unfold step addSource
        simp only
        split <;> rfl
      rw [this]
      simp [asked]
    | ns m =>
      show (if asked n os = [] then (if Op.ns n ∈ os then some ((Dict.get? (Dict.setDefault b.nss m none) n).getD none) else Dict.get? (Dict.setDefault b.nss m none) n)
        else some (some (((Dict.get? (Dict.setDefault b.nss m none) n).getD none).getD [] ++ asked n os))) = _
      have h1 : (Dict.get? (Dict.setDefault b.nss m none) n).getD none = (Dict.get? b.nss n).getD none := by
        unfold Dict.setDefault
        split
        · rfl
        · rename_i hh
          rw [Dict.get?_set]
          split
          · rename_i e
            subst e
            unfold Dict.has at hh
            cases hg : Dict.get? b.nss n with
            | none => rfl
            | some x => rw [hg] at hh; simp at hh
          · rfl
      have h2 : asked n [Op.ns m] = [] := rfl
      rw [h1, h2, List.nil_append]
      by_cases ha : asked n os = []
      · rw [if_pos ha, if_pos ha]
        by_cases hm : n = m
        · subst hm
          rw [if_pos (List.mem_cons_self ..)]
          split
          · rfl
          · unfold Dict.setDefault
            split
            · rename_i hh
              unfold Dict.has at hh
              cases hg : Dict.get? b.nss n with
              | none => rw [hg] at hh; simp at hh
              | some x => rfl
            · rename_i hh
              unfold Dict.has at hh
              rw [Dict.get?_set_self]
              cases hg : Dict.get? b.nss n with
              | none => rfl
              | some x => rw [hg] at hh; simp at hh
        · have h3 : Dict.get? (Dict.setDefault b.nss m none) n = Dict.get? b.nss n := by
            unfold Dict.setDefault
            split
            · rfl
            · exact Dict.get?_set_ne hm
          rw [h3]
          simp [hm]
      · rw [if_neg ha, if_neg ha]
    | type t src m =>
      cases src with
      | some s =>
        have : (step b (.type t (some s) m)).1.nss = b.nss := by
          unfold step includeType
          simp only
          split <;> rfl
        rw [this]
        simp [asked]
      | none =>
        cases m with
        | none => simp [asked, step, includeType]
        | some m =>
          have h0 : (step b (.type t none (some m))).1.nss = Dict.set b.nss m (some (((Dict.get? b.nss m).getD none).getD [] ++ [t])) := rfl
          rw [h0, Dict.get?_set]
          by_cases hm : n = m
          · subst hm
            have h2 : asked n [Op.type t none (some n)] = [t] := by simp [asked]
            rw [if_pos rfl, h2]
            by_cases ha : asked n os = []
            · simp [ha]
            · simp [ha]
          · have h2 : asked n [Op.type t none (some m)] = [] := by simp [asked, Ne.symm hm]
            rw [if_neg hm, h2, List.nil_append]
            simp

/-- a namespace is listed with the types asked for, in order; without types, and so as a whole, if it was included and no type was asked for; and not at all otherwise -/
theorem C178_included_partial (name version : String) (os : List Op) (n : String) :
    (∀ t ts, asked n os = t :: ts → Dict.get? (run (start name version) os).nss n = some (some (t :: ts))) ∧
    (asked n os = [] → Op.ns n ∈ os → Dict.get? (run (start name version) os).nss n = some none) ∧
    (asked n os = [] → Op.ns n ∉ os → Dict.get? (run (start name version) os).nss n = none) := by
  rw [nss_run]
  refine ⟨fun t ts h => by rw [h]; simp, fun h hn => by rw [if_pos h, if_pos hn]; rfl, fun h hn => by rw [if_pos h, if_neg hn]; rfl⟩

example : asked "core" [.ns "hdmf", .type "A" none (some "core"), .type "B" none (some "core")] = ["A", "B"] := by decide

/-- a namespace that was included as a whole is included in part once a type of it is asked for -/
theorem C178_whole_fails : Dict.get? (run Ex.b0 [.ns "core"]).nss "core" = some none ∧
    Dict.get? (run Ex.b0 [.ns "core", .type "A" none (some "core")]).nss "core" = some (some ["A"]) ∧
    Dict.get? (run Ex.b0 [.type "A" none (some "core"), .ns "core"]).nss "core" = some (some ["A"]) := by decide +kernel

end Verif.NsWrite

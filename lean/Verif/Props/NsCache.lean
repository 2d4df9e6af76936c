import Verif.Lemmas.NsCache
import Verif.Props.NsWrite

/-!
# C213–C215: the namespaces cached in a file
-/

namespace Verif.NsCache
open Verif Verif.Namespace Verif.NsWrite

namespace Ex

/-- a namespace with two sources, one of which has a nested type -/
def types (s : String) : List String := if s = "a.yaml" then ["D", "G", "N"] else if s = "b.extra.yaml" then ["H"] else []

/-- its specs: `N` is nested in `G` -/
def spec (t : String) : Except Err CSpec :=
  if t = "D" then .ok ⟨false, NsWrite.Ex.d "D" none⟩
  else if t = "G" then .ok ⟨false, ⟨true, ⟨some "G", ["Base"], none, [⟨"G", some "Base", [], 0⟩, ⟨"N", none, [], 3⟩]⟩⟩⟩
  else if t = "N" then .ok ⟨true, NsWrite.Ex.g "N" none⟩
  else if t = "H" then .ok ⟨false, NsWrite.Ex.g "H" (some "G")⟩
  else .error .valueError

/-- its schema -/
def schema : List SchemaEl := [⟨none, some "core", none⟩, ⟨some "a.yaml", none, none⟩, ⟨some "b.extra.yaml", none, none⟩]

end Ex

/-! ## C213: what is in the cache -/

/-- the specs of groups or of datasets for one dataset of the cache, in order -/
def itemsOf (isGroup : Bool) (s : String) (l : List (String × BSpec)) : List Item :=
  (l.filter fun x => decide (x.1 = s ∧ x.2.isGroup = isGroup)).map fun x => x.2.item

theorem specsIn_of (g : Bool) (s : String) : ∀ l : List (String × BSpec), specsIn g (ofSource s (l.map fun x => (x.1, Ty.spec x.2))) = itemsOf g s l
  | [] => rfl
  | x :: l => by
    have ih := specsIn_of g s l
    unfold specsIn ofSource itemsOf at ih ⊢
    rw [List.map_cons, List.filter_cons, List.filter_cons]
    by_cases h1 : x.1 = s
    · rw [if_pos (by simp [h1]), List.map_cons]
      by_cases h2 : x.2.isGroup = g
      · rw [if_pos (by simp [h1, h2]), List.filterMap_cons_some (b := x.2.item) (by simp [h2]), ih]
        rfl
      · rw [if_neg (by simp [h2]), List.filterMap_cons_none (by simp [h2]), ih]
    · rw [if_neg (by simp [h1]), if_neg (by simp [h1]), ih]

theorem namesIn_of (s : String) : ∀ l : List (String × BSpec), namesIn (ofSource s (l.map fun x => (x.1, Ty.spec x.2))) = []
  | [] => rfl
  | x :: l => by
    have ih := namesIn_of s l
    unfold namesIn ofSource at ih ⊢
    rw [List.map_cons, List.filter_cons]
    by_cases h1 : x.1 = s
    · rw [if_pos (by simp [h1]), List.map_cons, List.filterMap_cons_none rfl, ih]
    · rw [if_neg (by simp [h1]), ih]

theorem cache_ok {name version : String} {types : String → List String} {spec : String → Except Err CSpec} {schema : List SchemaEl} {f : Dict String File}
    (h : cacheNs name version types spec schema = (f, .ok ())) :
    exportH5 (run (start name version) (ops types spec schema)) "namespace" = (f, .ok ()) ∧
    taken (start name version) (ops types spec schema) = (wanted types spec schema).map (fun x => (x.1, Ty.spec x.2)) ∧
    ∀ el ∈ schema, el.ns = none → ∃ s, el.source = some s ∧ ∀ t ∈ types s, ∃ x, spec t = .ok x := by
  unfold cacheNs at h
  split at h
  · cases h
  · rename_i b hc
    obtain ⟨h1, h2, h3⟩ := convertLoop_ok types spec hc
    rw [h1] at h
    exact ⟨h, h2, h3⟩

theorem mem_wanted' {l : List (String × BSpec)} {s : String} {sp : BSpec} : (s, Ty.spec sp) ∈ l.map (fun x => (x.1, Ty.spec x.2)) ↔ (s, sp) ∈ l := by
  rw [List.mem_map]
  constructor
  · rintro ⟨⟨a, b⟩, hm, he⟩
    simp only [Prod.mk.injEq, Ty.spec.injEq] at he
    obtain ⟨rfl, rfl⟩ := he
    exact hm
  · intro hm
    exact ⟨_, hm, rfl⟩

/-- the dataset of the namespace is not that of a source -/
theorem cache_path {name version : String} {types : String → List String} {spec : String → Except Err CSpec} {schema : List SchemaEl} {f : Dict String File}
    (h : cacheNs name version types spec schema = (f, .ok ())) :
    "namespace" ∉ Dict.keys (run (start name version) (ops types spec schema)).sources := by
  obtain ⟨h1, h2, _⟩ := cache_ok h
  intro hk
  obtain ⟨_, f', els, he, hno⟩ := exportH5_ok h1
  have hn : (Dict.keys (run (start name version) (ops types spec schema)).sources).Nodup := run_nodup (by exact List.nodup_nil)
  obtain ⟨_, h5⟩ := exportSources_ok hn he
  obtain ⟨⟨p, i⟩, hm, hp⟩ := List.mem_map.1 hk
  simp only at hp
  subst hp
  obtain ⟨ts, e1, e2, _⟩ := h5 _ i hm
  have e3 := types_run (ops types spec schema) (start name version) "namespace"
  unfold typesOf at e3
  rw [Dict.get?_of_mem hn hm] at e3
  simp only [e1, Option.getD_some] at e3
  have e4 : ts = ofSource "namespace" (taken (start name version) (ops types spec schema)) := by simpa using e3
  obtain ⟨sp, hsp⟩ : ∃ sp, ("namespace", Ty.spec sp) ∈ taken (start name version) (ops types spec schema) := by
    rcases (keys_run (ops_plain types spec schema)).1 hk with h | h
    · cases h
    · exact h
  have hout : out ts = true := by
    unfold out
    rw [Bool.not_eq_true', Bool.and_eq_false_iff]
    have hmem : sp.item ∈ specs sp.isGroup ts := specs_mem.2 ⟨sp, by rw [e4]; exact ofSource_mem.2 hsp, rfl, rfl⟩
    cases hg : sp.isGroup with
    | true => left; rw [hg] at hmem; cases hx : specs true ts with
      | nil => rw [hx] at hmem; cases hmem
      | cons => rfl
    | false => right; rw [hg] at hmem; cases hx : specs false ts with
      | nil => rw [hx] at hmem; cases hmem
      | cons => rfl
  have := (e2 hout).2
  unfold Dict.has at hno
  rw [this] at hno
  cases hno

/-- a cached namespace has a dataset for each source with a spec that is not nested: all of these specs, groups and datasets apart, in the order in which they were
loaded; the entry `namespace` has the name and the version, first the included namespaces and then the sources; there is nothing else -/
theorem C213_files (name version : String) (types : String → List String) (spec : String → Except Err CSpec) (schema : List SchemaEl) (f : Dict String File)
    (h : cacheNs name version types spec schema = (f, .ok ())) :
    (∀ s sp, (s, sp) ∈ wanted types spec schema →
      Dict.get? f s = some (.specs (itemsOf true s (wanted types spec schema)) (itemsOf false s (wanted types spec schema)))) ∧
    (∃ els, Dict.get? f "namespace" = some (.ns name version els) ∧ els.map El.el =
      (included [] schema).map (fun n => ⟨none, some n, none⟩) ++ (firsts [] ((wanted types spec schema).map Prod.fst)).map (fun s => ⟨some s, none, none⟩)) ∧
    ∀ k, Dict.get? f k ≠ none → k = "namespace" ∨ ∃ sp, (k, sp) ∈ wanted types spec schema := by
  obtain ⟨h1, h2, _⟩ := cache_ok h
  have hp := cache_path h
  obtain ⟨h3, _⟩ := exportH5_ok h1
  obtain ⟨g1, g2, els, g3, g4⟩ := C177_files name version (ops types spec schema) [] f "namespace" h3
  have hk := keys_eq (b := start name version) (ops_plain types spec schema)
  rw [h2] at g1 g4 hk
  rw [List.map_map] at hk
  simp only [specsIn_of, namesIn_of] at g1 g4
  have hmem : ∀ s, s ∈ Dict.keys (run (start name version) (ops types spec schema)).sources ↔ ∃ sp, (s, sp) ∈ wanted types spec schema := by
    intro s
    rw [keys_run (ops_plain types spec schema), h2]
    simp only [mem_wanted']
    constructor
    · rintro (hh | hh)
      · cases hh
      · exact hh
    · exact .inr
  refine ⟨fun s sp hs => ?_, ⟨els, g3, ?_⟩, fun k hkk => ?_⟩
  · have hs' := (hmem s).2 ⟨sp, hs⟩
    exact g1 s hs' (fun e => hp (e ▸ hs')) ⟨sp, mem_wanted'.2 hs⟩
  · rw [g4, run_nss types spec schema _ [] rfl, hk, List.map_map]
    rfl
  · by_cases he : k = "namespace"
    · exact .inl he
    · right
      rw [← hmem]
      refine Decidable.by_contra fun hc => hkk ?_
      rw [g2 k hc he]
      rfl

/-- each spec that is not nested is where it is looked for, and each included namespace is named -/
theorem C213_all (name version : String) (types : String → List String) (spec : String → Except Err CSpec) (schema : List SchemaEl) (f : Dict String File)
    (h : cacheNs name version types spec schema = (f, .ok ())) (el : SchemaEl) (hel : el ∈ schema) :
    (∀ n, el.ns = some n → ∃ els, Dict.get? f "namespace" = some (.ns name version els) ∧ ⟨none, some n, none⟩ ∈ els.map El.el) ∧
    ∀ s, el.ns = none → el.source = some s → ∀ t ∈ types s, ∃ x, spec t = .ok x ∧ (x.nested = false → ∃ g d, Dict.get? f (sourceName s) = some (.specs g d) ∧
      x.copy.item ∈ (if x.copy.isGroup then g else d) ∧
      ∃ els, Dict.get? f "namespace" = some (.ns name version els) ∧ ⟨some (sourceName s), none, none⟩ ∈ els.map El.el) := by
  obtain ⟨g1, ⟨els, g2, g3⟩, _⟩ := C213_files name version types spec schema f h
  refine ⟨fun n hn => ⟨els, g2, ?_⟩, fun s hns hs t ht => ?_⟩
  · rw [g3]
    exact List.mem_append_left _ (List.mem_map.2 ⟨n, included_mem.2 (.inr ⟨el, hel, hn⟩), rfl⟩)
  · obtain ⟨s', e1, e2⟩ := (cache_ok h).2.2 el hel hns
    rw [hs] at e1
    cases e1
    obtain ⟨x, hx⟩ := e2 t ht
    refine ⟨x, hx, fun hn => ?_⟩
    have hw : (sourceName s, x.copy) ∈ wanted types spec schema := by
      unfold wanted
      refine List.mem_flatMap.2 ⟨el, hel, ?_⟩
      simp only [hns, hs]
      refine List.mem_map.2 ⟨x.copy, List.mem_filterMap.2 ⟨t, ht, ?_⟩, rfl⟩
      simp only [hx, hn, Bool.false_eq_true, if_false]
    refine ⟨_, _, g1 _ _ hw, ?_, els, g2, ?_⟩
    · cases hg : x.copy.isGroup with
      | true => exact List.mem_map.2 ⟨_, List.mem_filter.2 ⟨hw, by simp [hg]⟩, rfl⟩
      | false => exact List.mem_map.2 ⟨_, List.mem_filter.2 ⟨hw, by simp [hg]⟩, rfl⟩
    · rw [g3]
      have hf : ∀ (l acc : List String), ∀ k, k ∈ firsts acc l ↔ k ∈ acc ∨ k ∈ l := by
        intro l
        induction l with
        | nil => intro acc k; simp [firsts]
        | cons a l ih =>
          intro acc k
          unfold firsts
          rw [ih, List.mem_cons]
          by_cases ha : a ∈ acc
          · rw [if_pos ha]
            constructor
            · rintro (hh | hh)
              · exact .inl hh
              · exact .inr (.inr hh)
            · rintro (hh | rfl | hh)
              · exact .inl hh
              · exact .inl ha
              · exact .inr hh
          · rw [if_neg ha, List.mem_append, List.mem_singleton, or_assoc]
      exact List.mem_append_right _ (List.mem_map.2 ⟨_, (hf _ _ _).2 (.inr (List.mem_map.2 ⟨_, hw, rfl⟩)), rfl⟩)

example : cacheNs "ext" "1.0" Ex.types Ex.spec Ex.schema =
    ([("a", .specs [⟨some "G", ["Base"], none, [⟨"G", some "Base", [], 0⟩, ⟨"N", none, [], 3⟩]⟩] [NsWrite.Ex.ty "D" none 1]), ("b.extra", .specs [NsWrite.Ex.ty "H" (some "G") 0] []),
      ("namespace", .ns "ext" "1.0" [⟨⟨none, some "core", none⟩, none, none⟩, ⟨⟨some "a", none, none⟩, none, none⟩, ⟨⟨some "b.extra", none, none⟩, none, none⟩])], .ok ()) := by
  decide +kernel

/-- sources that differ only in their ending get one dataset -/
theorem C213_merged_fails : cacheNs "ext" "1.0" (fun s => if s = "a.yaml" then ["D"] else ["H"]) Ex.spec [⟨some "a.yaml", none, none⟩, ⟨some "a.json", none, none⟩] =
    ([("a", .specs [NsWrite.Ex.ty "H" (some "G") 0] [NsWrite.Ex.ty "D" none 1]), ("namespace", .ns "ext" "1.0" [⟨⟨some "a", none, none⟩, none, none⟩])], .ok ()) := by
  decide +kernel

/-! ## C214: loading the cache -/

/-- a cached namespace can be loaded, where the included namespaces can and each spec needs only types that are loaded before it; it then has the types of its sources and
those that are included, and no others.  `c0`: what is included -/
theorem C214_loaded_partial (name version : String) (types : String → List String) (spec : String → Except Err CSpec) (schema : List SchemaEl) (f : Dict String File)
    (h : cacheNs name version types spec schema = (f, .ok ())) (st : State) (dir : String) (depth : Nat)
    (hseen : Dict.get? st.includedSpecs (dir ++ "/" ++ "namespace") = none) (hname : Dict.has st.namespaces name = false)
    (hsrc : ∀ s sp, (s, sp) ∈ wanted types spec schema → Dict.get? st.loaded (some s) = none) (c0 : Cat) (inc : Included)
    (hinc : schemaLoop (readerOf f dir depth) true name st {} [] ((included [] schema).map fun n => ⟨none, some n, none⟩) = (st, .ok (c0, inc)))
    (hnew : ∀ t ∈ defined (wanted types spec schema), Dict.get? c0.specs t = none)
    (hfine : ∀ s sp, (s, sp) ∈ wanted types spec schema → sp.item.key ≠ none ∧ sp.item.bad = none)
    (hord : Ordered (fun n => ∃ x, Dict.get? c0.specs n = some x) ((firsts [] ((wanted types spec schema).map Prod.fst)).flatMap fun s =>
      itemsOf false s (wanted types spec schema) ++ itemsOf true s (wanted types spec schema))) :
    ∃ st' c, load (readerOf f dir depth) true st "namespace" = (st', .ok [(name, inc)]) ∧ Dict.get? st'.namespaces name = some ⟨version, c⟩ ∧
      (∀ t e, Dict.get? c.specs t = some e ↔ Dict.get? c0.specs t = some e ∨ ∃ s sp, (s, sp) ∈ wanted types spec schema ∧ e ∈ sp.item.regs ∧ e.dfn = t) ∧
      ∀ s sp e, (s, sp) ∈ wanted types spec schema → e ∈ sp.item.regs → Dict.get? c.sources e.dfn = some (some s) := by
  obtain ⟨h1, h2, _⟩ := cache_ok h
  have hp := cache_path h
  obtain ⟨h3, _⟩ := exportH5_ok h1
  have hk := keys_eq (b := start name version) (ops_plain types spec schema)
  rw [h2, List.map_map] at hk
  have := C176_loaded_partial name version (ops types spec schema) [] f "namespace" h3 hp
    (fun s t hm => by
      rw [h2] at hm
      obtain ⟨x, _, hx⟩ := List.mem_map.1 hm
      cases hx) st dir depth hseen hname
    (fun s hs => by
      rw [keys_run (ops_plain types spec schema), h2] at hs
      rcases hs with hs | ⟨sp, hs⟩
      · cases hs
      · exact hsrc s sp (mem_wanted'.1 hs)) c0 inc
    (by rw [run_nss types spec schema _ [] rfl, List.map_map]; exact hinc)
    (fun s sp e hm he => by
      rw [h2] at hm
      exact hnew e.dfn (List.mem_flatMap.2 ⟨_, mem_wanted'.1 hm, List.mem_map_of_mem he⟩))
    (fun s sp hm => by rw [h2] at hm; exact hfine s sp (mem_wanted'.1 hm))
    (by
      unfold loadOrder
      rw [hk, h2]
      simp only [specsIn_of]
      exact hord)
  rw [h2] at this
  simpa only [mem_wanted'] using this

/-- the files of the example -/
def exCache : Dict String File := (cacheNs "ext" "1.0" Ex.types Ex.spec Ex.schema).1

example : (load (readerOf exCache "d" 5) true NsWrite.Ex.st "namespace").2 = .ok [("ext", [("core", ["Base"])])] ∧
    (Dict.get? (load (readerOf exCache "d" 5) true NsWrite.Ex.st "namespace").1.namespaces "ext").map (fun n => (n.version, n.cat.specs.keys)) =
      some ("1.0", ["Base", "D", "G", "N", "H"]) := by
  decide +kernel

example : ∃ c0 inc, schemaLoop (readerOf exCache "d" 5) true "ext" NsWrite.Ex.st {} [] ((included [] Ex.schema).map fun n => ⟨none, some n, none⟩) = (NsWrite.Ex.st, .ok (c0, inc)) ∧
    Ordered (fun n => ∃ x, Dict.get? c0.specs n = some x) ((firsts [] ((wanted Ex.types Ex.spec Ex.schema).map Prod.fst)).flatMap fun s =>
      itemsOf false s (wanted Ex.types Ex.spec Ex.schema) ++ itemsOf true s (wanted Ex.types Ex.spec Ex.schema)) := by
  refine ⟨⟨[("Base", ⟨"Base", none, [], 7⟩)], [("Base", some "base.yaml")]⟩, [("core", ["Base"])], by decide +kernel, ?_⟩
  have : ((firsts [] ((wanted Ex.types Ex.spec Ex.schema).map Prod.fst)).flatMap fun s =>
      itemsOf false s (wanted Ex.types Ex.spec Ex.schema) ++ itemsOf true s (wanted Ex.types Ex.spec Ex.schema)) =
      [NsWrite.Ex.ty "D" none 1, ⟨some "G", ["Base"], none, [⟨"G", some "Base", [], 0⟩, ⟨"N", none, [], 3⟩]⟩, NsWrite.Ex.ty "H" (some "G") 0] := by decide +kernel
  rw [this]
  refine ⟨fun n hn => (by cases hn), fun n hn => .inl ?_, fun n hn => ?_, trivial⟩
  · have : n = "Base" := List.mem_singleton.1 hn
    subst this
    exact ⟨_, rfl⟩
  · have : n = "G" := List.mem_singleton.1 hn
    subst this
    exact .inr ⟨_, List.mem_cons_self .., rfl⟩

/-- a catalog with a namespace `core` that has two types -/
def exTwo : State := ⟨[("core", ⟨"1.0", ⟨[("Base", ⟨"Base", none, [], 7⟩), ("Other", ⟨"Other", none, [], 8⟩)], [("Base", some "base.yaml"), ("Other", some "base.yaml")]⟩⟩)],
  [(some "base.yaml", ["Base", "Other"])], [], []⟩

/-- what types a loaded namespace has -/
def typesOfNs (r : State × Except Err (Dict String Included)) (name : String) : Option (List String) := (Dict.get? r.1.namespaces name).map fun n => n.cat.specs.keys

/-- a namespace that includes only some types of another one includes all of them when it comes from the cache -/
theorem C214_selected_fails :
    typesOfNs (load (readerOf [("ns.yaml", .ns "ext" "1.0" [⟨⟨none, some "core", some ["Base"]⟩, none, none⟩])] "d" 5) true exTwo "ns.yaml") "ext" = some ["Base"] ∧
    typesOfNs (load (readerOf (cacheNs "ext" "1.0" Ex.types Ex.spec [⟨none, some "core", some ["Base"]⟩]).1 "d" 5) true exTwo "namespace") "ext" =
      some ["Base", "Other"] := by decide +kernel

/-- and so for every such element: the types that were asked for are not in the cache -/
theorem C214_selection_fails (name version : String) (types : String → List String) (spec : String → Except Err CSpec) (schema : List SchemaEl) (f : Dict String File)
    (h : cacheNs name version types spec schema = (f, .ok ())) (els : List El) (hf : Dict.get? f "namespace" = some (.ns name version els)) :
    ∀ e ∈ els, e.el.types = none := by
  obtain ⟨_, ⟨els', g2, g3⟩, _⟩ := C213_files name version types spec schema f h
  rw [hf] at g2
  cases g2
  intro e he
  have := List.mem_map_of_mem (f := El.el) he
  rw [g3] at this
  rcases List.mem_append.1 this with hm | hm
  · obtain ⟨_, _, hx⟩ := List.mem_map.1 hm
    rw [← hx]
  · obtain ⟨_, _, hx⟩ := List.mem_map.1 hm
    rw [← hx]

/-- an element with a source and a namespace is loaded as a source and cached as a namespace -/
theorem C214_both_fails :
    typesOfNs (load (readerOf [("a.yaml", .specs [] [NsWrite.Ex.ty "D" none 1]), ("ns.yaml", .ns "ext" "1.0" [⟨⟨some "a.yaml", some "core", none⟩, none, none⟩])] "d" 5)
      true exTwo "ns.yaml") "ext" = some ["D"] ∧
    typesOfNs (load (readerOf (cacheNs "ext" "1.0" (fun _ => ["D"]) Ex.spec [⟨some "a.yaml", some "core", none⟩]).1 "d" 5) true exTwo "namespace") "ext" =
      some ["Base", "Other"] := by decide +kernel

/-! ## C215: what can be cached -/

/-- a namespace can be cached if each element has a source or a namespace, the types of the sources are found, the names made from the sources are base names other than
`namespace`, no type is defined twice, and there is no white space in its name -/
theorem C215_cached_partial (name version : String) (types : String → List String) (spec : String → Except Err CSpec) (schema : List SchemaEl)
    (hel : ∀ el ∈ schema, el.ns = none → ∃ s, el.source = some s ∧ ∀ t ∈ types s, ∃ x, spec t = .ok x)
    (hsrc : ∀ s sp, (s, sp) ∈ wanted types spec schema → '/' ∉ s.toList ∧ s ≠ "" ∧ s.toList.head? ≠ some '.' ∧ s ≠ "namespace")
    (hn : (defined (wanted types spec schema)).Nodup) (hw : ∀ c ∈ name.toList, c ∉ whitespace) :
    ∃ f, cacheNs name version types spec schema = (f, .ok ()) := by
  obtain ⟨b, hb⟩ := convertLoop_can types spec (b := start name version) hel (fun x hx => by
    obtain ⟨h1, h2, h3, _⟩ := hsrc x.1 x.2 hx
    unfold checkSource
    rw [if_neg (by simpa using h1)]
    split
    · rename_i he
      exact (h2 (String.toList_eq_nil_iff.1 he)).elim
    · rename_i c r he
      rw [he] at h3
      rw [if_neg (fun e => h3 (by rw [e]; rfl))]) hn (fun t _ => rfl)
  obtain ⟨g1, g2, _⟩ := convertLoop_ok types spec hb
  have hname : b.name = name := by rw [g1]; exact (run_name _ _).1
  have hnod : (Dict.keys b.sources).Nodup := by rw [g1]; exact run_nodup (by exact List.nodup_nil)
  have hkey : ∀ s, s ∈ Dict.keys b.sources → ∃ sp, (s, sp) ∈ wanted types spec schema := by
    intro s hs
    rw [g1, keys_run (ops_plain types spec schema), g2] at hs
    rcases hs with hs | ⟨sp, hs⟩
    · cases hs
    · exact ⟨sp, mem_wanted'.1 hs⟩
  have hty : ∀ p i, (p, i) ∈ b.sources → ∃ ts, i.types = some ts ∧ names ts = [] := by
    intro p i hm
    have e3 := types_run (ops types spec schema) (start name version) p
    rw [← g1, g2] at e3
    unfold typesOf at e3
    rw [Dict.get?_of_mem hnod hm] at e3
    obtain ⟨sp, hsp⟩ := hkey p (Dict.mem_keys_of_mem hm)
    cases hi : i.types with
    | none =>
      simp only [hi, Option.getD_none, Dict.get?, List.nil_append] at e3
      have := ofSource_mem.2 (mem_wanted'.2 hsp)
      rw [← e3] at this
      cases this
    | some ts =>
      refine ⟨ts, rfl, ?_⟩
      simp only [hi, Option.getD_some, Dict.get?, List.nil_append] at e3
      rw [names_eq, e3]
      exact namesIn_of _ _
  obtain ⟨f, els, hf, hother⟩ := exportSources_can (fs := []) hty
  unfold cacheNs
  rw [show convert name version types spec schema = (b, .ok ()) from hb]
  simp only
  unfold exportH5
  rw [hf]
  simp only
  have hw' : b.name.toList.any whitespace.contains = false := by
    rw [hname, List.any_eq_false]
    intro c hc
    simpa using hw c hc
  have hno : Dict.has f "namespace" = false := by
    unfold Dict.has
    rw [hother "namespace" (fun hm => by
      obtain ⟨sp, hsp⟩ := hkey "namespace" hm
      exact (hsrc _ _ hsp).2.2.2 rfl)]
    rfl
  rw [hw', hno]
  exact ⟨_, rfl⟩

example : (defined (wanted Ex.types Ex.spec Ex.schema)).Nodup ∧ (wanted Ex.types Ex.spec Ex.schema).map Prod.fst = ["a", "a", "b.extra"] ∧
    (cacheNs "ext" "1.0" Ex.types Ex.spec Ex.schema).2 = .ok () := by decide +kernel

/-- no namespace with a spec in a file of a subdirectory can be cached -/
theorem C215_directory_fails (name version : String) (types : String → List String) (spec : String → Except Err CSpec) (schema : List SchemaEl)
    (el : SchemaEl) (hel : el ∈ schema) (hns : el.ns = none) (s : String) (hs : el.source = some s) (hdir : '/' ∈ s.toList)
    (t : String) (ht : t ∈ types s) (x : CSpec) (hx : spec t = .ok x) (hn : x.nested = false) (f : Dict String File) :
    cacheNs name version types spec schema ≠ (f, .ok ()) := by
  intro h
  obtain ⟨_, h2, _⟩ := cache_ok h
  have hw : (sourceName s, x.copy) ∈ wanted types spec schema := by
    unfold wanted
    refine List.mem_flatMap.2 ⟨el, hel, ?_⟩
    simp only [hns, hs]
    refine List.mem_map.2 ⟨x.copy, List.mem_filterMap.2 ⟨t, ht, ?_⟩, rfl⟩
    simp only [hx, hn, Bool.false_eq_true, if_false]
  have hc := taken_check (b := start name version) (by rw [h2]; exact mem_wanted'.2 hw)
  unfold checkSource at hc
  rw [if_pos (by simpa using sourceName_dir hdir)] at hc
  cases hc

/-- such a namespace can be loaded -/
theorem C215_loads_fails :
    typesOfNs (load (readerOf [("sub/a.yaml", .specs [] [NsWrite.Ex.ty "D" none 1]), ("ns.yaml", .ns "ext" "1.0" [⟨⟨some "sub/a.yaml", none, none⟩, none, none⟩])] "d" 5)
      true {} "ns.yaml") "ext" = some ["D"] ∧
    cacheNs "ext" "1.0" (fun _ => ["D"]) Ex.spec [⟨some "sub/a.yaml", none, none⟩] = ([], .error .valueError) := by decide +kernel

/-- nor can one with a source `namespace.yaml`; the dataset of the specs has been written then -/
theorem C215_namespace_fails :
    typesOfNs (load (readerOf [("namespace.yaml", .specs [] [NsWrite.Ex.ty "D" none 1]), ("ns.yaml", .ns "ext" "1.0" [⟨⟨some "namespace.yaml", none, none⟩, none, none⟩])] "d" 5)
      true {} "ns.yaml") "ext" = some ["D"] ∧
    cacheNs "ext" "1.0" (fun _ => ["D"]) Ex.spec [⟨some "namespace.yaml", none, none⟩] = ([("namespace", .specs [] [NsWrite.Ex.ty "D" none 1])], .error .valueError) := by
  decide +kernel

/-- only the last ending is cut off, and a name that begins with a point is no ending -/
theorem C215_source_name : sourceName "a.yaml" = "a" ∧ sourceName "a.b.yaml" = "a.b" ∧ sourceName "a" = "a" ∧ sourceName ".yaml" = ".yaml" ∧ sourceName "d.e/a" = "d.e/a" ∧
    sourceName "..a" = "..a" ∧ sourceName "a." = "a" ∧ sourceName "" = "" := by decide +kernel

end Verif.NsCache

import Verif.Lemmas.Namespace
import Mathlib.Data.List.Basic

/-!
# C55, C89–C94: loading namespaces
-/

namespace Verif.Namespace
open Verif Relation

/-! ## Reachable catalogs -/

/-- All specs of all namespaces are stored under the type they define. -/
def Inv (st : State) : Prop := ∀ k n, Dict.get? st.namespaces k = some n → WF n.cat

/-- The types that the entry `el` of a schema brings in: those defined in its source file, or those asked for of a
namespace with everything they depend on. -/
def Brings (rd : Reader) (st : State) (el : SchemaEl) (u : String) : Prop :=
  match el.source with
  | some src => ∃ items, rd.readSpec src = .ok items ∧ ∃ i ∈ items, ∃ e ∈ i.regs, e.dfn = u
  | none => ∃ m sp, el.ns = some m ∧ Dict.get? st.namespaces m = some sp ∧
      ∃ t ∈ el.types.getD sp.cat.specs.keys, ReflTransGen (Dep sp.cat) t u

theorem Brings_congr {rd : Reader} {st st' : State} (h : st'.namespaces = st.namespaces) {el : SchemaEl} {u : String} :
    Brings rd st' el u ↔ Brings rd st el u := by
  unfold Brings
  rw [h]

theorem closed_reach {inc : Cat} {d : List String} (hc : ∀ u ∈ d, ∀ v, Dep inc u v → v ∈ d) {t u : String} (ht : t ∈ d)
    (h : ReflTransGen (Dep inc) t u) : u ∈ d := by
  induction h with
  | refl => exact ht
  | tail _ hs ih => exact hc _ ih _ hs

theorem include_spec {inc : Cat} (hw : WF inc) {n : Nat} {ts : List String} {c c' : Cat} {done : List String}
    (h : regUses (registerType inc n) ts c [] = .ok (c', done)) :
    Grows inc ts c [] c' done ∧ ∀ u, u ∈ done ↔ ∃ t ∈ ts, ReflTransGen (Dep inc) t u := by
  have g := regUses_grows (fun t c d c' d' => registerType_grows hw n t) ts h
  refine ⟨g, fun u => ⟨fun hu => ?_, ?_⟩⟩
  · rcases g.reach u hu with hu | hu
    · cases hu
    · exact hu
  · rintro ⟨t, ht, hr⟩
    exact closed_reach (g.closed (by simp)) (g.roots t ht) hr

theorem mem_keys_iff {c : Cat} {u : String} : u ∈ c.specs.keys ↔ ∃ x, Dict.get? c.specs u = some x := by
  cases h : Dict.get? c.specs u with
  | none =>
    have := Dict.get?_eq_none_iff.1 h
    simp [this]
  | some x =>
    simp only [Option.some.injEq, exists_eq', iff_true]
    refine Classical.byContradiction fun hn => ?_
    rw [Dict.get?_eq_none_iff.2 hn] at h
    cases h

theorem schemaLoop_ok {rd : Reader} {resolve : Bool} {name : String} : ∀ {els : List SchemaEl} {st st' : State}
    {c c' : Cat} {inc inc' : Included}, Inv st → WF c →
    schemaLoop rd resolve name st c inc els = (st', .ok (c', inc')) →
    WF c' ∧ (∀ u x, Dict.get? c.specs u = some x → Dict.get? c'.specs u = some x ∧
      Dict.get? c'.sources u = Dict.get? c.sources u) ∧
    (∀ u, u ∈ c'.specs.keys ↔ u ∈ c.specs.keys ∨ ∃ el ∈ els, Brings rd st el u) ∧
    ∀ el ∈ els, ∀ src, el.source = some src → ∃ items, rd.readSpec src = .ok items ∧
      (∀ i ∈ items, ∃ d, i.key = some d ∧ ∀ ts, el.types = some ts → ts ≠ [] → d ∈ ts) ∧
      (∀ i ∈ items, ∀ e ∈ i.regs, Dict.get? c'.specs e.dfn = some e) ∧
      (∀ i ∈ items, ∀ e ∈ i.regs, Dict.get? c'.sources e.dfn = some (some src)) ∧
      ∀ u, u ∈ getTypes st' src ↔ ∃ i ∈ items, ∃ e ∈ i.regs, e.dfn = u
  | [], _, _, _, _, _, _, _, hw, h => by
    cases h
    exact ⟨hw, fun _ _ h => ⟨h, rfl⟩, fun u => by simp, by simp⟩
  | el :: els, st, st', c, c', inc, inc', hi, hw, h => by
    unfold schemaLoop at h
    split at h
    · rename_i src hs
      split at h
      · cases h
      · rename_i st1 c1 h1
        simp only at h
        have hns : st1.namespaces = st.namespaces := by
          have := (@loadSpecFile_frame rd resolve st src c el.types).2.1
          rw [h1] at this
          exact this
        obtain ⟨_, items, l, h2, h3, hst⟩ := loadSpecFile_ok h1
        obtain ⟨b1, b2, b3, b4, b5, b6, b7, b8⟩ := regLoop_spec h3
        have hi' : Inv { st1 with
            includedSources := Dict.set st1.includedSources name ((Dict.get? st1.includedSources name).getD [] ++ [src]) } := by
          intro k n hk
          exact hi k n (hns ▸ hk)
        obtain ⟨g1, g2, g3, g4⟩ := schemaLoop_ok hi' (b3 hw) h
        refine ⟨g1, fun u x hx => ⟨(g2 u x (b1 u x hx)).1, (g2 u x (b1 u x hx)).2.trans (b7 u x hx)⟩, ?_, ?_⟩
        · intro u
          rw [g3, b2]
          have hb : Brings rd st el u ↔ ∃ i ∈ items, ∃ e ∈ i.regs, e.dfn = u := by
            unfold Brings
            simp only [hs]
            constructor
            · rintro ⟨items', h5, h6⟩
              rw [h2] at h5
              cases h5
              exact h6
            · intro h6; exact ⟨items, h2, h6⟩
          simp only [List.mem_cons, exists_eq_or_imp, hb]
          have : (∃ a ∈ els, Brings rd { st1 with
            includedSources := Dict.set st1.includedSources name ((Dict.get? st1.includedSources name).getD [] ++ [src]) }
              a u) ↔
              ∃ a ∈ els, Brings rd st a u := by
            constructor <;> rintro ⟨a, ha, h7⟩
            · exact ⟨a, ha, (Brings_congr (st := st) (by exact hns)).1 h7⟩
            · exact ⟨a, ha, (Brings_congr (st := st) (by exact hns)).2 h7⟩
          rw [this]
          exact or_assoc
        · intro el' hel' src' hs'
          rcases List.mem_cons.1 hel' with rfl | hel'
          · rw [hs] at hs'
            cases hs'
            refine ⟨items, h2, b5, fun i hi e he => (g2 _ _ (b6 i hi e he)).1,
              fun i hi e he => (g2 _ _ (b6 i hi e he)).2.trans (b8 i hi e he), ?_⟩
            have hl : Dict.get? st'.loaded (some src) = some l := by
              have hf := (@schemaLoop_frame rd resolve name els { st1 with
                includedSources :=
                  Dict.set st1.includedSources name ((Dict.get? st1.includedSources name).getD [] ++ [src]) } c1 inc).1
              rw [h] at hf
              apply hf.ld
              rw [hst]
              simp
            intro u
            unfold getTypes
            rw [hl, Option.getD_some, b4]
            simp
          · exact g4 el' hel' src' hs'
    · rename_i hs
      split at h
      · cases h
      · rename_i m hm
        split at h
        · cases h
        · rename_i sp hsp
          split at h
          · cases h
          · rename_i c1 done h1
            obtain ⟨gr, hd⟩ := include_spec (hi m sp hsp) h1
            have hw1 : WF c1 := by
              intro t e he
              rcases gr.only t e he with he | he
              · exact hw t e he
              · exact hi m sp hsp t e he.2
            obtain ⟨g1, g2, g3, g4⟩ := schemaLoop_ok hi hw1 h
            refine ⟨g1, fun u x hx => ⟨(g2 u x (gr.keep u x hx)).1,
              (g2 u x (gr.keep u x hx)).2.trans (gr.keepSrc u x hx)⟩, ?_, ?_⟩
            · intro u
              rw [g3]
              have hb : Brings rd st el u ↔ u ∈ done := by
                rw [hd]
                unfold Brings
                simp only [hs, hm, Option.some.injEq]
                constructor
                · rintro ⟨m', sp', rfl, h6, h7⟩
                  rw [hsp] at h6
                  cases h6
                  exact h7
                · intro h7; exact ⟨m, sp, rfl, hsp, h7⟩
              simp only [List.mem_cons, exists_eq_or_imp, hb]
              have : u ∈ c1.specs.keys ↔ u ∈ c.specs.keys ∨ u ∈ done := by
                rw [mem_keys_iff, mem_keys_iff]
                constructor
                · rintro ⟨x, hx⟩
                  rcases gr.only u x hx with hx | hx
                  · exact .inl ⟨x, hx⟩
                  · exact .inr hx.1
                · rintro (⟨x, hx⟩ | hu)
                  · exact ⟨x, gr.keep u x hx⟩
                  · rcases gr.have_ u hu with hu | ⟨x, hx, _⟩
                    · cases hu
                    · exact ⟨x, hx⟩
              rw [this]
              exact or_assoc
            · intro el' hel' src' hs'
              rcases List.mem_cons.1 hel' with rfl | hel'
              · rw [hs] at hs'; cases hs'
              · exact g4 el' hel' src' hs'

theorem loadNamespace_ok {rd : Reader} {resolve : Bool} {st st' : State} {d : NSDef} {inc : Included}
    (h : loadNamespace rd resolve st d = (st', .ok inc)) :
    Dict.has st.namespaces d.name = false ∧ ∃ st1 c, schemaLoop rd resolve d.name st {} [] d.schema = (st1, .ok (c, inc)) ∧
      st' = { st1 with namespaces := Dict.set st.namespaces d.name ⟨d.version, c⟩ } ∧
      st1.namespaces = st.namespaces := by
  unfold loadNamespace at h
  split at h
  · cases h
  · rename_i h0
    split at h
    · cases h
    · rename_i st1 c inc' h1
      split at h
      · cases h
      · have := (@schemaLoop_frame rd resolve d.name d.schema st {} []).2.1
        rw [h1] at this
        simp only at this
        cases h
        refine ⟨by simpa using h0, st1, c, h1, by rw [this], this⟩

theorem WF_empty : WF {} := by intro t e h; cases h

theorem loadNamespace_inv {rd : Reader} {resolve : Bool} {st : State} {d : NSDef} (hi : Inv st) :
    Inv (loadNamespace rd resolve st d).1 := by
  unfold loadNamespace
  split
  · exact hi
  · have hns := (@schemaLoop_frame rd resolve d.name d.schema st {} []).2.1
    split
    · rename_i h1; rw [h1] at hns; intro k n hk; exact hi k n (hns ▸ hk)
    · rename_i st1 c inc h1
      rw [h1] at hns
      simp only at hns
      split
      · intro k n hk; exact hi k n (hns ▸ hk)
      · intro k n hk
        simp only [Dict.get?_set] at hk
        split at hk
        · cases hk
          exact (schemaLoop_ok hi WF_empty h1).1
        · exact hi k n (hns ▸ hk)

theorem loadLoop_inv {rd : Reader} {resolve : Bool} : ∀ {ds : List NSDef} {st : State} {ret : Dict String Included},
    Inv st → Inv (loadLoop rd resolve st ret ds).1
  | [], _, _, hi => hi
  | d :: ds, st, ret, hi => by
    unfold loadLoop
    have := @loadNamespace_inv rd resolve st d hi
    split
    · rename_i h1; rw [h1] at this; exact this
    · rename_i h1; rw [h1] at this; exact loadLoop_inv this

theorem load_inv {rd : Reader} {resolve : Bool} {st : State} {path : String} (hi : Inv st) :
    Inv (load rd resolve st path).1 := by
  unfold load
  simp only
  split
  · exact hi
  · split
    · exact hi
    · rename_i defs _
      have := @loadLoop_inv rd resolve (defs.filter (fun d => !Dict.has st.namespaces d.name)) st [] hi
      split
      · rename_i h1; rw [h1] at this; exact this
      · rename_i h1; rw [h1] at this; exact this

/-- Operations on a catalog; files may change between them, and errors are caught. -/
inductive Op
  | load (rd : Reader) (resolve : Bool) (path : String)
  | add (name : String) (n : NSpace)

/-- Any history. -/
def run (st : State) : List Op → State
  | [] => st
  | .load rd r p :: ops => run (load rd r st p).1 ops
  | .add name n :: ops => run (addNamespace st name n).1 ops

/-- **C92** (invariant).  Whatever is loaded, in whatever order and with whatever failures, every spec of every namespace
is found under the type it defines — provided the namespaces added by hand are like that. -/
theorem C92_reachable {ops : List Op} (h : ∀ name n, Op.add name n ∈ ops → WF n.cat) {st : State} (hi : Inv st) :
    Inv (run st ops) := by
  induction ops generalizing st with
  | nil => exact hi
  | cons op ops ih =>
    cases op with
    | load rd r p => exact ih (fun name n hm => h name n (List.mem_cons_of_mem _ hm)) (load_inv hi)
    | add name n =>
      refine ih (fun name n hm => h name n (List.mem_cons_of_mem _ hm)) ?_
      unfold addNamespace
      split
      · exact hi
      · intro k m hk
        simp only [Dict.get?_set] at hk
        split at hk
        · cases hk; exact h name n List.mem_cons_self
        · exact hi k m hk

example : Inv {} := by intro k n h; cases h

/-! ## Witness data -/

/-- a base namespace with two types, the second included by the first; `B` is a container of itself in the last -/
def eA : Entry := ⟨"A", some "B", ["C"], 0⟩
/-- see `eA` -/
def eB : Entry := ⟨"B", none, [], 1⟩
/-- see `eA` -/
def eC : Entry := ⟨"C", some "B", [], 2⟩
/-- a type that contains itself -/
def eR : Entry := ⟨"R", none, ["R"], 3⟩
/-- a file item for an entry -/
def item (e : Entry) : Item := ⟨some e.dfn, e.inc.toList, none, [e]⟩

/-- Readers for the witnesses: `base.yaml` with B, C, A; `rec.yaml` with R; `more.yaml` with D only if `more`. -/
def wrd (dir : String) (more : Bool) : Reader where
  depth := 5
  dir := dir
  readNs := fun p =>
    if p = "base" then .ok [⟨"base", "1", [{ source := some "base.yaml" }], none⟩]
    else if p = "two" then .ok [⟨"two", "1", [{ source := some "base.yaml" }, { source := some "more.yaml" }], none⟩]
    else if p = "rec" then .ok [⟨"rec", "1", [{ source := some "rec.yaml" }], none⟩]
    else if p = "ext" then .ok [⟨"ext", "1", [{ ns := some "base", types := some ["A"] }], none⟩]
    else if p = "extrec" then .ok [⟨"extrec", "1", [{ ns := some "rec" }], none⟩]
    else if p = "ext2" then .ok [⟨"ext2", "1", [{ ns := some "base", types := some ["B"] },
      { ns := some "base", types := some ["C"] }, { source := some "base2.yaml" }], none⟩]
    else if p = "twice" then .ok [⟨"twice", "1", [{ ns := some "base", types := some ["A"] },
      { ns := some "base", types := some ["B"] }], none⟩]
    else if p = "part" then .ok [⟨"part", "1", [{ source := some "base.yaml", types := some ["B"] }], none⟩]
    else if p = "other" then .ok [⟨"other", "1", [{ source := some "base.yaml" }], none⟩]
    else .error .valueError
  readSpec := fun s =>
    if s = "base.yaml" then .ok [item eB, item eC, item eA]
    else if s = "base2.yaml" then .ok [item ⟨"D", some "C", [], 5⟩]
    else if s = "rec.yaml" then .ok [item eR]
    else if s = "more.yaml" then (if more then .ok [item ⟨"D", none, [], 4⟩] else .error .valueError)
    else .error .valueError

/-- Did it work? -/
def isOk {α : Type} (x : Except Err α) : Bool :=
  match x with
  | .ok _ => true
  | .error _ => false

/-! ## C55 -/

/-- **C55** fails: a load that fails on the second of its files cannot be repeated once that file is there, although a
fresh catalog would load it: the first file counts as loaded already. -/
theorem C55_retry_fails :
    ¬ ∀ (r1 r2 : Reader) (st st' : State) (x : Err) (path : String),
      load r1 true st path = (st', .error x) → isOk (load r2 true st path).2 = true →
      isOk (load r2 true st' path).2 = true := by
  intro h
  have := h (wrd "d" false) (wrd "d" true) {} (load (wrd "d" false) true {} "two").1 .valueError "two" (by decide +kernel)
    (by decide +kernel)
  revert this
  decide +kernel

/-- **C55** (partial).  Whether a load succeeds or fails, everything the catalog held is still there: namespaces,
loaded files, remembered results, and the sources listed per namespace (which may only get longer).  Missing: that
nothing is added by a failed load (`C55_retry_fails`). -/
theorem C55_load_keeps_partial {rd : Reader} {resolve : Bool} {st : State} {path : String} :
    let st' := (load rd resolve st path).1
    (∀ k v, Dict.get? st.namespaces k = some v → Dict.get? st'.namespaces k = some v) ∧
    (∀ k v, Dict.get? st.loaded k = some v → Dict.get? st'.loaded k = some v) ∧
    (∀ k v, Dict.get? st.includedSpecs k = some v → Dict.get? st'.includedSpecs k = some v) ∧
    (∀ k v, Dict.get? st.includedSources k = some v → ∃ t, Dict.get? st'.includedSources k = some (v ++ t)) := by
  have key : Frame st (load rd resolve st path).1 := by
    unfold load
    simp only
    split
    · exact Frame.refl
    · rename_i h0
      split
      · exact Frame.refl
      · rename_i defs _
        obtain ⟨f1, f2⟩ := @loadLoop_frame rd resolve (defs.filter (fun d => !Dict.has st.namespaces d.name)) st []
        split
        · rename_i h1; rw [h1] at f1; exact f1
        · rename_i st1 ret h1
          rw [h1] at f1 f2
          simp only at f1 f2
          refine f1.trans ⟨fun _ _ h => h, fun _ _ h => h, ?_, fun _ v h => ⟨[], by simpa using h⟩⟩
          intro k v hk
          simp only [Dict.get?_set]
          rw [if_neg]
          · exact hk
          · intro hkk
            rw [f2, hkk, h0] at hk
            cases hk
  exact ⟨key.ns, key.ld, key.inc, key.src⟩

example : isOk (load (wrd "d" false) true (load (wrd "d" false) true {} "base").1 "two").2 = false := by decide +kernel

theorem schemaLoop_error_includes {rd : Reader} {resolve : Bool} {name : String} {el : SchemaEl} :
    ∀ {els : List SchemaEl} {st st' : State} {c : Cat} {inc : Included} {x : Err},
    (∀ e ∈ els, e.source = none) → schemaLoop rd resolve name st c inc (els ++ [el]) = (st', .error x) → st' = st
  | [], st, st', c, inc, x, _, h => by
    simp only [List.nil_append] at h
    unfold schemaLoop at h
    split at h
    · split at h
      · rename_i h1
        cases h
        exact loadSpecFile_error h1
      · simp only [schemaLoop] at h
        cases h
    · split at h
      · cases h; rfl
      · split at h
        · cases h; rfl
        · split at h
          · cases h; rfl
          · simp only [schemaLoop] at h
            cases h
  | e :: els, st, st', c, inc, x, hs, h => by
    simp only [List.cons_append] at h
    unfold schemaLoop at h
    split at h
    · rename_i src he
      rw [hs e (by simp)] at he
      cases he
    · split at h
      · cases h; rfl
      · split at h
        · cases h; rfl
        · split at h
          · cases h; rfl
          · exact schemaLoop_error_includes (fun e' he' => hs e' (List.mem_cons_of_mem _ he')) h

/-- **C55** (retry, partial).  If the file defines one namespace that is new, whose schema reads no file before its last
entry, and whose own fields are in order, then a failed load leaves the catalog exactly as it was.  Missing: several
files, several namespaces per file (`C55_retry_fails`). -/
theorem C55_failed_unchanged_partial {rd : Reader} {resolve : Bool} {st st' : State} {path : String} {x : Err}
    {defs : List NSDef} {d : NSDef} {els : List SchemaEl} {el : SchemaEl} (hr : rd.readNs path = .ok defs)
    (hd : defs.filter (fun d => !Dict.has st.namespaces d.name) = [d]) (hs : d.schema = els ++ [el])
    (he : ∀ e ∈ els, e.source = none) (hb : d.bad = none) (h : load rd resolve st path = (st', .error x)) :
    st' = st := by
  unfold load at h
  simp only [hr, hd] at h
  split at h
  · cases h
  · unfold loadLoop at h
    have key : ∀ st1 y, loadNamespace rd resolve st d = (st1, .error y) → st1 = st := by
      intro st1 y h1
      unfold loadNamespace at h1
      split at h1
      · cases h1; rfl
      · split at h1
        · rename_i h2
          cases h1
          rw [hs] at h2
          exact schemaLoop_error_includes he h2
        · rw [hb] at h1
          cases h1
    split at h
    · rename_i h2
      split at h2
      · rename_i h3
        cases h2
        cases h
        exact key _ _ h3
      · simp only [loadLoop] at h2
        cases h2
    · cases h

example : (load (wrd "d" true) true {} "ext").2 = .error .valueError := by decide +kernel

/-! ## C89 -/

/-- **C89**.  Loading a namespace file that has been loaded gives the same report and changes nothing, whatever the files
now say. -/
theorem C89_reload {r1 r2 : Reader} {res1 res2 : Bool} {st st' : State} {path : String} {ret : Dict String Included}
    (h : load r1 res1 st path = (st', .ok ret)) (hd : r2.dir = r1.dir) :
    load r2 res2 st' path = (st', .ok ret) := by
  have key : Dict.get? st'.includedSpecs (r1.dir ++ "/" ++ path) = some ret := by
    unfold load at h
    simp only at h
    split at h
    · rename_i h0; cases h; exact h0
    · split at h
      · cases h
      · split at h
        · cases h
        · cases h
          simp
  unfold load
  simp only [hd, key]

/-- **C89** (versions).  A namespace once in the catalog is never replaced by a later load. -/
theorem C89_not_replaced {rd : Reader} {resolve : Bool} {st : State} {path : String} {k : String} {n : NSpace}
    (h : Dict.get? st.namespaces k = some n) : Dict.get? (load rd resolve st path).1.namespaces k = some n :=
  (C55_load_keeps_partial (rd := rd) (resolve := resolve) (st := st) (path := path)).1 k n h

example : (load (wrd "d" true) true {} "base").2 = .ok [("base", [])] := by decide +kernel

/-! ## C90 -/

/-- **C90**.  Including types from a namespace brings in exactly those types and everything they depend on, in whatever
order they are asked for; each spec is the one of that namespace, with the same source file. -/
theorem C90_closure {inc : Cat} (hw : WF inc) {n : Nat} {ts : List String} {c' : Cat} {done : List String}
    (h : regUses (registerType inc n) ts {} [] = .ok (c', done)) :
    (∀ u, u ∈ c'.specs.keys ↔ ∃ t ∈ ts, ReflTransGen (Dep inc) t u) ∧
    (∀ u ∈ c'.specs.keys, Dict.get? c'.specs u = Dict.get? inc.specs u ∧
      (Dict.get? c'.sources u).join = (Dict.get? inc.sources u).join) := by
  obtain ⟨g, hd⟩ := include_spec hw h
  have hk : c'.specs.keys = done := g.order rfl
  refine ⟨fun u => by rw [hk]; exact hd u, ?_⟩
  intro u hu
  rw [hk] at hu
  refine ⟨?_, ?_⟩
  · rcases g.have_ u hu with hu | ⟨x, h1, h2⟩
    · cases hu
    · rw [h1, h2]
  · rcases g.haveSrc u hu with hu | h1
    · cases hu
    · rw [h1]; rfl

/-- **C90** (order).  In the resulting catalog every type comes after all the types it depends on. -/
theorem C90_order {inc : Cat} (hw : WF inc) {n : Nat} {ts : List String} {c' : Cat} {done : List String}
    (h : regUses (registerType inc n) ts {} [] = .ok (c', done)) {a b : List String} {t v : String}
    (hk : c'.specs.keys = a ++ t :: b) (hv : Dep inc t v) : v ∈ a := by
  obtain ⟨g, _⟩ := include_spec hw h
  have hk' : c'.specs.keys = done := g.order rfl
  rw [hk'] at hk
  exact g.topo (by simp) a t b hk v hv

/-- The catalog of the witness namespace. -/
def baseCat : Cat := ⟨[("B", eB), ("C", eC), ("A", eA)],
  [("B", some "base.yaml"), ("C", some "base.yaml"), ("A", some "base.yaml")]⟩

/-- Keys of a successful result. -/
def keysOf (x : Except Err (Cat × List String)) : List String :=
  match x with
  | .ok (c, _) => c.specs.keys
  | .error _ => []

example : keysOf (regUses (registerType baseCat 5) ["A"] {} []) = ["B", "C", "A"] := by decide +kernel
example : WF baseCat := by
  intro t e h
  simp only [baseCat, Dict.get?] at h
  split at h
  · cases h; assumption
  · split at h
    · cases h; assumption
    · split at h
      · cases h; assumption
      · cases h

/-- **C90** (refused cycles).  If including succeeds, no type brought in depends on itself, directly or not: a type that
may contain itself cannot be included, at any recursion depth. -/
theorem C90_cycle_refused {inc : Cat} (hw : WF inc) {n : Nat} {ts : List String} {c' : Cat} {done : List String}
    (h : regUses (registerType inc n) ts {} [] = .ok (c', done)) {t u : String} (ht : t ∈ ts)
    (hr : ReflTransGen (Dep inc) t u) : ¬ TransGen (Dep inc) u u := by
  obtain ⟨g, hd⟩ := include_spec hw h
  have hk : c'.specs.keys = done := g.order rfl
  have topo := g.topo (by simp)
  have closed := g.closed (by simp)
  have lt : ∀ a b, a ∈ done → Dep inc a b → done.idxOf b < done.idxOf a := by
    intro a b ha hab
    have hlt := List.idxOf_lt_length_of_mem ha
    have hsplit : done = done.take (done.idxOf a) ++ a :: done.drop (done.idxOf a + 1) := by
      have h1 := List.take_append_drop (done.idxOf a) done
      rw [List.drop_eq_getElem_cons hlt, List.getElem_idxOf] at h1
      exact h1.symm
    have hb := topo _ _ _ hsplit b hab
    have h2 : (done.take (done.idxOf a)).idxOf b < (done.take (done.idxOf a)).length :=
      List.idxOf_lt_length_of_mem hb
    have h3 : done.idxOf b = (done.take (done.idxOf a)).idxOf b := by
      exact (congrArg (List.idxOf b) hsplit).trans (List.idxOf_append_of_mem hb)
    rw [h3]
    have h4 : (done.take (done.idxOf a)).length ≤ done.idxOf a := by
      rw [List.length_take]; omega
    omega
  intro hc
  have hu : u ∈ done := (hd u).2 ⟨t, ht, hr⟩
  have : ∀ v, TransGen (Dep inc) u v → v ∈ done ∧ done.idxOf v < done.idxOf u := by
    intro v hv
    induction hv with
    | single h1 => exact ⟨closed u hu _ h1, lt u _ hu h1⟩
    | tail _ h1 ih =>
      exact ⟨closed _ ih.1 _ h1, Nat.lt_trans (lt _ _ ih.1 h1) ih.2⟩
  exact absurd (this u hc).2 (Nat.lt_irrefl _)

/-- **C90** fails for namespaces as such: one with a type that may contain itself is loaded without complaint, but
another namespace cannot include it. -/
theorem C90_include_loaded_fails :
    ¬ ∀ (rd : Reader) (st : State) (ret : Dict String Included), load rd true {} "rec" = (st, .ok ret) →
      isOk (load rd true st "extrec").2 = true := by
  intro h
  have := h (wrd "d" true) (load (wrd "d" true) true {} "rec").1 [("rec", [])] (by decide +kernel)
  revert this
  decide +kernel

/-! ## C91 -/

/-- What was included from `m`, according to a report. -/
def reported (inc : Included) (m : String) : List String := (Dict.get? inc m).getD []

/-- **C91** fails: the report of included types names, for each namespace, only what the last entry for it brought in.
`A` is included first, then `B`; only `B` is reported. -/
theorem C91_report_complete_fails :
    ¬ ∀ (rd : Reader) (st st' : State) (d : NSDef) (inc : Included), loadNamespace rd true st d = (st', .ok inc) →
      ∀ el ∈ d.schema, el.source = none → ∀ m, el.ns = some m → ∀ t ∈ el.types.getD [], t ∈ reported inc m := by
  intro h
  have := h (wrd "d" true) (load (wrd "d" true) true {} "base").1
    (loadNamespace (wrd "d" true) true (load (wrd "d" true) true {} "base").1
      ⟨"twice", "1", [{ ns := some "base", types := some ["A"] }, { ns := some "base", types := some ["B"] }], none⟩).1
    ⟨"twice", "1", [{ ns := some "base", types := some ["A"] }, { ns := some "base", types := some ["B"] }], none⟩
    [("base", ["B"])] (by decide +kernel) { ns := some "base", types := some ["A"] } (by simp) rfl "base" rfl "A"
    (by simp)
  revert this
  decide +kernel

theorem mem_insertSorted {x y : String} : ∀ {l : List String}, y ∈ insertSorted x l ↔ y = x ∨ y ∈ l
  | [] => by simp [insertSorted]
  | z :: l => by
    unfold insertSorted
    split
    · simp
    · rw [List.mem_cons, mem_insertSorted, List.mem_cons]
      constructor
      · rintro (h | h | h)
        · exact .inr (.inl h)
        · exact .inl h
        · exact .inr (.inr h)
      · rintro (h | h | h)
        · exact .inr (.inl h)
        · exact .inl h
        · exact .inr (.inr h)

theorem mem_sorted {y : String} : ∀ {l : List String}, y ∈ sorted l ↔ y ∈ l
  | [] => by simp [sorted]
  | x :: l => by
    unfold sorted
    rw [mem_insertSorted, mem_sorted, List.mem_cons]

theorem schemaLoop_inc {rd : Reader} {resolve : Bool} {name m : String} : ∀ {els : List SchemaEl} {st st' : State}
    {c c' : Cat} {inc inc' : Included}, (∀ el ∈ els, el.source = none → el.ns ≠ some m) →
    schemaLoop rd resolve name st c inc els = (st', .ok (c', inc')) → Dict.get? inc' m = Dict.get? inc m
  | [], _, _, _, _, _, _, _, h => by cases h; rfl
  | el :: els, st, st', c, c', inc, inc', hm, h => by
    have hm' : ∀ el ∈ els, el.source = none → el.ns ≠ some m := fun e he => hm e (List.mem_cons_of_mem _ he)
    unfold schemaLoop at h
    split at h
    · split at h
      · cases h
      · simp only at h
        exact schemaLoop_inc hm' h
    · rename_i hs
      split at h
      · cases h
      · rename_i m' hm2
        split at h
        · cases h
        · split at h
          · cases h
          · rw [schemaLoop_inc hm' h, Dict.get?_set, if_neg]
            intro he
            exact hm el (by simp) hs (by rw [hm2, he])

theorem schemaLoop_append {rd : Reader} {resolve : Bool} {name : String} : ∀ {a b : List SchemaEl} {st st' : State}
    {c c' : Cat} {inc inc' : Included}, schemaLoop rd resolve name st c inc (a ++ b) = (st', .ok (c', inc')) →
    ∃ st1 c1 inc1, schemaLoop rd resolve name st c inc a = (st1, .ok (c1, inc1)) ∧
      schemaLoop rd resolve name st1 c1 inc1 b = (st', .ok (c', inc'))
  | [], b, st, st', c, c', inc, inc', h => ⟨st, c, inc, rfl, h⟩
  | el :: a, b, st, st', c, c', inc, inc', h => by
    simp only [List.cons_append] at h
    unfold schemaLoop at h
    split at h
    · rename_i hs
      split at h
      · cases h
      · rename_i h1
        simp only at h
        obtain ⟨st1, c1, inc1, h2, h3⟩ := schemaLoop_append h
        refine ⟨st1, c1, inc1, ?_, h3⟩
        rw [schemaLoop]
        simp only [hs, h1, h2]
    · rename_i hs
      split at h
      · cases h
      · rename_i hm
        split at h
        · cases h
        · rename_i hsp
          split at h
          · cases h
          · rename_i h1
            obtain ⟨st1, c1, inc1, h2, h3⟩ := schemaLoop_append h
            refine ⟨st1, c1, inc1, ?_, h3⟩
            rw [schemaLoop]
            simp only [hs, hm, hsp, h1, h2]

/-- **C91** (partial).  For each namespace named in the schema, what its last entry brought in — the types asked for and
everything they depend on, nothing else — is reported.  Missing: earlier entries for the same namespace. -/
theorem C91_report_partial {rd : Reader} {resolve : Bool} {st st' : State} {d : NSDef} {inc : Included} (hi : Inv st)
    (h : loadNamespace rd resolve st d = (st', .ok inc)) {a b : List SchemaEl} {el : SchemaEl} {m : String}
    (hs : d.schema = a ++ el :: b) (h1 : el.source = none) (h2 : el.ns = some m)
    (hb : ∀ el' ∈ b, el'.source = none → el'.ns ≠ some m) :
    ∃ sp, Dict.get? st.namespaces m = some sp ∧ ∀ u, u ∈ reported inc m ↔
      ∃ t ∈ el.types.getD sp.cat.specs.keys, ReflTransGen (Dep sp.cat) t u := by
  obtain ⟨_, st1, c, h3, _, _⟩ := loadNamespace_ok h
  rw [hs] at h3
  obtain ⟨st2, c2, inc2, h4, h5⟩ := schemaLoop_append h3
  have hns := (@schemaLoop_frame rd resolve d.name a st {} []).2.1
  rw [h4] at hns
  simp only at hns
  unfold schemaLoop at h5
  rw [h1, h2] at h5
  simp only at h5
  split at h5
  · cases h5
  · rename_i sp hsp
    rw [hns] at hsp
    split at h5
    · cases h5
    · rename_i c3 done h6
      obtain ⟨_, hd⟩ := include_spec (hi m sp hsp) h6
      refine ⟨sp, hsp, fun u => ?_⟩
      unfold reported
      rw [schemaLoop_inc hb h5, Dict.get?_set_self, Option.getD_some, mem_sorted, hd]

example : (load (wrd "d" true) true (load (wrd "d" true) true {} "base").1 "ext").2 =
    .ok [("ext", [("base", ["A", "B", "C"])])] := by decide +kernel

/-! ## C92 -/

/-- **C92**.  The types of a namespace just loaded are exactly those its schema brings in: the types its files define
and those it includes with all they depend on. -/
theorem C92_types {rd : Reader} {resolve : Bool} {st st' : State} {d : NSDef} {inc : Included} (hi : Inv st)
    (h : loadNamespace rd resolve st d = (st', .ok inc)) :
    ∃ n, Dict.get? st'.namespaces d.name = some n ∧ n.version = d.version ∧
      ∀ u, u ∈ n.cat.specs.keys ↔ ∃ el ∈ d.schema, Brings rd st el u := by
  obtain ⟨_, st1, c, h3, h4, h5⟩ := loadNamespace_ok h
  obtain ⟨_, _, g3, _⟩ := schemaLoop_ok hi WF_empty h3
  refine ⟨⟨d.version, c⟩, by rw [h4]; simp, rfl, ?_⟩
  intro u
  rw [g3]
  simp [Dict.keys]

/-- **C92** (files).  Each spec of each file is found in the namespace, unchanged and with that file as its source, and
the types listed for the file are exactly those it defines. -/
theorem C92_file_specs {rd : Reader} {resolve : Bool} {st st' : State} {d : NSDef} {inc : Included} (hi : Inv st)
    (h : loadNamespace rd resolve st d = (st', .ok inc)) {el : SchemaEl} (he : el ∈ d.schema) {src : String}
    (hs : el.source = some src) :
    ∃ n items, Dict.get? st'.namespaces d.name = some n ∧ rd.readSpec src = .ok items ∧
      (∀ i ∈ items, ∀ e ∈ i.regs, Dict.get? n.cat.specs e.dfn = some e ∧
        Dict.get? n.cat.sources e.dfn = some (some src)) ∧
      ∀ u, u ∈ getTypes st' src ↔ ∃ i ∈ items, ∃ e ∈ i.regs, e.dfn = u := by
  obtain ⟨_, st1, c, h3, h4, h5⟩ := loadNamespace_ok h
  obtain ⟨_, _, _, g4⟩ := schemaLoop_ok hi WF_empty h3
  obtain ⟨items, k1, _, k3, k4, k5⟩ := g4 el he src hs
  refine ⟨⟨d.version, c⟩, items, by rw [h4]; simp, k1, fun i hi e he => ⟨k3 i hi e he, k4 i hi e he⟩, ?_⟩
  rw [h4]
  exact k5

example : isOk (load (wrd "d" true) true (load (wrd "d" true) true {} "base").1 "ext2").2 = true := by decide +kernel

/-! ## C93 -/

/-- **C93** fails: asking for some of the types of a file is refused with a TypeError. -/
theorem C93_partial_file_fails :
    ¬ ∀ (rd : Reader) (st : State) (d : NSDef) (src t : String) (items : List Item),
      d.schema = [{ source := some src, types := some [t] }] → rd.readSpec src = .ok items →
      (∃ i ∈ items, i.key = some t) → Dict.has st.namespaces d.name = false →
      Dict.get? st.loaded (some src) = none → (loadNamespace rd true st d).2 ≠ .error .typeError := by
  intro h
  exact h (wrd "d" true) {} ⟨"part", "1", [{ source := some "base.yaml", types := some ["B"] }], none⟩ "base.yaml" "B"
    [item eB, item eC, item eA] rfl rfl ⟨item eB, by simp, rfl⟩ rfl rfl (by decide +kernel)

/-- **C93** (partial).  If a namespace that asks for types of a file (at least one) is loaded, then every type of the
file was asked for: the request can never leave anything out.  Missing: loading only what is asked for. -/
theorem C93_filter_partial {rd : Reader} {resolve : Bool} {st st' : State} {d : NSDef} {inc : Included} (hi : Inv st)
    (h : loadNamespace rd resolve st d = (st', .ok inc)) {el : SchemaEl} (he : el ∈ d.schema) {src : String}
    (hs : el.source = some src) {ts : List String} (ht : el.types = some ts) (hne : ts ≠ []) :
    ∃ items, rd.readSpec src = .ok items ∧ ∀ i ∈ items, ∃ t ∈ ts, i.key = some t := by
  obtain ⟨_, st1, c, h3, h4, h5⟩ := loadNamespace_ok h
  obtain ⟨_, _, _, g4⟩ := schemaLoop_ok hi WF_empty h3
  obtain ⟨items, k1, k2, _⟩ := g4 el he src hs
  refine ⟨items, k1, fun i hi' => ?_⟩
  obtain ⟨t, h6, h7⟩ := k2 i hi'
  exact ⟨t, h7 ts ht hne, h6⟩

example : isOk (loadNamespace (wrd "d" true) true {}
    ⟨"p", "1", [{ source := some "base.yaml", types := some ["A", "B", "C"] }], none⟩).2 = true := by decide +kernel

/-! ## C94 -/

/-- **C94** fails: two namespaces from different directories cannot both be loaded if each has a file of the same name,
though each can be loaded alone. -/
theorem C94_same_file_name_fails :
    ¬ ∀ (r1 r2 : Reader) (st : State) (ret : Dict String Included), r1.dir ≠ r2.dir →
      load r1 true {} "base" = (st, .ok ret) → isOk (load r2 true {} "other").2 = true →
      isOk (load r2 true st "other").2 = true := by
  intro h
  have := h (wrd "d1" true) (wrd "d2" true) (load (wrd "d1" true) true {} "base").1 [("base", [])] (by decide +kernel)
    (by decide +kernel) (by decide +kernel)
  revert this
  decide +kernel

/-- Namespaces of `st` and files of `loaded` that the schema of `d` looks at. -/
def fileFree (st : State) (d : NSDef) : Prop := ∀ el ∈ d.schema, ∀ src, el.source = some src →
  Dict.get? st.loaded (some src) = none

theorem schemaLoop_indep {rd : Reader} {resolve : Bool} {name : String} : ∀ {els : List SchemaEl} {s1 s2 s1' : State}
    {c c' : Cat} {inc inc' : Included}, s1.namespaces = s2.namespaces →
    (∀ el ∈ els, ∀ src, el.source = some src → Dict.get? s1.loaded (some src) = none →
      Dict.get? s2.loaded (some src) = none) →
    schemaLoop rd resolve name s1 c inc els = (s1', .ok (c', inc')) →
    ∃ s2', schemaLoop rd resolve name s2 c inc els = (s2', .ok (c', inc'))
  | [], s1, s2, _, _, _, _, _, _, _, h => by cases h; exact ⟨s2, rfl⟩
  | el :: els, s1, s2, s1', c, c', inc, inc', hn, hl, h => by
    have hl' := fun e he => hl e (List.mem_cons_of_mem el he)
    unfold schemaLoop at h ⊢
    split at h
    · rename_i src hs
      split at h
      · cases h
      · rename_i st1 c1 h1
        obtain ⟨h2, items, l, h3, h4, rfl⟩ := loadSpecFile_ok h1
        have h5 := hl el (by simp) src hs h2
        have h6 : loadSpecFile rd resolve s2 src c el.types =
            ({ s2 with loaded := Dict.set s2.loaded (some src) l }, .ok c1) := by
          unfold loadSpecFile
          simp only [h5, h3, h4]
        simp only at h
        simp only [h6]
        refine schemaLoop_indep ?_ ?_ h
        · exact hn
        · intro e he src' hs' hnone
          simp only [Dict.get?_set] at hnone ⊢
          split at hnone
          · cases hnone
          · rename_i hne
            rw [if_neg hne]
            exact hl' e he src' hs' hnone
    · split at h
      · cases h
      · rename_i m hm
        split at h
        · cases h
        · rename_i sp hsp
          have hsp' : Dict.get? s2.namespaces m = some sp := by rw [← hn]; exact hsp
          simp only [hsp']
          split at h
          · cases h
          · exact schemaLoop_indep hn hl' h

/-- **C94** (partial).  What was loaded before matters to a namespace only through its name, the namespaces it can
include, and the names of its files: if it loads in one catalog, it loads in any other with the same namespaces in which
none of its files counts as loaded already, with the same report.  Missing: files of the same name elsewhere. -/
theorem C94_independent_partial {rd : Reader} {resolve : Bool} {s1 s2 s1' : State} {d : NSDef} {inc : Included}
    (hn : s1.namespaces = s2.namespaces) (hf : fileFree s2 d)
    (h : loadNamespace rd resolve s1 d = (s1', .ok inc)) :
    ∃ s2', loadNamespace rd resolve s2 d = (s2', .ok inc) ∧
      Dict.get? s2'.namespaces d.name = Dict.get? s1'.namespaces d.name := by
  have h0 := h
  obtain ⟨h1, st1, c, h3, h4, h5⟩ := loadNamespace_ok h
  obtain ⟨s2', h6⟩ := schemaLoop_indep (s2 := s2) hn (fun el he src hs _ => hf el he src hs) h3
  unfold loadNamespace at h0 ⊢
  rw [← hn]
  simp only [h1, h3, h6] at h0 ⊢
  split at h0
  · rename_i hh; simp at hh
  · split at h0
    · cases h0
    · rename_i hb
      refine ⟨_, rfl, ?_⟩
      rw [h4]
      simp

example : fileFree {} ⟨"base", "1", [{ source := some "base.yaml" }], none⟩ := by
  intro el _ src _
  rfl

/-! ## C95 -/

/-- **C95** fails: merging a catalog that shares a namespace raises, but what comes before it has been added. -/
theorem C95_merge_atomic_fails :
    ¬ ∀ (st st' : State) (l : List (String × NSpace)) (x : Err), mergeLoop st l = (st', .error x) → st' = st := by
  intro h
  have := h ⟨[("b", ⟨"1", {}⟩)], [], [], []⟩ ⟨[("b", ⟨"1", {}⟩), ("a", ⟨"1", {}⟩)], [], [], []⟩
    [("a", ⟨"1", {}⟩), ("b", ⟨"2", {}⟩)] .keyError rfl
  revert this
  decide

theorem addTypes_get {cat : Cat} : ∀ {ts : List String} {ld : Dict (Option String) (List String)} {src : Option String}
    {u : String}, u ∈ (Dict.get? (addTypes cat ld ts) src).getD [] ↔
      u ∈ (Dict.get? ld src).getD [] ∨ (u ∈ ts ∧ (Dict.get? cat.sources u).join = src)
  | [], _, _, _ => by simp [addTypes]
  | t :: ts, ld, src, u => by
    unfold addTypes
    simp only
    rw [addTypes_get, Dict.get?_set]
    by_cases hs : src = (Dict.get? cat.sources t).join
    · rw [if_pos hs, Option.getD_some, ← hs]
      have : u ∈ (if ((Dict.get? ld src).getD []).contains t then (Dict.get? ld src).getD []
          else (Dict.get? ld src).getD [] ++ [t]) ↔ u ∈ (Dict.get? ld src).getD [] ∨ u = t := by
        split
        · rename_i hc
          have hc : t ∈ (Dict.get? ld src).getD [] := by simpa using hc
          constructor
          · exact .inl
          · rintro (h | h)
            · exact h
            · rw [h]; exact hc
        · simp
      rw [this, List.mem_cons]
      constructor
      · rintro ((h | h) | h)
        · exact .inl h
        · exact .inr ⟨.inl h, by rw [h, hs]⟩
        · exact .inr ⟨.inr h.1, h.2⟩
      · rintro (h | ⟨h | h, h'⟩)
        · exact .inl (.inl h)
        · exact .inl (.inr h)
        · exact .inr ⟨h, h'⟩
    · rw [if_neg hs, List.mem_cons]
      constructor
      · rintro (h | h)
        · exact .inl h
        · exact .inr ⟨.inr h.1, h.2⟩
      · rintro (h | ⟨h | h, h'⟩)
        · exact .inl h
        · rw [h] at h'; exact absurd h'.symm hs
        · exact .inr ⟨h, h'⟩

/-- **C95** (partial).  Merging catalogs without a common namespace succeeds: afterwards every namespace of either is
there, as it was, and the types listed for a file are those listed before and those of the merged namespaces that came
from it.  Missing: that a merge that raises changes nothing. -/
theorem C95_merge_partial : ∀ {l : List (String × NSpace)} {st : State}, (l.map Prod.fst).Nodup →
    (∀ p ∈ l, Dict.get? st.namespaces p.1 = none) →
    ∃ st', mergeLoop st l = (st', .ok ()) ∧
      (∀ k, Dict.get? st'.namespaces k = (Dict.get? st.namespaces k).or (Dict.get? l k)) ∧
      ∀ src u, u ∈ getTypes st' src ↔ u ∈ getTypes st src ∨
        ∃ p ∈ l, u ∈ p.2.cat.specs.keys ∧ (Dict.get? p.2.cat.sources u).join = some src
  | [], st, _, _ => ⟨st, rfl, fun k => by simp, fun src u => by simp⟩
  | (name, n) :: l, st, hn, hd => by
    have h0 : Dict.get? st.namespaces name = none := hd _ List.mem_cons_self
    have hh : Dict.has st.namespaces name = false := by simp [Dict.has, h0]
    simp only [List.map_cons, List.nodup_cons] at hn
    have hd' : ∀ p ∈ l, Dict.get? (Dict.set st.namespaces name n) p.1 = none := by
      intro p hp
      rw [Dict.get?_set, if_neg]
      · exact hd p (List.mem_cons_of_mem _ hp)
      · intro h
        apply hn.1
        rw [← h]
        exact List.mem_map.2 ⟨p, hp, rfl⟩
    obtain ⟨st', h1, h2, h3⟩ := @C95_merge_partial l
      ⟨Dict.set st.namespaces name n, addTypes n.cat st.loaded n.cat.specs.keys, st.includedSpecs, st.includedSources⟩
      hn.2 hd'
    refine ⟨st', ?_, ?_, ?_⟩
    · unfold mergeLoop addNamespace
      simp only [hh]
      exact h1
    · intro k
      rw [h2]
      simp only [Dict.get?_set, Dict.get?]
      by_cases hk : k = name
      · subst hk
        simp [h0]
      · rw [if_neg hk, if_neg (fun h => hk h.symm)]
    · intro src u
      rw [h3]
      unfold getTypes
      rw [addTypes_get]
      simp only [List.mem_cons, exists_eq_or_imp]
      exact or_assoc

example : mergeLoop {} [("a", ⟨"1", baseCat⟩)] =
    (⟨[("a", ⟨"1", baseCat⟩)], [(some "base.yaml", ["B", "C", "A"])], [], []⟩, .ok ()) := by decide +kernel

end Verif.Namespace

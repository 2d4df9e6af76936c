import Verif.Model.NsCache
import Verif.Lemmas.NsWrite

/-!
# Lemmas on caching namespaces
-/

namespace Verif.NsCache
open Verif Verif.Namespace Verif.NsWrite

/-- the specs of some types that are not nested in another spec, in order -/
def topSpecs (spec : String → Except Err CSpec) (ts : List String) : List BSpec := ts.filterMap fun t => match spec t with
  | .ok x => if x.nested then none else some x.copy
  | .error _ => none

/-- what a schema has to give: each spec that is not nested, with the name of the dataset for its source -/
def wanted (types : String → List String) (spec : String → Except Err CSpec) (schema : List SchemaEl) : List (String × BSpec) :=
  schema.flatMap fun el => match el.ns, el.source with
    | none, some s => (topSpecs spec (types s)).map fun sp => (sourceName s, sp)
    | _, _ => []

/-- the operations of a conversion -/
def ops (types : String → List String) (spec : String → Except Err CSpec) (schema : List SchemaEl) : List Op :=
  schema.flatMap fun el => match el.ns with
    | some n => [Op.ns n]
    | none => match el.source with
      | some s => (topSpecs spec (types s)).map fun sp => Op.spec (sourceName s) sp
      | none => []

theorem run_append : ∀ (os os' : List Op) (b : Builder), run b (os ++ os') = run (run b os) os'
  | [], _, _ => rfl
  | o :: os, os', b => by
    rw [List.cons_append]
    exact run_append os os' (step b o).1

theorem taken_append : ∀ (os os' : List Op) (b : Builder), taken b (os ++ os') = taken b os ++ taken (run b os) os'
  | [], _, _ => rfl
  | o :: os, os', b => by
    rw [List.cons_append]
    show takenOne b o ++ taken (step b o).1 (os ++ os') = (takenOne b o ++ taken (step b o).1 os) ++ taken (run (step b o).1 os) os'
    rw [taken_append os os' _, List.append_assoc]

theorem topSpecs_cons (spec : String → Except Err CSpec) (t : String) (ts : List String) {x : CSpec} (h : spec t = .ok x) :
    topSpecs spec (t :: ts) = (if x.nested then [] else [x.copy]) ++ topSpecs spec ts := by
  unfold topSpecs
  cases hn : x.nested with
  | true => rw [List.filterMap_cons_none (by simp only [h, hn, if_true])]; rfl
  | false => rw [List.filterMap_cons_some (b := x.copy) (by simp only [h, hn]; rfl)]; rfl

theorem convertTypes_ok (spec : String → Except Err CSpec) (src : String) : ∀ {ts : List String} {b b' : Builder},
    convertTypes spec src b ts = (b', .ok ()) →
    b' = run b ((topSpecs spec ts).map fun sp => Op.spec (sourceName src) sp) ∧
    taken b ((topSpecs spec ts).map fun sp => Op.spec (sourceName src) sp) = (topSpecs spec ts).map (fun sp => (sourceName src, Ty.spec sp)) ∧
    ∀ t ∈ ts, ∃ x, spec t = .ok x
  | [], b, b', h => by
    cases h
    exact ⟨rfl, rfl, fun t ht => by cases ht⟩
  | t :: ts, b, b', h => by
    unfold convertTypes at h
    split at h
    · cases h
    · rename_i x hx
      rw [topSpecs_cons spec t ts hx]
      split at h
      · rename_i hn
        obtain ⟨h1, h2, h3⟩ := convertTypes_ok spec src h
        rw [if_pos hn, List.nil_append]
        exact ⟨h1, h2, fun t' ht => (List.mem_cons.1 ht).elim (fun e => ⟨x, e ▸ hx⟩) (h3 t')⟩
      · rename_i hn
        split at h
        · cases h
        · rename_i b1 ha
          obtain ⟨h1, h2, h3⟩ := convertTypes_ok spec src h
          rw [if_neg hn, List.singleton_append, List.map_cons, List.map_cons]
          unfold run taken takenOne step
          simp only [ha]
          exact ⟨h1, by rw [h2]; rfl, fun t' ht => (List.mem_cons.1 ht).elim (fun e => ⟨x, e ▸ hx⟩) (h3 t')⟩

theorem convertLoop_ok (types : String → List String) (spec : String → Except Err CSpec) : ∀ {schema : List SchemaEl} {b b' : Builder},
    convertLoop types spec b schema = (b', .ok ()) →
    b' = run b (ops types spec schema) ∧
    taken b (ops types spec schema) = (wanted types spec schema).map (fun x => (x.1, Ty.spec x.2)) ∧
    ∀ el ∈ schema, el.ns = none → ∃ s, el.source = some s ∧ ∀ t ∈ types s, ∃ x, spec t = .ok x
  | [], b, b', h => by
    cases h
    exact ⟨rfl, rfl, fun t ht => by cases ht⟩
  | el :: els, b, b', h => by
    unfold convertLoop at h
    unfold ops wanted
    rw [List.flatMap_cons, List.flatMap_cons, run_append, taken_append, List.map_append]
    split at h
    · rename_i n hn
      obtain ⟨h1, h2, h3⟩ := convertLoop_ok types spec h
      simp only [hn]
      refine ⟨h1, ?_, fun e he hns => ?_⟩
      · rw [show taken b [Op.ns n] = [] from rfl, show run b [Op.ns n] = includeNs b n from rfl]
        exact h2
      · rcases List.mem_cons.1 he with rfl | he
        · rw [hn] at hns; cases hns
        · exact h3 e he hns
    · rename_i hn
      split at h
      · cases h
      · rename_i s hs
        split at h
        · cases h
        · rename_i b1 hc
          obtain ⟨h1, h2, h3⟩ := convertLoop_ok types spec h
          obtain ⟨g1, g2, g3⟩ := convertTypes_ok spec s hc
          simp only [hn, hs]
          rw [← g1, g2, List.map_map]
          refine ⟨h1, ?_, fun e he hns => ?_⟩
          · exact congrArg _ h2
          · rcases List.mem_cons.1 he with rfl | he
            · exact ⟨s, hs, g3⟩
            · exact h3 e he hns

theorem exportH5_ok {b : Builder} {path : String} {f : Dict String File} (h : exportH5 b path = (f, .ok ())) :
    «export» b [] path = (f, .ok ()) ∧ ∃ f' els, exportSources [] b.sources = (f', .ok els) ∧ Dict.has f' path = false := by
  unfold exportH5 at h
  unfold «export»
  split at h
  · cases h
  · rename_i f' els he
    rw [he]
    simp only
    split at h
    · cases h
    · rename_i hw
      split at h
      · cases h
      · rename_i hp
        rw [if_neg hw]
        exact ⟨h, f', els, rfl, by simpa using hp⟩

/-! ## The namespaces that are included -/

theorem run_specs_nss (src : String) : ∀ (l : List BSpec) (b : Builder), (run b (l.map fun sp => Op.spec src sp)).nss = b.nss
  | [], _ => rfl
  | sp :: l, b => by
    rw [List.map_cons]
    unfold run
    rw [run_specs_nss src l]
    unfold step addSpec
    simp only
    split
    · rfl
    · split <;> rfl

/-- the names of the included namespaces, each once, in the order of the first time -/
def included (acc : List String) : List SchemaEl → List String
  | [] => acc
  | el :: els => match el.ns with
    | some n => included (if n ∈ acc then acc else acc ++ [n]) els
    | none => included acc els

theorem included_mem {n : String} : ∀ {schema : List SchemaEl} {acc : List String}, n ∈ included acc schema ↔ n ∈ acc ∨ ∃ el ∈ schema, el.ns = some n
  | [], acc => by simp [included]
  | el :: els, acc => by
    unfold included
    split
    · rename_i m hm
      rw [included_mem]
      by_cases ha : m ∈ acc
      · rw [if_pos ha]
        constructor
        · rintro (h | ⟨x, hx, hn⟩)
          · exact .inl h
          · exact .inr ⟨x, List.mem_cons_of_mem _ hx, hn⟩
        · rintro (h | ⟨x, hx, hn⟩)
          · exact .inl h
          · rcases List.mem_cons.1 hx with rfl | hx
            · rw [hm] at hn; cases hn; exact .inl ha
            · exact .inr ⟨x, hx, hn⟩
      · rw [if_neg ha, List.mem_append, List.mem_singleton]
        constructor
        · rintro ((h | h) | ⟨x, hx, hn⟩)
          · exact .inl h
          · exact .inr ⟨el, List.mem_cons_self .., by rw [hm, h]⟩
          · exact .inr ⟨x, List.mem_cons_of_mem _ hx, hn⟩
        · rintro (h | ⟨x, hx, hn⟩)
          · exact .inl (.inl h)
          · rcases List.mem_cons.1 hx with rfl | hx
            · rw [hm] at hn; cases hn; exact .inl (.inr rfl)
            · exact .inr ⟨x, hx, hn⟩
    · rename_i hm
      rw [included_mem]
      constructor
      · rintro (h | ⟨x, hx, hn⟩)
        · exact .inl h
        · exact .inr ⟨x, List.mem_cons_of_mem _ hx, hn⟩
      · rintro (h | ⟨x, hx, hn⟩)
        · exact .inl h
        · rcases List.mem_cons.1 hx with rfl | hx
          · rw [hm] at hn; cases hn
          · exact .inr ⟨x, hx, hn⟩

theorem included_nodup : ∀ {schema : List SchemaEl} {acc : List String}, acc.Nodup → (included acc schema).Nodup
  | [], _, h => h
  | el :: els, acc, h => by
    unfold included
    split
    · rename_i n _
      apply included_nodup
      split
      · exact h
      · rename_i hn
        rw [List.nodup_append]
        exact ⟨h, List.pairwise_singleton _ _, fun a ha b hb => by rw [List.mem_singleton] at hb; subst hb; exact fun e => hn (e ▸ ha)⟩
    · exact included_nodup h

theorem run_nss (types : String → List String) (spec : String → Except Err CSpec) : ∀ (schema : List SchemaEl) (b : Builder) (acc : List String),
    b.nss = acc.map (fun n => (n, none)) → (run b (ops types spec schema)).nss = (included acc schema).map (fun n => (n, none))
  | [], b, acc, h => h
  | el :: els, b, acc, h => by
    unfold ops included
    rw [List.flatMap_cons, run_append]
    cases hn : el.ns with
    | some n =>
      simp only
      refine run_nss types spec els (run b [Op.ns n]) _ ?_
      show Dict.setDefault b.nss n none = _
      rw [h]
      have hk : Dict.keys (acc.map fun n => (n, (none : Option (List String)))) = acc := by
        unfold Dict.keys
        rw [List.map_map]
        exact List.map_id _
      unfold Dict.setDefault
      by_cases ha : n ∈ acc
      · rw [if_pos ha, if_pos (Dict.has_iff.2 (by rw [hk]; exact ha))]
      · rw [if_neg ha, if_neg (fun hh => ha (by have := Dict.has_iff.1 hh; rw [hk] at this; exact this)), List.map_append]
        exact Dict.set_of_not_mem (by rw [hk]; exact ha)
    | none =>
      simp only
      cases hs : el.source with
      | none => exact run_nss types spec els b acc h
      | some s => exact run_nss types spec els _ acc (by rw [run_specs_nss]; exact h)

/-! ## The sources -/

/-- only specs are added and namespaces are included -/
def Plain (o : Op) : Prop := match o with
  | .spec _ _ => True
  | .ns _ => True
  | _ => False

theorem ops_plain (types : String → List String) (spec : String → Except Err CSpec) (schema : List SchemaEl) : ∀ o ∈ ops types spec schema, Plain o := by
  intro o ho
  obtain ⟨el, _, h⟩ := List.mem_flatMap.1 ho
  split at h
  · rw [List.mem_singleton] at h; subst h; trivial
  · split at h
    · obtain ⟨sp, _, rfl⟩ := List.mem_map.1 h; trivial
    · cases h

theorem keys_run {s : String} : ∀ {os : List Op} {b : Builder}, (∀ o ∈ os, Plain o) →
    (s ∈ Dict.keys (run b os).sources ↔ s ∈ Dict.keys b.sources ∨ ∃ sp, (s, Ty.spec sp) ∈ taken b os)
  | [], b, _ => by simp [run, taken]
  | o :: os, b, h => by
    unfold run taken
    rw [keys_run (fun x hx => h x (List.mem_cons_of_mem _ hx))]
    have ho : s ∈ Dict.keys (step b o).1.sources ↔ s ∈ Dict.keys b.sources ∨ ∃ sp, (s, Ty.spec sp) ∈ takenOne b o := by
      have hp := h o (List.mem_cons_self ..)
      cases o with
      | source => exact hp.elim
      | type => exact hp.elim
      | ns n => simp [step, includeNs, takenOne]
      | spec s' sp =>
        unfold takenOne step addSpec
        simp only
        split
        · simp
        · split
          · simp
          · simp only [appendType, putSource, Dict.mem_keys_set, List.mem_singleton, Prod.mk.injEq, Ty.spec.injEq]
            constructor
            · rintro (h | h | h)
              · exact .inr ⟨sp, h, rfl⟩
              · exact .inr ⟨sp, h, rfl⟩
              · exact .inl h
            · rintro (h | ⟨_, h, _⟩)
              · exact .inr (.inr h)
              · exact .inl h
    rw [ho]
    simp only [List.mem_append]
    constructor
    · rintro ((h | ⟨sp, h⟩) | ⟨sp, h⟩)
      · exact .inl h
      · exact .inr ⟨sp, .inl h⟩
      · exact .inr ⟨sp, .inr h⟩
    · rintro (h | ⟨sp, h | h⟩)
      · exact .inl (.inl h)
      · exact .inl (.inr ⟨sp, h⟩)
      · exact .inr ⟨sp, h⟩

/-- names without repetition, in the order of the first time, after some others -/
def firsts (acc : List String) : List String → List String
  | [] => acc
  | n :: l => firsts (if n ∈ acc then acc else acc ++ [n]) l

theorem firsts_append (l l' : List String) : ∀ acc, firsts acc (l ++ l') = firsts (firsts acc l) l' := by
  induction l with
  | nil => intro acc; rfl
  | cons n l ih => intro acc; exact ih _

theorem keys_eq : ∀ {os : List Op} {b : Builder}, (∀ o ∈ os, Plain o) →
    Dict.keys (run b os).sources = firsts (Dict.keys b.sources) ((taken b os).map Prod.fst)
  | [], b, _ => rfl
  | o :: os, b, h => by
    unfold run taken
    rw [keys_eq (fun x hx => h x (List.mem_cons_of_mem _ hx)), List.map_append, firsts_append]
    congr 1
    have hp := h o (List.mem_cons_self ..)
    cases o with
    | source => exact hp.elim
    | type => exact hp.elim
    | ns n => rfl
    | spec s' sp =>
      unfold takenOne step addSpec
      simp only
      split
      · rfl
      · split
        · rfl
        · simp only [appendType, putSource, List.map_cons, List.map_nil, firsts]
          rw [Dict.keys_set, Dict.keys_set]
          by_cases hk : s' ∈ Dict.keys b.sources
          · simp [hk]
          · simp [hk]

theorem taken_check {s : String} {sp : BSpec} : ∀ {os : List Op} {b : Builder}, (s, Ty.spec sp) ∈ taken b os → checkSource s = .ok ()
  | [], _, h => by cases h
  | o :: os, b, h => by
    unfold taken at h
    rcases List.mem_append.1 h with h | h
    · unfold takenOne at h
      split at h
      · cases h
      · rename_i hok
        cases o with
        | spec s' sp' =>
          simp only [List.mem_singleton, Prod.mk.injEq, Ty.spec.injEq] at h
          obtain ⟨rfl, rfl⟩ := h
          unfold step addSpec at hok
          simp only at hok
          split at hok
          · cases hok
          · split at hok
            · cases hok
            · rename_i hs; exact hs
        | source => simp at h
        | type t src ns => cases src <;> simp at h
        | ns => simp at h
    · exact taken_check h

/-! ## When it can be done -/

/-- the types defined by specs, in the order in which they are registered -/
def defined (l : List (String × BSpec)) : List String := l.flatMap fun x => x.2.item.regs.map Entry.dfn

theorem autoReg_new (src : String) : ∀ {es : List Entry} {c : Cat}, (es.map Entry.dfn).Nodup → (∀ e ∈ es, Dict.get? c.specs e.dfn = none) →
    ∃ c', autoReg src c es = (c', .ok ()) ∧ ∀ t, Dict.get? c'.specs t ≠ none → Dict.get? c.specs t ≠ none ∨ t ∈ es.map Entry.dfn
  | [], c, _, _ => ⟨c, rfl, fun t h => .inl h⟩
  | e :: es, c, hn, hc => by
    rw [List.map_cons, List.nodup_cons] at hn
    unfold autoReg register
    simp only [hc e (List.mem_cons_self ..)]
    obtain ⟨c', h1, h2⟩ := autoReg_new src (es := es) (c := ⟨Dict.set c.specs e.dfn e, Dict.set c.sources e.dfn (some src)⟩) hn.2 (fun x hx => by
      simp only
      rw [Dict.get?_set_ne (k' := x.dfn) (k := e.dfn) (fun he => hn.1 (he ▸ List.mem_map_of_mem (f := Entry.dfn) hx))]
      exact hc x (List.mem_cons_of_mem _ hx))
    refine ⟨c', h1, fun t ht => ?_⟩
    rcases h2 t ht with h | h
    · simp only at h
      rw [Dict.get?_set] at h
      by_cases he : t = e.dfn
      · exact .inr (he ▸ List.mem_cons_self ..)
      · rw [if_neg he] at h; exact .inl h
    · exact .inr (List.mem_cons_of_mem _ h)

theorem convertTypes_can (spec : String → Except Err CSpec) (src : String) : ∀ {ts : List String} {b : Builder}, (∀ t ∈ ts, ∃ x, spec t = .ok x) →
    (topSpecs spec ts ≠ [] → checkSource (sourceName src) = .ok ()) →
    (defined ((topSpecs spec ts).map fun sp => (sourceName src, sp))).Nodup →
    (∀ t ∈ defined ((topSpecs spec ts).map fun sp => (sourceName src, sp)), Dict.get? b.cat.specs t = none) →
    ∃ b', convertTypes spec src b ts = (b', .ok ()) ∧
      ∀ t, Dict.get? b'.cat.specs t ≠ none → Dict.get? b.cat.specs t ≠ none ∨ t ∈ defined ((topSpecs spec ts).map fun sp => (sourceName src, sp))
  | [], b, _, _, _, _ => ⟨b, rfl, fun t h => .inl h⟩
  | t :: ts, b, hx, hs, hn, hc => by
    obtain ⟨x, ht⟩ := hx t (List.mem_cons_self ..)
    have hx' : ∀ t ∈ ts, ∃ x, spec t = .ok x := fun t h => hx t (List.mem_cons_of_mem _ h)
    rw [topSpecs_cons spec t ts ht] at hs hn hc ⊢
    unfold convertTypes
    simp only [ht]
    by_cases hne : x.nested = true
    · rw [if_pos hne] at hs hn hc ⊢
      rw [if_pos hne]
      exact convertTypes_can spec src hx' hs hn hc
    · rw [if_neg hne] at hs hn hc ⊢
      rw [if_neg hne]
      have hs' := hs (by simp)
      simp only [List.singleton_append, List.map_cons, defined, List.flatMap_cons] at hn hc ⊢
      rw [List.nodup_append] at hn
      obtain ⟨c', h1, h2⟩ := autoReg_new (sourceName src) (c := b.cat) hn.1 (fun e he => hc _ (List.mem_append_left _ (List.mem_map_of_mem he)))
      unfold addSpec
      simp only [h1, hs']
      obtain ⟨b', h3, h4⟩ := convertTypes_can spec src (ts := ts)
        (b := ⟨b.name, b.version, b.nss, appendType (putSource b.sources (sourceName src) none none) (sourceName src) (.spec x.copy), c'⟩) hx' (fun _ => hs') hn.2.1
        (fun t ht => by
          cases hg : Dict.get? c'.specs t with
          | none => rfl
          | some y =>
            rcases h2 t (by rw [hg]; exact fun h => by cases h) with h | h
            · exact (h (hc t (List.mem_append_right _ ht))).elim
            · exact (hn.2.2 t h t ht rfl).elim)
      refine ⟨b', h3, fun t ht => ?_⟩
      rcases h4 t ht with h | h
      · rcases h2 t h with h | h
        · exact .inl h
        · exact .inr (List.mem_append_left _ h)
      · exact .inr (List.mem_append_right _ h)

theorem convertLoop_can (types : String → List String) (spec : String → Except Err CSpec) : ∀ {schema : List SchemaEl} {b : Builder},
    (∀ el ∈ schema, el.ns = none → ∃ s, el.source = some s ∧ ∀ t ∈ types s, ∃ x, spec t = .ok x) →
    (∀ x ∈ wanted types spec schema, checkSource x.1 = .ok ()) → (defined (wanted types spec schema)).Nodup →
    (∀ t ∈ defined (wanted types spec schema), Dict.get? b.cat.specs t = none) →
    ∃ b', convertLoop types spec b schema = (b', .ok ())
  | [], b, _, _, _, _ => ⟨b, rfl⟩
  | el :: els, b, hx, hs, hn, hc => by
    have hx' : ∀ el ∈ els, el.ns = none → ∃ s, el.source = some s ∧ ∀ t ∈ types s, ∃ x, spec t = .ok x := fun e he => hx e (List.mem_cons_of_mem _ he)
    unfold wanted at hs hn hc
    rw [List.flatMap_cons] at hs hn hc
    unfold convertLoop
    cases hns : el.ns with
    | some n =>
      simp only [hns, List.nil_append] at hs hn hc ⊢
      exact convertLoop_can types spec hx' hs hn hc
    | none =>
      obtain ⟨s, hsrc, ht⟩ := hx el (List.mem_cons_self ..) hns
      simp only [hns, hsrc] at hs hn hc ⊢
      unfold defined at hn hc
      rw [List.flatMap_append] at hn hc
      rw [List.nodup_append] at hn
      obtain ⟨b', h1, h2⟩ := convertTypes_can spec s (b := b) ht (fun hne => by
        cases htop : topSpecs spec (types s) with
        | nil => exact (hne htop).elim
        | cons sp r => exact hs (sourceName s, sp) (List.mem_append_left _ (by rw [htop]; exact List.mem_cons_self ..))) hn.1
        (fun t ht => hc t (List.mem_append_left _ ht))
      simp only [h1]
      refine convertLoop_can types spec hx' (fun x hx => hs x (List.mem_append_right _ hx)) hn.2.1 (fun t ht => ?_)
      cases hg : Dict.get? b'.cat.specs t with
      | none => rfl
      | some y =>
        rcases h2 t (by rw [hg]; exact fun h => by cases h) with h | h
        · exact (h (hc t (List.mem_append_right _ ht))).elim
        · exact (hn.2.2 t h t ht rfl).elim

theorem exportSources_can : ∀ {l : List (String × Src)} {fs : Dict String File}, (∀ p i, (p, i) ∈ l → ∃ ts, i.types = some ts ∧ names ts = []) →
    ∃ f els, exportSources fs l = (f, .ok els) ∧ ∀ k, k ∉ l.map Prod.fst → Dict.get? f k = Dict.get? fs k
  | [], fs, _ => ⟨fs, [], rfl, fun _ _ => rfl⟩
  | (p, i) :: l, fs, h => by
    obtain ⟨ts, e1, e2⟩ := h p i (List.mem_cons_self ..)
    obtain ⟨f, els, h1, _⟩ := exportSources_can (l := l) (fs := if (!((specs true ts).isEmpty && (specs false ts).isEmpty)) = true then
          Dict.set fs p (.specs (specs true ts) (specs false ts)) else fs) (fun p i hm => h p i (List.mem_cons_of_mem _ hm))
    have : ∃ els', exportSources fs ((p, i) :: l) = (f, .ok els') := by
      unfold exportSources
      simp only [e1, e2, List.isEmpty_nil, Bool.not_true, Bool.and_false, Bool.false_eq_true, if_false, h1]
      exact ⟨_, rfl⟩
    obtain ⟨els', h3⟩ := this
    refine ⟨f, els', h3, fun k hk => ?_⟩
    have := exportSources_other (fs := fs) hk
    rw [h3] at this
    exact this

/-! ## Names of sources -/

theorem sourceName_dir {s : String} (h : '/' ∈ s.toList) : '/' ∈ (sourceName s).toList := by
  unfold sourceName
  simp only
  split
  · rename_i before hb
    split
    · exact h
    · rw [String.toList_ofList, List.mem_reverse]
      generalize hx : (List.takeWhile (fun c => c != '.' && c != '/') s.toList.reverse).reverse = ext at hb
      have hspl : s.toList.take (s.toList.length - ext.length) ++ ext = s.toList := by
        have e1 : s.toList = (List.dropWhile (fun c => c != '.' && c != '/') s.toList.reverse).reverse ++ ext := by
          rw [← hx, ← List.reverse_append, List.takeWhile_append_dropWhile, List.reverse_reverse]
        have : s.toList.take (s.toList.length - ext.length) = (List.dropWhile (fun c => c != '.' && c != '/') s.toList.reverse).reverse := by
          rw [e1, List.length_append, Nat.add_sub_cancel, List.take_left' rfl, ← e1]
        rw [this, ← e1]
      have hne : '/' ∉ ext := by
        rw [← hx, List.mem_reverse]
        intro hm
        have := (List.all_eq_true.1 List.all_takeWhile) _ hm
        simp at this
      rw [← hspl, List.mem_append] at h
      rcases h with h | h
      · rw [← List.mem_reverse, hb] at h
        rcases List.mem_cons.1 h with h | h
        · exact absurd h (by decide)
        · exact h
      · exact (hne h).elim
  · exact h

end Verif.NsCache

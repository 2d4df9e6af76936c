import Verif.Model.Namespace
import Mathlib.Logic.Relation

/-! Auxiliary facts about loading namespaces. -/

namespace Verif.Namespace
open Verif Relation

/-- `b` is named by the spec of `a` in the catalog `inc`. -/
def Dep (inc : Cat) (a b : String) : Prop :=
  ∃ e, Dict.get? inc.specs a = some e ∧ (e.inc = some b ∨ b ∈ e.uses)

/-- Specs are stored under the type they define. -/
def WF (c : Cat) : Prop := ∀ t e, Dict.get? c.specs t = some e → e.dfn = t

theorem register_spec {c c' : Cat} {e : Entry} {src : Option String} (h : register c e src = .ok c') :
    c' = ⟨Dict.set c.specs e.dfn e, Dict.set c.sources e.dfn src⟩ ∧
    (Dict.get? c.specs e.dfn = none ∨ (Dict.get? c.specs e.dfn = some e ∧ Dict.get? c.sources e.dfn = some src)) := by
  unfold register at h
  simp only at h
  split at h
  · rename_i h0; cases h; exact ⟨rfl, .inl h0⟩
  · rename_i old h0
    split at h
    · cases h
    · rename_i he
      split at h
      · cases h
      · rename_i s hs
        split at h
        · cases h
        · rename_i hne
          cases h
          simp only [ne_eq, Decidable.not_not] at he hne
          subst he hne
          exact ⟨rfl, .inr ⟨h0, hs⟩⟩

theorem register_get {c c' : Cat} {e : Entry} {src : Option String} (h : register c e src = .ok c') (u : String) :
    (∀ x, Dict.get? c.specs u = some x → Dict.get? c'.specs u = some x) ∧
    (∀ x, Dict.get? c'.specs u = some x → Dict.get? c.specs u = some x ∨ (u = e.dfn ∧ x = e)) ∧
    Dict.get? c'.specs e.dfn = some e ∧ Dict.get? c'.sources e.dfn = some src ∧
    (u ≠ e.dfn → Dict.get? c'.sources u = Dict.get? c.sources u) ∧
    (∀ x, Dict.get? c.specs u = some x → Dict.get? c'.sources u = Dict.get? c.sources u) := by
  obtain ⟨rfl, h2⟩ := register_spec h
  simp only [Dict.get?_set]
  refine ⟨?_, ?_, by simp, by simp, ?_, ?_⟩
  · intro x hx
    split
    · rename_i hu
      subst hu
      rcases h2 with h2 | h2
      · rw [hx] at h2; cases h2
      · rw [hx] at h2; exact h2.1.symm
    · exact hx
  · intro x hx
    split at hx
    · rename_i hu
      cases hx
      exact .inr ⟨hu, rfl⟩
    · exact .inl hx
  · intro hu
    rw [if_neg hu]
  · intro x hx
    split
    · rename_i hu
      subst hu
      rcases h2 with h2 | h2
      · rw [hx] at h2; cases h2
      · exact h2.2.symm
    · rfl

theorem register_keys {c c' : Cat} {e : Entry} {src : Option String} (h : register c e src = .ok c') (u : String) :
    u ∈ c'.specs.keys ↔ u ∈ c.specs.keys ∨ u = e.dfn := by
  obtain ⟨rfl, _⟩ := register_spec h
  simp only [Dict.mem_keys_set]
  constructor
  · rintro (h | h)
    · exact .inr h
    · exact .inl h
  · rintro (h | h)
    · exact .inr h
    · exact .inl h

/-- What one call of `__register_type`, or a series of them, does. -/
structure Grows (inc : Cat) (roots : List String) (c : Cat) (done : List String) (c' : Cat) (done' : List String) :
    Prop where
  sub : ∀ u ∈ done, u ∈ done'
  reach : ∀ u ∈ done', u ∈ done ∨ ∃ t ∈ roots, ReflTransGen (Dep inc) t u
  roots : ∀ t ∈ roots, t ∈ done'
  closed : (∀ u ∈ done, ∀ v, Dep inc u v → v ∈ done) → ∀ u ∈ done', ∀ v, Dep inc u v → v ∈ done'
  keep : ∀ u x, Dict.get? c.specs u = some x → Dict.get? c'.specs u = some x
  only : ∀ u x, Dict.get? c'.specs u = some x → Dict.get? c.specs u = some x ∨
    (u ∈ done' ∧ Dict.get? inc.specs u = some x)
  have_ : ∀ u ∈ done', u ∈ done ∨ (∃ x, Dict.get? c'.specs u = some x ∧ Dict.get? inc.specs u = some x)
  topo : (∀ a t b, done = a ++ t :: b → ∀ v, Dep inc t v → v ∈ a) →
    ∀ a t b, done' = a ++ t :: b → ∀ v, Dep inc t v → v ∈ a
  order : c.specs.keys = done → c'.specs.keys = done'
  keepSrc : ∀ u x, Dict.get? c.specs u = some x → Dict.get? c'.sources u = Dict.get? c.sources u
  haveSrc : ∀ u ∈ done', u ∈ done ∨ Dict.get? c'.sources u = some (Dict.get? inc.sources u).join

theorem Grows.refl {inc : Cat} {c : Cat} {done : List String} : Grows inc [] c done c done :=
  ⟨fun _ h => h, fun _ h => .inl h, fun _ h => by (cases h), fun h => h, fun _ _ h => h, fun _ _ h => .inl h,
    fun _ h => .inl h, fun h => h, fun h => h, fun _ _ _ => rfl, fun _ h => .inl h⟩

theorem Grows.trans {inc : Cat} {r1 r2 : List String} {c1 c2 c3 : Cat} {d1 d2 d3 : List String}
    (h : Grows inc r1 c1 d1 c2 d2) (h' : Grows inc r2 c2 d2 c3 d3) : Grows inc (r1 ++ r2) c1 d1 c3 d3 where
  sub u hu := h'.sub u (h.sub u hu)
  reach u hu := by
    rcases h'.reach u hu with hu | ⟨t, ht, hr⟩
    · rcases h.reach u hu with hu | ⟨t, ht, hr⟩
      · exact .inl hu
      · exact .inr ⟨t, List.mem_append_left _ ht, hr⟩
    · exact .inr ⟨t, List.mem_append_right _ ht, hr⟩
  roots t ht := by
    rcases List.mem_append.1 ht with ht | ht
    · exact h'.sub t (h.roots t ht)
    · exact h'.roots t ht
  closed hc := h'.closed (h.closed hc)
  keep u x hx := h'.keep u x (h.keep u x hx)
  only u x hx := by
    rcases h'.only u x hx with hx | hx
    · rcases h.only u x hx with hx | hx
      · exact .inl hx
      · exact .inr ⟨h'.sub u hx.1, hx.2⟩
    · exact .inr hx
  have_ u hu := by
    rcases h'.have_ u hu with hu | hu
    · rcases h.have_ u hu with hu | ⟨x, h1, h2⟩
      · exact .inl hu
      · exact .inr ⟨x, h'.keep u x h1, h2⟩
    · exact .inr hu
  topo ht := h'.topo (h.topo ht)
  order ho := h'.order (h.order ho)
  keepSrc u x hx := (h'.keepSrc u x (h.keep u x hx)).trans (h.keepSrc u x hx)
  haveSrc u hu := by
    rcases h'.haveSrc u hu with hu | hu
    · rcases h.haveSrc u hu with hs | hs
      · exact .inl hs
      · rcases h.have_ u hu with hu | ⟨x, hx, _⟩
        · exact .inl hu
        · exact .inr ((h'.keepSrc u x hx).trans hs)
    · exact .inr hu

theorem regUses_grows {inc : Cat} {rec : String → Cat → List String → Except Err (Cat × List String)}
    (hrec : ∀ t c d c' d', rec t c d = .ok (c', d') → Grows inc [t] c d c' d') :
    ∀ (ts : List String) {c d c' d'}, regUses rec ts c d = .ok (c', d') → Grows inc ts c d c' d'
  | [], _, _, _, _, h => by cases h; exact Grows.refl
  | t :: ts, c, d, c', d', h => by
    unfold regUses at h
    split at h
    · cases h
    · rename_i c1 d1 h1
      exact (hrec _ _ _ _ _ h1).trans (regUses_grows hrec ts h)

theorem registerType_grows {inc : Cat} (hwf : WF inc) :
    ∀ (n : Nat) (t : String) {c d c' d'}, registerType inc n t c d = .ok (c', d') → Grows inc [t] c d c' d'
  | 0, _, _, _, _, _, h => by cases h
  | n + 1, t, c, d, c', d', h => by
    unfold registerType at h
    split at h
    · rename_i hd
      cases h
      have hd : t ∈ d := by simpa using hd
      refine ⟨fun _ h => h, fun _ h => .inl h, ?_, fun h => h, fun _ _ h => h, fun _ _ h => .inl h,
        fun _ h => .inl h, fun h => h, fun h => h, fun _ _ _ => rfl, fun _ h => .inl h⟩
      intro u hu
      simp only [List.mem_cons, List.not_mem_nil, or_false] at hu
      rw [hu]; exact hd
    · rename_i hd
      have hd : t ∉ d := by simpa using hd
      split at h
      · cases h
      · rename_i e he
        have het := hwf t e he
        split at h
        · cases h
        · rename_i c1 d1 h1
          split at h
          · cases h
          · rename_i c2 h2
            cases h
            have g := regUses_grows (fun t c d c' d' => registerType_grows hwf n t) _ h1
            have hdeps : ∀ v, Dep inc t v → v ∈ d1 := by
              rintro v ⟨e', h3, h4⟩
              rw [he] at h3
              cases h3
              apply g.roots
              rcases h4 with h4 | h4
              · exact List.mem_append_left _ (by rw [h4]; simp)
              · exact List.mem_append_right _ h4
            have hkeys : c1.specs.keys = d1 → c'.specs.keys = (if d1.contains t then d1 else d1 ++ [t]) := by
              intro hk
              obtain ⟨h5, h6⟩ := register_spec h2
              rw [h5]
              simp only [Dict.keys_set, het]
              rw [hk]
              simp
            have hmem : ∀ u, u ∈ (if d1.contains t then d1 else d1 ++ [t]) ↔ u ∈ d1 ∨ u = t := by
              intro u
              split
              · rename_i hc
                have hc : t ∈ d1 := by simpa using hc
                constructor
                · exact .inl
                · rintro (h | h)
                  · exact h
                  · rw [h]; exact hc
              · simp
            have hg := register_get h2
            refine ⟨?_, ?_, ?_, ?_, ?_, ?_, ?_, ?_, ?_, ?_, ?_⟩
            · intro u hu; exact (hmem u).2 (.inl (g.sub u hu))
            · intro u hu
              rcases (hmem u).1 hu with hu | hu
              · rcases g.reach u hu with hu | ⟨v, hv, hr⟩
                · exact .inl hu
                · refine .inr ⟨t, by simp, ?_⟩
                  refine ReflTransGen.head ⟨e, he, ?_⟩ hr
                  rcases List.mem_append.1 hv with hv | hv
                  · left
                    cases hi : e.inc with
                    | none => rw [hi] at hv; cases hv
                    | some z =>
                      rw [hi] at hv
                      simp only [Option.toList_some, List.mem_cons, List.not_mem_nil, or_false] at hv
                      rw [hv]
                  · exact .inr hv
              · exact .inr ⟨t, by simp, by rw [hu]⟩
            · intro u hu
              simp only [List.mem_cons, List.not_mem_nil, or_false] at hu
              exact (hmem u).2 (.inr hu)
            · intro hcl u hu v hv
              rcases (hmem u).1 hu with hu | hu
              · exact (hmem v).2 (.inl (g.closed hcl u hu v hv))
              · subst hu
                exact (hmem v).2 (.inl (hdeps v hv))
            · intro u x hx
              exact (hg u).1 x (g.keep u x hx)
            · intro u x hx
              rcases (hg u).2.1 x hx with hx | ⟨rfl, rfl⟩
              · rcases g.only u x hx with hx | hx
                · exact .inl hx
                · exact .inr ⟨(hmem u).2 (.inl hx.1), hx.2⟩
              · exact .inr ⟨(hmem _).2 (.inr het), by rw [het]; exact he⟩
            · intro u hu
              rcases (hmem u).1 hu with hu | hu
              · rcases g.have_ u hu with hu | ⟨x, h5, h6⟩
                · exact .inl hu
                · exact .inr ⟨x, (hg u).1 x h5, h6⟩
              · right
                refine ⟨e, ?_, by rw [hu]; exact he⟩
                have := (hg u).2.2.1
                rw [het] at this
                rw [hu]; exact this
            · intro ht a u b hab v hv
              have t1 := g.topo ht
              split at hab
              · exact t1 a u b hab v hv
              · rcases List.eq_nil_or_concat b with rfl | ⟨b', z, rfl⟩
                · have := List.append_inj_right' (hab) rfl
                  have h7 := List.append_inj_left' (hab) rfl
                  simp only [List.cons.injEq, and_true] at this
                  subst this h7
                  exact hdeps v hv
                · have hab' : d1 ++ [t] = (a ++ u :: b') ++ [z] := by
                    rw [hab]; simp
                  have h7 := List.append_inj_left' hab' rfl
                  exact t1 a u b' h7 v hv
            · intro ho; exact hkeys (g.order ho)
            · intro u x hx
              exact ((hg u).2.2.2.2.2 x (g.keep u x hx)).trans (g.keepSrc u x hx)
            · intro u hu
              rcases (hmem u).1 hu with hu | hu
              · rcases g.haveSrc u hu with hs | hs
                · exact .inl hs
                · rcases g.have_ u hu with hu | ⟨x, hx, _⟩
                  · exact .inl hu
                  · exact .inr (((hg u).2.2.2.2.2 x hx).trans hs)
              · right
                have := (hg u).2.2.2.1
                rw [het] at this
                rw [hu]; exact this

/-! ### files -/

theorem autoRegister_spec {src : String} : ∀ {es : List Entry} {c c' : Cat} {l : List String},
    autoRegister src c es = .ok (c', l) →
    (∀ u x, Dict.get? c.specs u = some x → Dict.get? c'.specs u = some x) ∧
    (∀ u, u ∈ c'.specs.keys ↔ u ∈ c.specs.keys ∨ ∃ e ∈ es, e.dfn = u) ∧ (WF c → WF c') ∧ l = es.map Entry.dfn ∧
    (∀ e ∈ es, Dict.get? c'.specs e.dfn = some e) ∧
    (∀ u x, Dict.get? c.specs u = some x → Dict.get? c'.sources u = Dict.get? c.sources u) ∧
    (∀ e ∈ es, Dict.get? c'.sources e.dfn = some (some src))
  | [], _, _, _, h => by
    cases h
    exact ⟨fun _ _ h => h, fun u => by simp, fun h => h, rfl, by simp, fun _ _ _ => rfl, by simp⟩
  | e :: es, c, c', l, h => by
    unfold autoRegister at h
    split at h
    · cases h
    · rename_i c1 h1
      split at h
      · cases h
      · rename_i c2 l2 h2
        cases h
        obtain ⟨a1, a2, a3, a4, a5, a6, a7⟩ := autoRegister_spec h2
        have r := register_get h1
        refine ⟨fun u x hx => a1 u x ((r u).1 x hx), ?_, ?_, by rw [a4]; rfl, ?_,
          fun u x hx => (a6 u x ((r u).1 x hx)).trans ((r u).2.2.2.2.2 x hx), ?_⟩
        · intro u
          rw [a2, register_keys h1]
          constructor
          · rintro ((h | h) | ⟨e', h, h'⟩)
            · exact .inl h
            · exact .inr ⟨e, by simp, h.symm⟩
            · exact .inr ⟨e', by simp [h], h'⟩
          · rintro (h | ⟨e', h, h'⟩)
            · exact .inl (.inl h)
            · rcases List.mem_cons.1 h with rfl | h
              · exact .inl (.inr h'.symm)
              · exact .inr ⟨e', h, h'⟩
        · intro hw
          apply a3
          intro t x hx
          rcases (r t).2.1 x hx with hx | ⟨rfl, rfl⟩
          · exact hw t x hx
          · rfl
        · intro e' he'
          rcases List.mem_cons.1 he' with rfl | he'
          · exact a1 _ _ (r e'.dfn).2.2.1
          · exact a5 e' he'
        · intro e' he'
          rcases List.mem_cons.1 he' with rfl | he'
          · exact (a6 _ _ (r e'.dfn).2.2.1).trans (r e'.dfn).2.2.2.1
          · exact a7 e' he'

theorem regSpec_some {resolve : Bool} {types : Option (List String)} {src : String} {c c' : Cat} {i : Item}
    {l : List String} (h : regSpec resolve types src c i = .ok (c', some l)) :
    (∃ d, i.key = some d ∧ (∀ ts, types = some ts → ts ≠ [] → d ∈ ts)) ∧
    autoRegister src c i.regs = .ok (c', l) := by
  unfold regSpec at h
  split at h
  · cases h
  · rename_i d hd
    split at h
    · cases h
    · rename_i hf
      split at h
      · cases h
      · split at h
        · cases h
        · split at h
          · cases h
          · rename_i h1
            simp only [Except.ok.injEq, Prod.mk.injEq, Option.some.injEq] at h
            obtain ⟨rfl, rfl⟩ := h
            refine ⟨⟨d, hd, ?_⟩, h1⟩
            intro ts hts hne
            subst hts
            simp only [skipped, Bool.and_eq_true, Bool.not_eq_eq_eq_not, Bool.not_true, not_and, Bool.not_eq_false,
              List.contains_iff_mem] at hf
            apply hf
            cases ts with
            | nil => exact absurd rfl hne
            | cons => rfl

theorem mem_addAll {s : List String} : ∀ {l : List String} {u : String}, u ∈ addAll s l ↔ u ∈ s ∨ u ∈ l
  | [], u => by simp [addAll]
  | x :: xs, u => by
    unfold addAll
    rw [mem_addAll]
    split
    · rename_i hx
      have hx : x ∈ s := by simpa using hx
      constructor
      · rintro (h | h)
        · exact .inl h
        · exact .inr (by simp [h])
      · rintro (h | h)
        · exact .inl h
        · rcases List.mem_cons.1 h with rfl | h
          · exact .inl hx
          · exact .inr h
    · simp only [List.mem_append, List.mem_cons, List.not_mem_nil, or_false]
      exact or_assoc

theorem regLoop_spec {resolve : Bool} {types : Option (List String)} {src : String} :
    ∀ {is : List Item} {c c' : Cat} {acc l : List String}, regLoop resolve types src c acc is = .ok (c', l) →
    (∀ u x, Dict.get? c.specs u = some x → Dict.get? c'.specs u = some x) ∧
    (∀ u, u ∈ c'.specs.keys ↔ u ∈ c.specs.keys ∨ ∃ i ∈ is, ∃ e ∈ i.regs, e.dfn = u) ∧ (WF c → WF c') ∧
    (∀ u, u ∈ l ↔ u ∈ acc ∨ ∃ i ∈ is, ∃ e ∈ i.regs, e.dfn = u) ∧
    (∀ i ∈ is, ∃ d, i.key = some d ∧ (∀ ts, types = some ts → ts ≠ [] → d ∈ ts)) ∧
    (∀ i ∈ is, ∀ e ∈ i.regs, Dict.get? c'.specs e.dfn = some e) ∧
    (∀ u x, Dict.get? c.specs u = some x → Dict.get? c'.sources u = Dict.get? c.sources u) ∧
    (∀ i ∈ is, ∀ e ∈ i.regs, Dict.get? c'.sources e.dfn = some (some src))
  | [], _, _, _, _, h => by
    cases h
    exact ⟨fun _ _ h => h, fun u => by simp, fun h => h, fun u => by simp, by simp, by simp, fun _ _ _ => rfl, by simp⟩
  | i :: is, c, c', acc, l, h => by
    unfold regLoop at h
    split at h
    · cases h
    · cases h
    · rename_i c1 l1 h1
      obtain ⟨hk, ha⟩ := regSpec_some h1
      obtain ⟨a1, a2, a3, a4, a5, a6, a7⟩ := autoRegister_spec ha
      obtain ⟨b1, b2, b3, b4, b5, b6, b7, b8⟩ := regLoop_spec h
      refine ⟨fun u x hx => b1 u x (a1 u x hx), ?_, fun hw => b3 (a3 hw), ?_, ?_, ?_,
        fun u x hx => (b7 u x (a1 u x hx)).trans (a6 u x hx), ?_⟩
      · intro u
        rw [b2, a2]
        simp only [List.mem_cons, exists_eq_or_imp]
        exact or_assoc
      · intro u
        rw [b4, mem_addAll, a4]
        simp only [List.mem_map, List.mem_cons, exists_eq_or_imp]
        exact or_assoc
      · intro j hj
        rcases List.mem_cons.1 hj with rfl | hj
        · exact hk
        · exact b5 j hj
      · intro j hj e he
        rcases List.mem_cons.1 hj with rfl | hj
        · exact b1 _ _ (a5 e he)
        · exact b6 j hj e he
      · intro j hj e he
        rcases List.mem_cons.1 hj with rfl | hj
        · exact (b7 _ _ (a5 e he)).trans (a7 e he)
        · exact b8 j hj e he

/-! ### states -/

/-- What every operation leaves alone. -/
structure Frame (st st' : State) : Prop where
  ns : ∀ k v, Dict.get? st.namespaces k = some v → Dict.get? st'.namespaces k = some v
  ld : ∀ k v, Dict.get? st.loaded k = some v → Dict.get? st'.loaded k = some v
  inc : ∀ k v, Dict.get? st.includedSpecs k = some v → Dict.get? st'.includedSpecs k = some v
  src : ∀ k v, Dict.get? st.includedSources k = some v → ∃ t, Dict.get? st'.includedSources k = some (v ++ t)

theorem Frame.refl {st : State} : Frame st st :=
  ⟨fun _ _ h => h, fun _ _ h => h, fun _ _ h => h, fun _ v h => ⟨[], by simpa using h⟩⟩

theorem Frame.trans {a b c : State} (h : Frame a b) (h' : Frame b c) : Frame a c where
  ns k v hv := h'.ns k v (h.ns k v hv)
  ld k v hv := h'.ld k v (h.ld k v hv)
  inc k v hv := h'.inc k v (h.inc k v hv)
  src k v hv := by
    obtain ⟨t, ht⟩ := h.src k v hv
    obtain ⟨t', ht'⟩ := h'.src k _ ht
    exact ⟨t ++ t', by rw [ht', List.append_assoc]⟩

theorem loadSpecFile_frame {rd : Reader} {resolve : Bool} {st : State} {src : String} {c : Cat}
    {types : Option (List String)} :
    Frame st (loadSpecFile rd resolve st src c types).1 ∧
    (loadSpecFile rd resolve st src c types).1.namespaces = st.namespaces ∧
    (loadSpecFile rd resolve st src c types).1.includedSpecs = st.includedSpecs ∧
    (loadSpecFile rd resolve st src c types).1.includedSources = st.includedSources := by
  unfold loadSpecFile
  split
  · exact ⟨Frame.refl, rfl, rfl, rfl⟩
  · rename_i h0
    split
    · exact ⟨Frame.refl, rfl, rfl, rfl⟩
    · split
      · exact ⟨Frame.refl, rfl, rfl, rfl⟩
      · refine ⟨⟨fun _ _ h => h, ?_, fun _ _ h => h, fun _ v h => ⟨[], by simpa using h⟩⟩, rfl, rfl, rfl⟩
        intro k v hv
        simp only [Dict.get?_set]
        rw [if_neg]
        · exact hv
        · intro hk
          rw [hk, h0] at hv
          cases hv

theorem loadSpecFile_error {rd : Reader} {resolve : Bool} {st st' : State} {src : String} {c : Cat}
    {types : Option (List String)} {x : Err} (h : loadSpecFile rd resolve st src c types = (st', .error x)) :
    st' = st := by
  unfold loadSpecFile at h
  split at h
  · cases h; rfl
  · split at h
    · cases h; rfl
    · split at h
      · cases h; rfl
      · cases h

theorem loadSpecFile_ok {rd : Reader} {resolve : Bool} {st st' : State} {src : String} {c c' : Cat}
    {types : Option (List String)} (h : loadSpecFile rd resolve st src c types = (st', .ok c')) :
    Dict.get? st.loaded (some src) = none ∧
    ∃ items l, rd.readSpec src = .ok items ∧ regLoop resolve types src c [] items = .ok (c', l) ∧
      st' = { st with loaded := Dict.set st.loaded (some src) l } := by
  unfold loadSpecFile at h
  split at h
  · cases h
  · rename_i h0
    split at h
    · cases h
    · rename_i items h1
      split at h
      · cases h
      · rename_i c1 l h2
        cases h
        exact ⟨h0, items, l, h1, h2, rfl⟩

theorem schemaLoop_frame {rd : Reader} {resolve : Bool} {name : String} :
    ∀ {els : List SchemaEl} {st : State} {c : Cat} {inc : Included},
    Frame st (schemaLoop rd resolve name st c inc els).1 ∧
    (schemaLoop rd resolve name st c inc els).1.namespaces = st.namespaces ∧
    (schemaLoop rd resolve name st c inc els).1.includedSpecs = st.includedSpecs
  | [], _, _, _ => ⟨Frame.refl, rfl, rfl⟩
  | el :: els, st, c, inc => by
    unfold schemaLoop
    split
    · rename_i src hs
      obtain ⟨f1, f2, f3, f4⟩ := @loadSpecFile_frame rd resolve st src c el.types
      split
      · rename_i st' x h1
        rw [h1] at f1 f2 f3
        exact ⟨f1, f2, f3⟩
      · rename_i st' c' h1
        rw [h1] at f1 f2 f3 f4
        simp only at f1 f2 f3 f4
        obtain ⟨g1, g2, g3⟩ := @schemaLoop_frame rd resolve name els
          { st' with
            includedSources := Dict.set st'.includedSources name ((Dict.get? st'.includedSources name).getD [] ++ [src]) } c' inc
        have f5 : Frame st' { st' with
            includedSources := Dict.set st'.includedSources name ((Dict.get? st'.includedSources name).getD [] ++ [src]) } := by
          refine ⟨fun _ _ h => h, fun _ _ h => h, fun _ _ h => h, ?_⟩
          intro k v hv
          simp only [Dict.get?_set]
          split
          · rename_i hk
            subst hk
            exact ⟨[src], by rw [hv]; rfl⟩
          · exact ⟨[], by simpa using hv⟩
        exact ⟨f1.trans (f5.trans g1), g2.trans f2, g3.trans f3⟩
    · split
      · exact ⟨Frame.refl, rfl, rfl⟩
      · split
        · exact ⟨Frame.refl, rfl, rfl⟩
        · split
          · exact ⟨Frame.refl, rfl, rfl⟩
          · exact schemaLoop_frame

theorem loadNamespace_frame {rd : Reader} {resolve : Bool} {st : State} {d : NSDef} :
    Frame st (loadNamespace rd resolve st d).1 ∧
    (loadNamespace rd resolve st d).1.includedSpecs = st.includedSpecs := by
  unfold loadNamespace
  split
  · exact ⟨Frame.refl, rfl⟩
  · rename_i h0
    obtain ⟨f1, f2, f3⟩ := @schemaLoop_frame rd resolve d.name d.schema st {} []
    split
    · rename_i h1; rw [h1] at f1 f3; exact ⟨f1, f3⟩
    · rename_i st' c inc h1
      rw [h1] at f1 f2 f3
      simp only at f1 f2 f3
      split
      · exact ⟨f1, f3⟩
      · refine ⟨f1.trans ⟨?_, fun _ _ h => h, fun _ _ h => h, fun _ v h => ⟨[], by simpa using h⟩⟩, f3⟩
        intro k v hv
        simp only [Dict.get?_set]
        rw [if_neg]
        · exact hv
        · intro hk
          rw [f2, hk] at hv
          apply h0
          simp [Dict.has, hv]

theorem loadLoop_frame {rd : Reader} {resolve : Bool} : ∀ {ds : List NSDef} {st : State} {ret : Dict String Included},
    Frame st (loadLoop rd resolve st ret ds).1 ∧
    (loadLoop rd resolve st ret ds).1.includedSpecs = st.includedSpecs
  | [], _, _ => ⟨Frame.refl, rfl⟩
  | d :: ds, st, ret => by
    unfold loadLoop
    obtain ⟨f1, f2⟩ := @loadNamespace_frame rd resolve st d
    split
    · rename_i h1; rw [h1] at f1 f2; exact ⟨f1, f2⟩
    · rename_i st' inc h1
      rw [h1] at f1 f2
      obtain ⟨g1, g2⟩ := @loadLoop_frame rd resolve ds st' (Dict.set ret d.name inc)
      exact ⟨f1.trans g1, g2.trans f2⟩

end Verif.Namespace

import Verif.Lemmas.NsWrite

/-!
# Lemmas on loading what was written
-/

namespace Verif.NsWrite
open Verif Verif.Namespace

/-- the catalog has what `c0` has, and these types besides -/
structure After (c0 : Cat) (P : List (String × Entry)) (c : Cat) : Prop where
  here : ∀ s e, (s, e) ∈ P → Has c e s
  rest : ∀ t, (∀ s e, (s, e) ∈ P → e.dfn ≠ t) → Dict.get? c.specs t = Dict.get? c0.specs t ∧ Dict.get? c.sources t = Dict.get? c0.sources t

/-- no name is used twice for different specs or sources, and none is there already -/
structure Cons (c0 : Cat) (E : List (String × Entry)) : Prop where
  one : ∀ s e s' e', (s, e) ∈ E → (s', e') ∈ E → e.dfn = e'.dfn → e = e' ∧ s = s'
  new : ∀ s e, (s, e) ∈ E → Dict.get? c0.specs e.dfn = none

theorem register_after {c0 c : Cat} {E P : List (String × Entry)} (hE : Cons c0 E) (hP : ∀ x ∈ P, x ∈ E) {s : String} {e : Entry} (he : (s, e) ∈ E) (h : After c0 P c) :
    ∃ c', register c e (some s) = .ok c' ∧ After c0 (P ++ [(s, e)]) c' := by
  have key : register c e (some s) = .ok ⟨Dict.set c.specs e.dfn e, Dict.set c.sources e.dfn (some s)⟩ := by
    unfold register
    simp only
    by_cases hx : ∃ s' e', (s', e') ∈ P ∧ e'.dfn = e.dfn
    · obtain ⟨s', e', h1, h2⟩ := hx
      obtain ⟨rfl, rfl⟩ := hE.one _ _ _ _ (hP _ h1) he h2
      have := h.here _ _ h1
      rw [this.1]
      simp only [ne_eq, not_true_eq_false, if_false, this.2]
    · have : Dict.get? c.specs e.dfn = none := by
        rw [(h.rest e.dfn (fun s' e' h1 h2 => hx ⟨s', e', h1, h2⟩)).1]
        exact hE.new _ _ he
      rw [this]
  refine ⟨_, key, ?_, ?_⟩
  · intro s' e' hm
    rcases List.mem_append.1 hm with hm | hm
    · exact reg_keeps key (h.here _ _ hm)
    · rw [List.mem_singleton] at hm
      cases hm
      exact reg_has key
  · intro t ht
    have hne : t ≠ e.dfn := fun e1 => ht s e (List.mem_append_right _ (List.mem_singleton.2 rfl)) e1.symm
    simp only
    rw [Dict.get?_set_ne hne, Dict.get?_set_ne hne]
    exact h.rest t (fun s' e' hm => ht s' e' (List.mem_append_left _ hm))

theorem autoRegister_after {c0 : Cat} {E : List (String × Entry)} (hE : Cons c0 E) {s : String} : ∀ {es : List Entry} {c : Cat} {P : List (String × Entry)},
    (∀ x ∈ P, x ∈ E) → (∀ e ∈ es, (s, e) ∈ E) → After c0 P c →
    ∃ c' l, autoRegister s c es = .ok (c', l) ∧ After c0 (P ++ es.map (fun e => (s, e))) c'
  | [], c, P, _, _, h => ⟨c, [], rfl, by rw [List.map_nil, List.append_nil]; exact h⟩
  | e :: es, c, P, hP, hs, h => by
    obtain ⟨c1, h1, h2⟩ := register_after hE hP (hs e (List.mem_cons_self ..)) h
    have hP' : ∀ x ∈ P ++ [(s, e)], x ∈ E := by
      intro x hx
      rcases List.mem_append.1 hx with hx | hx
      · exact hP x hx
      · rw [List.mem_singleton] at hx
        rw [hx]
        exact hs e (List.mem_cons_self ..)
    obtain ⟨c2, l, h3, h4⟩ := autoRegister_after hE hP' (fun x hx => hs x (List.mem_cons_of_mem _ hx)) h2
    refine ⟨c2, e.dfn :: l, ?_, ?_⟩
    · unfold autoRegister
      rw [h1]
      simp only
      rw [h3]
    · rw [List.append_assoc] at h4
      exact h4

/-- every type that a spec needs is known when its turn comes; `known`: the types there are before -/
def Ordered (known : String → Prop) : List Item → Prop
  | [] => True
  | i :: is => (∀ n ∈ i.needs, known n) ∧ Ordered (fun n => known n ∨ ∃ e ∈ i.regs, e.dfn = n) is

theorem Ordered_mono : ∀ {l : List Item} {p q : String → Prop}, (∀ n, p n → q n) → Ordered p l → Ordered q l
  | [], _, _, _, _ => trivial
  | i :: is, p, q, hpq, h => ⟨fun n hn => hpq n (h.1 n hn), Ordered_mono (fun n hn => hn.imp (hpq n) id) h.2⟩

theorem Ordered_append : ∀ {l l' : List Item} {p : String → Prop}, Ordered p (l ++ l') ↔ Ordered p l ∧ Ordered (fun n => p n ∨ ∃ i ∈ l, ∃ e ∈ i.regs, e.dfn = n) l'
  | [], l', p => by
    constructor
    · intro h; exact ⟨trivial, Ordered_mono (fun n hn => .inl hn) h⟩
    · intro h
      refine Ordered_mono (fun n hn => ?_) h.2
      rcases hn with hn | ⟨i, hi, _⟩
      · exact hn
      · cases hi
  | i :: l, l', p => by
    rw [List.cons_append]
    show (_ ∧ Ordered _ (l ++ l')) ↔ (_ ∧ _) ∧ _
    rw [Ordered_append]
    constructor
    · rintro ⟨h1, h2, h3⟩
      refine ⟨⟨h1, h2⟩, Ordered_mono (fun n hn => ?_) h3⟩
      rcases hn with (hn | ⟨e, he, hd⟩) | ⟨j, hj, hh⟩
      · exact .inl hn
      · exact .inr ⟨i, List.mem_cons_self .., e, he, hd⟩
      · exact .inr ⟨j, List.mem_cons_of_mem _ hj, hh⟩
    · rintro ⟨⟨h1, h2⟩, h3⟩
      refine ⟨h1, h2, Ordered_mono (fun n hn => ?_) h3⟩
      rcases hn with hn | ⟨j, hj, e, he, hd⟩
      · exact .inl (.inl hn)
      · rcases List.mem_cons.1 hj with rfl | hj
        · exact .inl (.inr ⟨e, he, hd⟩)
        · exact .inr ⟨j, hj, e, he, hd⟩

theorem resolve_ok {c : Cat} : ∀ {l : List String}, (∀ n ∈ l, ∃ x, Dict.get? c.specs n = some x) → resolveIncludes c l = .ok ()
  | [], _ => rfl
  | n :: l, h => by
    obtain ⟨x, hx⟩ := h n (List.mem_cons_self ..)
    unfold resolveIncludes
    rw [hx]
    simp only [Option.isSome_some, if_true]
    exact resolve_ok (fun m hm => h m (List.mem_cons_of_mem _ hm))

/-- the types registered for the entries of a file -/
def entries (s : String) (l : List Item) : List (String × Entry) := l.flatMap (fun i => i.regs.map (fun e => (s, e)))

theorem mem_entries {s s' : String} {l : List Item} {e : Entry} : (s', e) ∈ entries s l ↔ s' = s ∧ ∃ i ∈ l, e ∈ i.regs := by
  unfold entries
  rw [List.mem_flatMap]
  constructor
  · rintro ⟨i, hi, h⟩
    obtain ⟨x, hx, hh⟩ := List.mem_map.1 h
    cases hh
    exact ⟨rfl, i, hi, hx⟩
  · rintro ⟨rfl, i, hi, h⟩
    exact ⟨i, hi, List.mem_map.2 ⟨e, h, rfl⟩⟩

/-- what is known in a catalog -/
def knownIn (c0 : Cat) (P : List (String × Entry)) (n : String) : Prop := (∃ x, Dict.get? c0.specs n = some x) ∨ ∃ s e, (s, e) ∈ P ∧ e.dfn = n

theorem known_after {c0 c : Cat} {P : List (String × Entry)} (h : After c0 P c) {n : String} (hn : knownIn c0 P n) : ∃ x, Dict.get? c.specs n = some x := by
  by_cases hx : ∃ s e, (s, e) ∈ P ∧ e.dfn = n
  · obtain ⟨s, e, h1, h2⟩ := hx
    exact ⟨e, h2 ▸ (h.here s e h1).1⟩
  · rw [(h.rest n (fun s e h1 h2 => hx ⟨s, e, h1, h2⟩)).1]
    rcases hn with hn | hn
    · exact hn
    · exact (hx hn).elim

/-- an entry of a file that can be loaded: it defines a type and can be built -/
def Fine (i : Item) : Prop := i.key ≠ none ∧ i.bad = none

theorem regLoop_after {c0 : Cat} {E : List (String × Entry)} (hE : Cons c0 E) {s : String} : ∀ {is : List Item} {c : Cat} {acc : List String} {P : List (String × Entry)},
    (∀ x ∈ P, x ∈ E) → (∀ x ∈ entries s is, x ∈ E) → (∀ i ∈ is, Fine i) → Ordered (knownIn c0 P) is → After c0 P c →
    ∃ c' l, regLoop true none s c acc is = .ok (c', l) ∧ After c0 (P ++ entries s is) c'
  | [], c, acc, P, _, _, _, _, h => ⟨c, acc, rfl, by unfold entries; rw [List.flatMap_nil, List.append_nil]; exact h⟩
  | i :: is, c, acc, P, hP, hs, hf, ho, h => by
    have hi : ∀ e ∈ i.regs, (s, e) ∈ E := fun e he => hs _ (mem_entries.2 ⟨rfl, i, List.mem_cons_self .., he⟩)
    obtain ⟨c1, l, h1, h2⟩ := autoRegister_after hE hP hi h
    have hP' : ∀ x ∈ P ++ i.regs.map (fun e => (s, e)), x ∈ E := by
      intro x hx
      rcases List.mem_append.1 hx with hx | hx
      · exact hP x hx
      · obtain ⟨e, he, rfl⟩ := List.mem_map.1 hx
        exact hi e he
    have ho' : Ordered (knownIn c0 (P ++ i.regs.map (fun e => (s, e)))) is := by
      refine Ordered_mono (fun n hn => ?_) ho.2
      rcases hn with (hn | ⟨s', e, h1, h2⟩) | ⟨e, he, hd⟩
      · exact .inl hn
      · exact .inr ⟨s', e, List.mem_append_left _ h1, h2⟩
      · exact .inr ⟨s, e, List.mem_append_right _ (List.mem_map.2 ⟨e, he, rfl⟩), hd⟩
    obtain ⟨c2, l2, h3, h4⟩ := regLoop_after hE (acc := addAll acc l) hP' (fun x hx => hs x (by
      obtain ⟨s', e⟩ := x
      obtain ⟨e1, j, hj, he⟩ := mem_entries.1 hx
      exact mem_entries.2 ⟨e1, j, List.mem_cons_of_mem _ hj, he⟩)) (fun j hj => hf j (List.mem_cons_of_mem _ hj)) ho' h2
    refine ⟨c2, l2, ?_, ?_⟩
    · unfold regLoop regSpec
      obtain ⟨hk, hb⟩ := hf i (List.mem_cons_self ..)
      cases hkey : i.key with
      | none => exact (hk hkey).elim
      | some d =>
        simp only [skipped, Bool.false_eq_true, if_false, if_true]
        rw [resolve_ok (fun n hn => known_after h (ho.1 n hn))]
        simp only [hb, h1]
        exact h3
    · unfold entries
      unfold entries at h4
      rw [List.flatMap_cons, ← List.append_assoc]
      exact h4

/-- a file to be loaded: its name and its entries -/
abbrev Plan := List (String × List Item)

/-- the types registered for all files -/
def planEntries (p : Plan) : List (String × Entry) := p.flatMap (fun x => entries x.1 x.2)

theorem schemaLoop_after {c0 : Cat} {E : List (String × Entry)} (hE : Cons c0 E) {rd : Reader} {name : String} {inc : Included} : ∀ {p : Plan} {st : State} {c : Cat}
    {P : List (String × Entry)} {els : List SchemaEl}, els = p.map (fun x => (⟨some x.1, none, none⟩ : SchemaEl)) → (∀ x ∈ p, rd.readSpec x.1 = .ok x.2) →
    (p.map Prod.fst).Nodup → (∀ x ∈ p, Dict.get? st.loaded (some x.1) = none) →
    (∀ x ∈ P, x ∈ E) → (∀ x ∈ planEntries p, x ∈ E) → (∀ x ∈ p, ∀ i ∈ x.2, Fine i) → Ordered (knownIn c0 P) (p.flatMap Prod.snd) → After c0 P c →
    ∃ st' c', schemaLoop rd true name st c inc els = (st', .ok (c', inc)) ∧ After c0 (P ++ planEntries p) c' ∧ st'.namespaces = st.namespaces ∧
      st'.includedSpecs = st.includedSpecs
  | [], st, c, P, els, he, _, _, _, _, _, _, _, h => by
    subst he
    exact ⟨st, c, rfl, by unfold planEntries; rw [List.flatMap_nil, List.append_nil]; exact h, rfl, rfl⟩
  | (s, is) :: p, st, c, P, els, he, hrd, hn, hld, hP, hs, hf, ho, h => by
    subst he
    rw [List.flatMap_cons, Ordered_append] at ho
    rw [List.map_cons, List.nodup_cons] at hn
    have hs1 : ∀ x ∈ entries s is, x ∈ E := fun x hx => hs x (List.mem_flatMap.2 ⟨(s, is), List.mem_cons_self .., hx⟩)
    obtain ⟨c1, l, h1, h2⟩ := regLoop_after hE (acc := []) hP hs1 (hf (s, is) (List.mem_cons_self ..)) ho.1 h
    have hP' : ∀ x ∈ P ++ entries s is, x ∈ E := by
      intro x hx
      rcases List.mem_append.1 hx with hx | hx
      · exact hP x hx
      · exact hs1 x hx
    have ho' : Ordered (knownIn c0 (P ++ entries s is)) (p.flatMap Prod.snd) := by
      refine Ordered_mono (fun n hn => ?_) ho.2
      rcases hn with (hn | ⟨s', e, h1, h2⟩) | ⟨i, hi, e, he, hd⟩
      · exact .inl hn
      · exact .inr ⟨s', e, List.mem_append_left _ h1, h2⟩
      · exact .inr ⟨s, e, List.mem_append_right _ (mem_entries.2 ⟨rfl, i, hi, he⟩), hd⟩
    have hload : loadSpecFile rd true st s c none = ({ st with loaded := Dict.set st.loaded (some s) l }, .ok c1) := by
      unfold loadSpecFile
      rw [hld (s, is) (List.mem_cons_self ..)]
      simp only
      have := hrd (s, is) (List.mem_cons_self ..)
      simp only at this
      rw [this]
      simp only [h1]
    obtain ⟨st2, c2, h3, h4, h5, h6⟩ := schemaLoop_after hE (rd := rd) (name := name) (inc := inc) (p := p)
      (st := { st with loaded := Dict.set st.loaded (some s) l, includedSources := Dict.set st.includedSources name ((Dict.get? st.includedSources name).getD [] ++ [s]) })
      (c := c1) (P := P ++ entries s is) rfl (fun x hx => hrd x (List.mem_cons_of_mem _ hx)) hn.2 (fun x hx => by
        simp only
        rw [Dict.get?_set_ne]
        · exact hld x (List.mem_cons_of_mem _ hx)
        · intro e
          have e' : x.1 = s := by injection e
          exact hn.1 (e' ▸ List.mem_map.2 ⟨x, hx, rfl⟩)) hP' (fun x hx => hs x (by
        obtain ⟨y, hy, hh⟩ := List.mem_flatMap.1 hx
        exact List.mem_flatMap.2 ⟨y, List.mem_cons_of_mem _ hy, hh⟩)) (fun x hx => hf x (List.mem_cons_of_mem _ hx)) ho' h2
    refine ⟨st2, c2, ?_, ?_, h5, h6⟩
    · rw [List.map_cons]
      unfold schemaLoop
      simp only [hload]
      exact h3
    · unfold planEntries at h4 ⊢
      rw [List.flatMap_cons, ← List.append_assoc]
      exact h4

theorem schemaLoop_app {rd : Reader} {r : Bool} {name : String} : ∀ {a b : List SchemaEl} {st st1 : State} {c c1 : Cat} {inc inc1 : Included},
    schemaLoop rd r name st c inc a = (st1, .ok (c1, inc1)) → schemaLoop rd r name st c inc (a ++ b) = schemaLoop rd r name st1 c1 inc1 b
  | [], b, st, st1, c, c1, inc, inc1, h => by cases h; rfl
  | el :: a, b, st, st1, c, c1, inc, inc1, h => by
    rw [List.cons_append]
    generalize hR : schemaLoop rd r name st1 c1 inc1 b = R
    unfold schemaLoop at h ⊢
    split at h
    · rename_i src hsrc
      split at h
      · cases h
      · rename_i st2 c2 hl
        exact (schemaLoop_app h).trans hR
    · rename_i hsrc
      split at h
      · cases h
      · rename_i m hm
        split at h
        · cases h
        · rename_i sp hsp
          split at h
          · cases h
          · rename_i c2 done hr
            exact (schemaLoop_app h).trans hR

end Verif.NsWrite

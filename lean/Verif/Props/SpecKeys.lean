import Verif.Model.SpecKeys

/-!
# Specs whose type keys are those of another spec language (C259)
-/

namespace Verif.SpecKeys
open Verif

/-- The keys of the two languages do not cross; either language may be the same as the other. -/
def Apart (p c : Keys) : Prop := p.dfn ≠ p.inc ∧ c.dfn ≠ c.inc ∧ c.dfn ≠ p.inc ∧ c.inc ≠ p.dfn

theorem get?_moveKey (a b : String) (d : Dict String Val) (k : String) :
    (moveKey a b d).get? k = if k = b then (d.get? a).or (d.get? b) else if k = a then none else d.get? k := by
  unfold moveKey
  cases h : d.get? a with
  | none =>
    by_cases hb : k = b
    · simp [hb]
    · by_cases ha : k = a
      · subst ha; simp [hb, h]
      · simp [hb, ha]
  | some v =>
    rw [Dict.get?_set]
    by_cases hb : k = b
    · simp [hb]
    · by_cases ha : k = a
      · subst ha; simp [hb]
      · simp [hb, ha, Dict.get?_del_ne ha]

/-- **C259 (keys of a spec).** Whatever the dictionary: after the keys are changed, the type and the included type are found under the
keys of the project, as they were given under the keys of the base language or, if not, under those of the project; nothing is left
under other type keys, and everything else is as it was. -/
theorem C259_keys (p c : Keys) (h : Apart p c) (d : Dict String Val) (k : String) :
    (convertKeys p c d).get? k =
      if k = c.dfn then (d.get? p.dfn).or (d.get? c.dfn) else if k = c.inc then (d.get? p.inc).or (d.get? c.inc)
      else if k = p.dfn ∨ k = p.inc then none else d.get? k := by
  obtain ⟨h1, h2, h3, h4⟩ := h
  unfold convertKeys
  simp only [get?_moveKey]
  have h5 : p.inc ≠ c.dfn := h3.symm
  have h6 : p.inc ≠ p.dfn := h1.symm
  have h7 : c.inc ≠ c.dfn := h2.symm
  by_cases e1 : k = c.dfn
  · subst e1
    simp [h2, h3]
  · by_cases e2 : k = c.inc
    · subst e2
      simp [h7, h5, h6, h4]
    · by_cases e3 : k = p.inc
      · subst e3
        rw [if_neg e2, if_pos rfl, if_neg e1, if_neg e2, if_pos (.inr rfl)]
      · by_cases e4 : k = p.dfn
        · subst e4
          rw [if_neg e2, if_neg e3, if_neg e1, if_pos rfl, if_neg e1, if_neg e2, if_pos (.inl rfl)]
        · rw [if_neg e2, if_neg e3, if_neg e1, if_neg e4, if_neg e1, if_neg e2, if_neg (fun h => h.elim e4 e3)]

/-- non-vacuity -/
example : Apart ⟨"data_type_def", "data_type_inc"⟩ ⟨"my_def", "my_inc"⟩ ∧
    convertKeys ⟨"data_type_def", "data_type_inc"⟩ ⟨"my_def", "my_inc"⟩ [("data_type_def", .name "A"), ("doc", .name "text")] =
      [("doc", .name "text"), ("my_def", .name "A")] := by
  refine ⟨by unfold Apart; decide, by decide +kernel⟩

/-- the dictionary of the spec at a place: the positions to go down -/
def nodeAt : SD → List Nat → Option (Dict String Val)
  | .mk d _, [] => some d
  | .mk _ subs, i :: is => match subs[i]? with
    | none => none
    | some x => nodeAt x is

/-- the type a dictionary defines includes a type that is in the catalog, and it is replaced; or there is nothing to replace -/
def Replaced (c : Keys) (cat : List String) (d d' : Dict String Val) : Prop :=
  (∃ i t, d.get? c.inc = some (.name i) ∧ d.get? c.dfn = some t ∧ i ∈ cat ∧ d'.get? c.inc = some (.spec i) ∧
    ∀ k, k ≠ c.inc → d'.get? k = d.get? k) ∨
  ((d.get? c.dfn = none ∨ ∀ i, d.get? c.inc ≠ some (.name i)) ∧ d' = d)

theorem resolve1_replaced {c : Keys} {cat : List String} {d d' : Dict String Val} (h : resolve1 c cat d = .ok d') : Replaced c cat d d' := by
  unfold resolve1 at h
  split at h
  · rename_i i t h1 h2
    split at h
    · rename_i hc
      cases h
      exact .inl ⟨i, t, h1, h2, hc, Dict.get?_set_self, fun k hk => Dict.get?_set_ne hk⟩
    · cases h
  · rename_i h1
    cases h
    refine .inr ⟨?_, rfl⟩
    cases h2 : d.get? c.dfn with
    | none => exact .inl rfl
    | some t => exact .inr fun i hi => h1 i t hi h2

mutual
theorem resolve_at (c : Keys) (cat : List String) : ∀ (x x' : SD), resolveIncludes c cat x = .ok x' → ∀ path,
    (nodeAt x path = none ∧ nodeAt x' path = none) ∨ ∃ d d', nodeAt x path = some d ∧ nodeAt x' path = some d' ∧ Replaced c cat d d'
  | .mk d subs, x', h, path => by
    rw [resolveIncludes] at h
    cases h1 : resolve1 c cat d with
    | error e => simp [h1] at h
    | ok d' =>
      simp only [h1] at h
      cases h2 : resolveList c cat subs with
      | error e => simp [h2, Except.map] at h
      | ok subs' =>
        simp only [h2, Except.map] at h
        cases h
        cases path with
        | nil => exact .inr ⟨d, d', by rw [nodeAt], by rw [nodeAt], resolve1_replaced h1⟩
        | cons i is =>
          simp only [nodeAt]
          rcases resolveList_at c cat subs subs' h2 i is with ⟨e1, e2⟩ | ⟨y, y', e1, e2, h3⟩
          · exact .inl (by simp [e1, e2])
          · simp only [e1, e2]
            exact h3
theorem resolveList_at (c : Keys) (cat : List String) : ∀ (l l' : List SD), resolveList c cat l = .ok l' → ∀ (i : Nat) (is : List Nat),
    (l[i]? = none ∧ l'[i]? = none) ∨ ∃ y y', l[i]? = some y ∧ l'[i]? = some y' ∧
      ((nodeAt y is = none ∧ nodeAt y' is = none) ∨ ∃ d d', nodeAt y is = some d ∧ nodeAt y' is = some d' ∧ Replaced c cat d d')
  | [], l', h, i, is => by
    rw [resolveList] at h
    cases h
    exact .inl (by simp)
  | x :: l, l', h, i, is => by
    rw [resolveList] at h
    cases h1 : resolveIncludes c cat x with
    | error e => simp [h1] at h
    | ok x' =>
      simp only [h1] at h
      cases h2 : resolveList c cat l with
      | error e => simp [h2, Except.map] at h
      | ok m =>
        simp only [h2, Except.map] at h
        cases h
        cases i with
        | zero => exact .inr ⟨x, x', by simp, by simp, resolve_at c cat x x' h1 is⟩
        | succ i => simpa using resolveList_at c cat l m h2 i is
end

/-- the dictionary names, under either language, a type and a type to include -/
def Extends (k : Keys) (d : Dict String Val) (i : String) : Prop := (∃ t, d.get? k.dfn = some t) ∧ d.get? k.inc = some (.name i)

/-- **C259 (included types).** When a spec of a file is loaded: if it names a type to include, under either language, that is replaced by
the spec of a type in the catalog, and the same holds for every type that is defined below it, at any depth, with the keys of the
project.  Missing: types defined below it with the keys of the base language (`C259_includes_fails`). -/
theorem C259_includes_partial (p c : Keys) (hk : Apart p c) (cat : List String) (d : Dict String Val) (subs : List SD) (y : SD)
    (h : load p c cat (.mk d subs) = .ok y) :
    (∀ i, (d.get? p.inc).or (d.get? c.inc) = some (.name i) → i ∈ cat ∧ ∃ d', nodeAt y [] = some d' ∧ d'.get? c.inc = some (.spec i)) ∧
    (∀ j js e i, nodeAt (.mk d subs) (j :: js) = some e → Extends c e i →
      i ∈ cat ∧ ∃ e', nodeAt y (j :: js) = some e' ∧ e'.get? c.inc = some (.spec i) ∧ ∀ k, k ≠ c.inc → e'.get? k = e.get? k) := by
  rw [load] at h
  split at h
  · cases h
  · rename_i hd
    have hr := resolve_at c cat _ _ h
    refine ⟨?_, ?_⟩
    · intro i hi
      rcases hr [] with ⟨h1, -⟩ | ⟨e, e', h1, h2, h3⟩
      · simp [nodeAt] at h1
      · rw [nodeAt] at h1
        cases h1
        have hc : (convertKeys p c d).get? c.inc = some (.name i) := by
          rw [C259_keys p c hk]
          simp [hk.2.1.symm, hi]
        rcases h3 with ⟨i', t, a1, -, a3, a4, -⟩ | ⟨a1 | a1, -⟩
        · rw [hc] at a1
          cases a1
          exact ⟨a3, e', h2, a4⟩
        · exact absurd a1 hd
        · exact absurd hc (a1 i)
    · intro j js e i he hx
      have he' : nodeAt (.mk (convertKeys p c d) subs) (j :: js) = some e := by
        simpa only [nodeAt] using he
      rcases hr (j :: js) with ⟨h1, -⟩ | ⟨f, f', h1, h2, h3⟩
      · rw [he'] at h1; cases h1
      · rw [he'] at h1
        cases h1
        obtain ⟨⟨t, ht⟩, hi⟩ := hx
        rcases h3 with ⟨i', t', a1, -, a3, a4, a5⟩ | ⟨a1 | a1, -⟩
        · rw [hi] at a1
          cases a1
          exact ⟨a3, f', h2, a4, a5⟩
        · rw [ht] at a1; cases a1
        · exact absurd hi (a1 i)

mutual
theorem resolve_ok (c : Keys) (cat : List String) : ∀ (x : SD), (∀ path e i, nodeAt x path = some e → Extends c e i → i ∈ cat) →
    ∃ x', resolveIncludes c cat x = .ok x'
  | .mk d subs, h => by
    have h1 : ∃ d', resolve1 c cat d = .ok d' := by
      unfold resolve1
      split
      · rename_i i t h1 h2
        rw [if_pos (h [] d i (by rw [nodeAt]) ⟨⟨t, h2⟩, h1⟩)]
        exact ⟨_, rfl⟩
      · exact ⟨_, rfl⟩
    obtain ⟨d', h1⟩ := h1
    obtain ⟨l, h2⟩ := resolveList_ok c cat subs (fun j y hj path e i he => h (j :: path) e i (by simp only [nodeAt, hj]; exact he))
    exact ⟨.mk d' l, by rw [resolveIncludes]; simp only [h1, h2, Except.map]⟩
theorem resolveList_ok (c : Keys) (cat : List String) : ∀ (l : List SD),
    (∀ (j : Nat) y, l[j]? = some y → ∀ path e i, nodeAt y path = some e → Extends c e i → i ∈ cat) → ∃ l', resolveList c cat l = .ok l'
  | [], _ => ⟨[], by rw [resolveList]⟩
  | x :: l, h => by
    obtain ⟨x', h1⟩ := resolve_ok c cat x (h 0 x (by simp))
    obtain ⟨l', h2⟩ := resolveList_ok c cat l (fun j y hj => h (j + 1) y (by simpa using hj))
    exact ⟨x' :: l', by rw [resolveList]; simp only [h1, h2, Except.map]⟩
end

/-- **C259 (what can be loaded).** A spec of a file that names its type, in either language, is loaded if the types to include are in the
catalog: its own, in either language, and those of the types below it, at any depth, in the language of the project. -/
theorem C259_loads (p c : Keys) (hk : Apart p c) (cat : List String) (d : Dict String Val) (subs : List SD)
    (hd : (d.get? p.dfn).or (d.get? c.dfn) ≠ none)
    (hi : ∀ i, (d.get? p.inc).or (d.get? c.inc) = some (.name i) → i ∈ cat)
    (hs : ∀ j js e i, nodeAt (.mk d subs) (j :: js) = some e → Extends c e i → i ∈ cat) :
    ∃ y, load p c cat (.mk d subs) = .ok y := by
  rw [load, if_neg (by rw [C259_keys p c hk]; simpa using hd)]
  refine resolve_ok c cat _ fun path e i he hx => ?_
  cases path with
  | nil =>
    rw [nodeAt] at he
    cases he
    have := hx.2
    rw [C259_keys p c hk, if_neg hk.2.1.symm, if_pos rfl] at this
    exact hi i this
  | cons j js => exact hs j js e i (by simpa only [nodeAt] using he) hx

/-- the base language and that of a project -/
def base : Keys := ⟨"data_type_def", "data_type_inc"⟩
/-- see `base` -/
def mine : Keys := ⟨"my_def", "my_inc"⟩

/-- non-vacuity: a type with a type below it in the language of the project -/
example : Apart base mine ∧ (load base mine ["P", "Q"] (.mk [("data_type_def", .name "A"), ("data_type_inc", .name "P")]
    [.mk [("my_def", .name "B"), ("my_inc", .name "Q")] []])).toOption.map (fun y => (nodeAt y [], nodeAt y [0])) =
      some (some [("my_def", .name "A"), ("my_inc", .spec "P")], some [("my_def", .name "B"), ("my_inc", .spec "Q")]) := by
  refine ⟨by unfold Apart; decide, by decide +kernel⟩

/-- **C259 (violated).** A type that is defined below another one in a file of the base language does not get the keys of the project, and
the type it includes is not replaced, even if there is none of that name. -/
theorem C259_includes_fails :
    (load base mine ["P"] (.mk [("data_type_def", .name "A"), ("data_type_inc", .name "P")]
      [.mk [("data_type_def", .name "B"), ("data_type_inc", .name "Unknown")] []])).toOption.map (fun y => (nodeAt y [], nodeAt y [0])) =
      some (some [("my_def", .name "A"), ("my_inc", .spec "P")], some [("data_type_def", .name "B"), ("data_type_inc", .name "Unknown")]) := by
  decide +kernel

end Verif.SpecKeys

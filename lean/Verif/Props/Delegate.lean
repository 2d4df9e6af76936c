import Verif.Model.Delegate

/-!
# Wrappers that hand over attributes to what they wrap (C260, C261)
-/

namespace Verif.Delegate
open Verif

/-- The names that are found in each object, from the outermost to what is wrapped; there is no `DataIO` without data and no object
without a call of `__init__`. -/
inductive Layers : Obj → List (String → Prop) → Prop
  | plain (as) : Layers (.plain as) [(· ∈ as)]
  | wrap {as f o ls} : Layers o ls → Layers (.wrap as f o) ((fun a => a ∈ as ∨ a = f) :: ls)

/-- **C260 (attributes of wrapped data).** Of data in any number of wrappers, fewer than the calls Python allows: an attribute is that of
the outermost object that has it, and only if there is none, the attribute is said to be missing.  Missing: a `DataIO` without data and
wrappers that are not built (`C260_empty_fails`, `C260_blank_fails`). -/
theorem C260_found_partial {o : Obj} {ls : List (String → Prop)} (h : Layers o ls) (a : String) (n : Nat) (hn : ls.length ≤ n) :
    (∀ k, get n o a = .ok k ↔ (∃ l, ls[k]? = some l ∧ l a) ∧ ∀ j l, j < k → ls[j]? = some l → ¬ l a) ∧
    (∀ e, get n o a = .error e ↔ e = .missing ∧ ∀ l ∈ ls, ¬ l a) ∧
    (has n o a = .ok true ↔ ∃ l ∈ ls, l a) ∧ (has n o a = .ok false ↔ ∀ l ∈ ls, ¬ l a) := by
  have key : (∃ k, get n o a = .ok k ∧ (∃ l, ls[k]? = some l ∧ l a) ∧ ∀ j l, j < k → ls[j]? = some l → ¬ l a) ∨
      (get n o a = .error .missing ∧ ∀ l ∈ ls, ¬ l a) := by
    induction h generalizing n with
    | plain as =>
      cases n with
      | zero => simp at hn
      | succ n =>
        rw [get]
        by_cases ha : a ∈ as
        · exact .inl ⟨0, by simp [ha], ⟨_, rfl, ha⟩, fun j l hj => absurd hj (Nat.not_lt_zero j)⟩
        · exact .inr ⟨by simp [ha], by simpa using ha⟩
    | wrap h ih =>
      rename_i as f o ls
      cases n with
      | zero => simp at hn
      | succ n =>
        rw [get]
        by_cases ha : a ∈ as ∨ a = f
        · exact .inl ⟨0, by rw [if_pos ha], ⟨_, rfl, ha⟩, fun j l hj => absurd hj (Nat.not_lt_zero j)⟩
        · rw [if_neg ha]
          rcases ih n (by simpa using hn) with ⟨k, h1, ⟨l, h2, h3⟩, h4⟩ | ⟨h1, h2⟩
          · refine .inl ⟨k + 1, by rw [h1]; rfl, ⟨l, by simpa using h2, h3⟩, ?_⟩
            intro j l' hj hl'
            cases j with
            | zero =>
              simp only [List.getElem?_cons_zero, Option.some.injEq] at hl'
              subst hl'
              exact ha
            | succ j => exact h4 j l' (Nat.lt_of_succ_lt_succ hj) (by simpa using hl')
          · refine .inr ⟨by rw [h1]; rfl, ?_⟩
            intro l hl
            rcases List.mem_cons.1 hl with rfl | hl
            · exact ha
            · exact h2 l hl
  rcases key with ⟨k, h1, ⟨l, h2, h3⟩, h4⟩ | ⟨h1, h2⟩
  · have hm : l ∈ ls := List.mem_of_getElem? h2
    refine ⟨?_, ?_, ?_, ?_⟩
    · intro k'
      rw [h1]
      constructor
      · intro e
        cases e
        exact ⟨⟨l, h2, h3⟩, h4⟩
      · rintro ⟨⟨l', h5, h6⟩, h7⟩
        rcases Nat.lt_trichotomy k k' with hlt | rfl | hlt
        · exact absurd h3 (h7 k l hlt h2)
        · rfl
        · exact absurd h6 (h4 k' l' hlt h5)
    · intro e
      rw [h1]
      exact ⟨(fun h => nomatch h), fun h => absurd h3 (h.2 l hm)⟩
    · simp only [has, h1]
      exact ⟨fun _ => ⟨l, hm, h3⟩, fun _ => trivial⟩
    · simp only [has, h1]
      exact ⟨(fun h => by simp at h), fun h => absurd h3 (h l hm)⟩
  · refine ⟨?_, ?_, ?_, ?_⟩
    · intro k
      rw [h1]
      refine ⟨(fun h => nomatch h), ?_⟩
      rintro ⟨⟨l, h3, h4⟩, -⟩
      exact absurd h4 (h2 l (List.mem_of_getElem? h3))
    · intro e
      rw [h1]
      constructor
      · intro h
        cases h
        exact ⟨rfl, h2⟩
      · rintro ⟨rfl, -⟩
        rfl
    · simp only [has, h1]
      refine ⟨(fun h => by simp at h), ?_⟩
      rintro ⟨l, h3, h4⟩
      exact absurd h4 (h2 l h3)
    · simp only [has, h1]
      exact ⟨fun _ => h2, fun _ => trivial⟩

/-- an array, of which only a few attributes are named -/
def array : Obj := .plain ["shape", "dtype", "__deepcopy__", "__setstate__"]
/-- a list -/
def aList : Obj := .plain ["append", "insert"]
/-- attributes of `TermSetWrapper`; those that every object has and private ones are left out, also below -/
def termAttrs : List String := ["value", "field", "termset", "dtype", "append", "extend"]
/-- a wrapper with a term set -/
def terms (o : Obj) : Obj := .wrap termAttrs "_TermSetWrapper__value" o
/-- attributes of `DataIO` -/
def ioAttrs : List String := ["data", "dtype", "shape", "append", "extend", "valid", "__copy__", "__deepcopy__", "__array__"]
/-- a `DataIO` with data -/
def io (o : Obj) : Obj := .wrap ioAttrs "_DataIO__data" o
/-- attributes of `DataChunk` -/
def chunkAttrs : List String := ["__copy__", "__deepcopy__", "astype", "dtype", "get_min_bounds"]

/-- non-vacuity: a list with a term set in a `DataIO` -/
example : (∃ ls, Layers (io (terms aList)) ls ∧ ls.length = 3) ∧ get 10 (io (terms aList)) "insert" = .ok 2 ∧
    get 10 (io (terms aList)) "termset" = .ok 1 ∧ has 10 (io (terms aList)) "nothing" = .ok false :=
  ⟨⟨_, .wrap (.wrap (.plain _)), rfl⟩, by decide +kernel, by decide +kernel, by decide +kernel⟩

/-- **C260 (violated).** Whether a `DataIO` without data has some attribute cannot be asked: an error is raised that is not an
AttributeError, for every attribute that it does not have. -/
theorem C260_empty_fails (n : Nat) (a : String) (h : a ∉ ioAttrs) : has (n + 1) (.empty ioAttrs) a = .error .invalid := by
  simp [has, get, h]

example : "ndim" ∉ ioAttrs := by decide

theorem get_blank (as : List String) (f a : String) (hf : f ∉ as) (ha : a ∉ as) : ∀ n, get n (.blank as f) a = .error .recursion := by
  intro n
  induction n generalizing a with
  | zero => rfl
  | succ n ih => rw [get, if_neg ha]; exact ih f hf

/-- **C260 (violated).** Before `__init__` has set what is wrapped, to ask a wrapper for an attribute that its class does not have calls
itself until Python gives up, however many calls are allowed. -/
theorem C260_blank_fails (as : List String) (f a : String) (hf : f ∉ as) (ha : a ∉ as) (n : Nat) :
    get n (.blank as f) a = .error .recursion ∧ has n (.blank as f) a = .error .recursion := by
  have := get_blank as f a hf ha n
  exact ⟨this, by simp only [has, this]⟩

example : "data" ∉ chunkAttrs ∧ "__setstate__" ∉ chunkAttrs := by decide

/-- **C261 (copies of wrappers).** A wrapper whose class has the methods for it is copied, shallow or deep, as a wrapper, whatever it
wraps.  Missing: wrappers that do not have these methods (`C261_copy_fails`). -/
theorem C261_copy_partial (as : List String) (f : String) (o : Obj) (n : Nat) :
    ("__copy__" ∈ as → shallow n (.wrap as f o) = .ok 0) ∧ ("__deepcopy__" ∈ as → deep (n + 1) (.wrap as f o) = .ok 0) ∧
    ("__copy__" ∈ as → shallow n (.empty as) = .ok 0) ∧ ("__deepcopy__" ∈ as → deep (n + 1) (.empty as) = .ok 0) := by
  refine ⟨?_, ?_, ?_, ?_⟩ <;> intro h <;> simp [shallow, deep, get, Obj.attrs, h]

/-- non-vacuity: `DataIO` and `DataChunk` -/
example : ("__copy__" ∈ ioAttrs ∧ "__deepcopy__" ∈ ioAttrs) ∧ ("__copy__" ∈ chunkAttrs ∧ "__deepcopy__" ∈ chunkAttrs) := by decide

/-- **C261 (what becomes of other wrappers).** A wrapper whose class has none of these methods is never copied as such: a shallow copy
always fails, and a deep one is a copy of something it wraps, without the wrapper, or fails.  An object that is restored from its class and
fields, as when it is unpickled, fails also if there are methods to copy it. -/
theorem C261_lost (as : List String) (f : String) (hf : f ∉ as) (hs : "__setstate__" ∉ as) (o : Obj) (n : Nat) :
    reconstruct n (.wrap as f o) = .error .recursion ∧
    ("__copy__" ∉ as → shallow n (.wrap as f o) = .error .recursion) ∧
    ("__deepcopy__" ∉ as → "__deepcopy__" ≠ f → ∀ k, deep n (.wrap as f o) = .ok k →
      ∃ m j, n = m + 1 ∧ k = j + 1 ∧ get m o "__deepcopy__" = .ok j) := by
  have hr : reconstruct n (.wrap as f o) = .error .recursion := by
    rw [reconstruct, (C260_blank_fails as f _ hf hs n).2]
    rfl
  refine ⟨hr, ?_, ?_⟩
  · intro hc
    rw [shallow, if_neg (by simpa [Obj.attrs] using hc), hr]
  · intro hd hne k hk
    unfold deep at hk
    cases n with
    | zero => simp [get] at hk
    | succ m =>
      have hg : get (m + 1) (.wrap as f o) "__deepcopy__" = (get m o "__deepcopy__").map (· + 1) := by
        rw [get, if_neg (fun h => h.elim hd hne)]
      rw [hg] at hk
      cases hj : get m o "__deepcopy__" with
      | ok j =>
        simp only [hj, Except.map] at hk
        cases hk
        exact ⟨m, j, rfl, rfl, hj⟩
      | error e =>
        simp only [hj, Except.map] at hk
        cases e with
        | missing =>
          simp only at hk
          rw [hr] at hk
          cases hk
        | invalid => cases hk
        | recursion => cases hk

/-- non-vacuity: a wrapper with a term set -/
example : "_TermSetWrapper__value" ∉ termAttrs ∧ "__setstate__" ∉ termAttrs ∧ "__copy__" ∉ termAttrs ∧ "__deepcopy__" ∉ termAttrs := by
  decide

/-- **C261 (violated).** A deep copy of an array with a term set is an array without one; a deep copy of a list with a term set, and a
shallow copy of either, fail. -/
theorem C261_copy_fails : deep 1000 (terms array) = .ok 1 ∧ deep 1000 (terms aList) = .error .recursion ∧
    shallow 1000 (terms array) = .error .recursion := by
  refine ⟨by decide +kernel, ?_, (C261_lost _ _ (by decide) (by decide) _ _).2.1 (by decide)⟩
  have h : get 1000 (terms aList) "__deepcopy__" = .error .missing := by decide +kernel
  simp only [deep, h]
  exact (C261_lost _ _ (by decide) (by decide) _ _).1

end Verif.Delegate

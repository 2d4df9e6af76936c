import Verif.Model.Utils
import Verif.Props.Docval

/-!
# Properties of the helpers in utils.py: C60, C63, C64
-/

namespace Verif.Utils
open Verif Verif.Docval

variable {α : Type}

/-! ### C60 -/

private theorem getLoop_ok_iff (names : List String) (d : Dict String α) (vs : List α) :
    getLoop d names = .ok vs ↔ names.map (Dict.get? d) = vs.map some := by
  induction names generalizing vs with
  | nil => cases vs <;> simp [getLoop]
  | cons n ns ih =>
    unfold getLoop
    cases hg : Dict.get? d n with
    | none => cases vs <;> simp [hg]
    | some v =>
      cases hr : getLoop d ns with
      | error e =>
        rw [hr] at ih
        cases vs with
        | nil => simp [Except.map]
        | cons w ws =>
          have := ih ws
          simp only [reduceCtorEq, false_iff] at this
          simp [hg, this, Except.map]
      | ok ws =>
        rw [hr] at ih
        cases vs with
        | nil => simp [Except.map]
        | cons x xs =>
          have := ih xs
          simp only [Except.ok.injEq] at this
          simp only [Except.map, Except.ok.injEq, List.cons.injEq, List.map_cons, hg, Option.some.injEq]
          rw [this]

private theorem getLoop_err_iff (names : List String) (d : Dict String α) :
    (∃ e, getLoop d names = .error e) ↔ ∃ n ∈ names, n ∉ Dict.keys d := by
  induction names with
  | nil => simp [getLoop]
  | cons n ns ih =>
    unfold getLoop
    cases hg : Dict.get? d n with
    | none => simp [Dict.get?_eq_none_iff.1 hg]
    | some v =>
      have hk : n ∈ Dict.keys d := Dict.mem_keys_of_mem (Dict.mem_of_get? hg)
      simp only [List.mem_cons, exists_eq_or_imp, hk, not_true, false_or]
      rw [← ih]
      cases getLoop d ns <;> simp [Except.map]

/-- **C60 (getargs).** `getargs` returns, in order, the values of the requested names, and raises ValueError iff no name
was requested or a requested name is missing.  (It never modifies the dict: it is a pure function of it.) -/
theorem C60_getargs (names : List String) (d : Dict String α) :
    (∀ vs, getargs names d = .ok vs ↔ names ≠ [] ∧ names.map (Dict.get? d) = vs.map some) ∧
    ((∃ e, getargs names d = .error e) ↔ names = [] ∨ ∃ n ∈ names, n ∉ Dict.keys d) := by
  cases names with
  | nil => simp [getargs]
  | cons n ns =>
    refine ⟨fun vs => ?_, ?_⟩
    · rw [← getLoop_ok_iff]; simp [getargs]
    · simp only [getargs]; rw [getLoop_err_iff]; simp

example : getargs ["b", "a"] [("a", 1), ("b", 2)] = .ok [2, 1] := by decide

private theorem popLoop_ok (names : List String) : ∀ (d d' : Dict String α) vs, popLoop names d = (d', .ok vs) →
    names.Nodup ∧ names.map (Dict.get? d) = vs.map some ∧ d' = d.filter (fun kv => decide (kv.1 ∉ names)) := by
  induction names with
  | nil =>
    intro d d' vs h
    simp [popLoop] at h
    obtain ⟨rfl, rfl⟩ := h
    simp
  | cons n ns ih =>
    intro d d' vs h
    unfold popLoop at h
    cases hg : Dict.get? d n with
    | none => simp [hg] at h
    | some v =>
      simp only [hg, Prod.mk.injEq] at h
      obtain ⟨h1, h2⟩ := h
      cases hr : (popLoop ns (d.del n)).2 with
      | error e => simp [hr, Except.map] at h2
      | ok ws =>
        simp [hr, Except.map] at h2
        subst h2
        obtain ⟨i1, i2, i3⟩ := ih (d.del n) d' ws (Prod.ext h1 hr)
        have hn : n ∉ ns := by
          intro hc
          have : Dict.get? (d.del n) n ∈ ws.map some := by rw [← i2]; exact List.mem_map_of_mem hc
          rw [Dict.get?_del_self] at this
          simp at this
        refine ⟨List.nodup_cons.2 ⟨hn, i1⟩, ?_, ?_⟩
        · simp only [List.map_cons, hg, List.cons.injEq, true_and]
          rw [← i2]
          apply List.map_congr_left
          intro m hm
          rw [Dict.get?_del_ne]
          rintro rfl; exact hn hm
        · rw [i3]
          unfold Dict.del
          rw [List.filter_filter]
          congr 1
          funext kv
          by_cases h1 : kv.1 = n <;> simp [h1]

private theorem popLoop_err (names : List String) : ∀ (d d' : Dict String α) e, popLoop names d = (d', .error e) →
    (∃ n ∈ names, n ∉ Dict.keys d) ∨ ¬ names.Nodup := by
  induction names with
  | nil => intro d d' e h; simp [popLoop] at h
  | cons n ns ih =>
    intro d d' e h
    unfold popLoop at h
    cases hg : Dict.get? d n with
    | none => exact Or.inl ⟨n, List.mem_cons_self, Dict.get?_eq_none_iff.1 hg⟩
    | some v =>
      simp only [hg, Prod.mk.injEq] at h
      obtain ⟨h1, h2⟩ := h
      cases hr : (popLoop ns (d.del n)).2 with
      | ok ws => simp [hr, Except.map] at h2
      | error e' =>
        rcases ih (d.del n) d' e' (Prod.ext h1 hr) with ⟨m, hm, hk⟩ | hnd
        · by_cases hmn : m = n
          · right; subst hmn; simp [hm]
          · left
            exact ⟨m, List.mem_cons_of_mem _ hm, fun hc => hk (Dict.mem_keys_del.2 ⟨hc, hmn⟩)⟩
        · right; intro hc; exact hnd (List.nodup_cons.1 hc).2

/-- **C60 (popargs).** An accepted `popargs` returns, in order, the values of the requested names and removes exactly
those names, keeping the order of the rest; it is refused only if no name was requested, a name is missing or is
requested twice.  Atomicity of the refusal does not hold: `C60_popargs_fails`. -/
theorem C60_popargs_partial (names : List String) (d d' : Dict String α) :
    (∀ vs, popargs names d = (d', .ok vs) →
      names.map (Dict.get? d) = vs.map some ∧ d' = d.filter (fun kv => decide (kv.1 ∉ names))) ∧
    (∀ e, popargs names d = (d', .error e) → names = [] ∨ (∃ n ∈ names, n ∉ Dict.keys d) ∨ ¬ names.Nodup) := by
  cases names with
  | nil => simp [popargs]
  | cons n ns =>
    exact ⟨fun vs h => (popLoop_ok _ _ _ _ h).2, fun e h => Or.inr (popLoop_err _ _ _ _ h)⟩

example : popargs ["b", "a"] [("a", 1), ("c", 3), ("b", 2)] = ([("c", 3)], .ok [2, 1]) := by decide

/-- **C60 fails in full**: a refused `popargs` has already removed the names before the missing one. -/
theorem C60_popargs_fails : popargs ["a", "zz"] [("a", 1), ("c", 3)] = ([("c", 3)], .error .valueError) := by decide

private theorem popDict_go (keys : List String) : ∀ (d d' ret r : Dict String α),
    popargsToDict.go keys d ret = (d', .ok r) → (∀ k ∈ keys, k ∉ Dict.keys ret) →
    keys.Nodup ∧ (∃ vs, keys.map (Dict.get? d) = vs.map some ∧ r = ret ++ keys.zip vs) ∧
      d' = d.filter (fun kv => decide (kv.1 ∉ keys)) := by
  induction keys with
  | nil =>
    intro d d' ret r h _
    simp [popargsToDict.go] at h
    obtain ⟨rfl, rfl⟩ := h
    exact ⟨by simp, ⟨[], by simp⟩, by simp⟩
  | cons k ks ih =>
    intro d d' ret r h hf
    unfold popargsToDict.go at h
    cases hg : Dict.get? d k with
    | none => simp [hg] at h
    | some v =>
      simp only [hg] at h
      -- a repeated key would be missing the second time
      have hk : k ∉ ks := by
        intro hc
        have key : ∀ (ks : List String) (d d' ret r : Dict String α), popargsToDict.go ks d ret = (d', .ok r) →
            ∀ m ∈ ks, m ∈ Dict.keys d := by
          intro ks
          induction ks with
          | nil => intro _ _ _ _ _ m hm; simp at hm
          | cons x ks ih2 =>
            intro d d' ret r h m hm
            unfold popargsToDict.go at h
            cases hx : Dict.get? d x with
            | none => simp [hx] at h
            | some w =>
              simp only [hx] at h
              rcases List.mem_cons.1 hm with rfl | hm
              · exact Dict.mem_keys_of_mem (Dict.mem_of_get? hx)
              · exact (Dict.mem_keys_del.1 (ih2 _ _ _ _ h m hm)).1
        have := key _ _ _ _ _ h k hc
        exact (Dict.mem_keys_del.1 this).2 rfl
      have hkr : k ∉ Dict.keys ret := hf k List.mem_cons_self
      obtain ⟨i1, ⟨vs, i2, i3⟩, i4⟩ := ih _ _ _ _ h (by
        intro m hm hc
        rcases Dict.mem_keys_set.1 hc with rfl | hc
        · exact hk hm
        · exact hf m (List.mem_cons_of_mem _ hm) hc)
      refine ⟨List.nodup_cons.2 ⟨hk, i1⟩, ⟨v :: vs, ?_, ?_⟩, ?_⟩
      · simp only [List.map_cons, hg, List.cons.injEq, true_and]
        rw [← i2]
        apply List.map_congr_left
        intro m hm
        rw [Dict.get?_del_ne]
        rintro rfl; exact hk hm
      · rw [i3, Dict.set_of_not_mem hkr]; simp
      · rw [i4]
        unfold Dict.del
        rw [List.filter_filter]
        congr 1
        funext kv
        by_cases h1 : kv.1 = k <;> simp [h1]

/-- **C60 (popargs_to_dict).** An accepted call returns the requested keys with their values, in the order requested, and
removes exactly them. -/
theorem C60_popargs_to_dict (keys : List String) (d d' r : Dict String α) (h : popargsToDict keys d = (d', .ok r)) :
    (∃ vs, keys.map (Dict.get? d) = vs.map some ∧ r = keys.zip vs) ∧
      d' = d.filter (fun kv => decide (kv.1 ∉ keys)) := by
  obtain ⟨-, ⟨vs, h1, h2⟩, h3⟩ := popDict_go keys d d' [] r h (by simp [Dict.keys])
  exact ⟨⟨vs, h1, by simpa using h2⟩, h3⟩

example : popargsToDict ["b"] [("a", 1), ("b", 2)] = ([("a", 1)], .ok [("b", 2)]) := by decide

/-! ### C63: raggedness -/

/-- `x` is a rectangular array of the given shape: every sub-list at depth k has length `shape[k]`, scalars below. -/
inductive Rect : Nest → List Nat → Prop
  | leaf : Rect .leaf []
  | list {xs : List Nest} {s : List Nat} : (∀ x ∈ xs, Rect x s) → Rect (.list xs) (xs.length :: s)

private theorem rect_len {x : Nest} {s : List Nat} (h : Rect x s) : x.lenOr1 = s.headD 1 := by
  cases h <;> rfl

mutual
private theorem rect_not_ragged : ∀ (x : Nest) (s : List Nat), Rect x s → isRagged x = false
  | .leaf, _, _ => rfl
  | .list xs, s, h => by
    cases h with
    | @list _ s h =>
      unfold isRagged
      rw [if_neg, rect_any xs s h]
      have hl : ∀ x ∈ xs, ∀ y ∈ xs, x.lenOr1 = y.lenOr1 := by
        intro x hx y hy
        rw [rect_len (h x hx), rect_len (h y hy)]
      cases xs with
      | nil => simp [manyLengths]
      | cons x xs =>
        simp only [List.map_cons, manyLengths, Bool.not_eq_true, List.any_eq_false, List.mem_map,
          forall_exists_index, and_imp, forall_apply_eq_imp_iff₂, decide_eq_true_eq, not_not]
        intro y hy
        exact hl y (List.mem_cons_of_mem _ hy) x List.mem_cons_self
private theorem rect_any : ∀ (xs : List Nest) (s : List Nat), (∀ x ∈ xs, Rect x s) → anyRagged xs = false
  | [], _, _ => rfl
  | x :: xs, s, h => by
    unfold anyRagged
    rw [rect_not_ragged x s (h x List.mem_cons_self), rect_any xs s (fun y hy => h y (List.mem_cons_of_mem _ hy))]
    rfl
end

/-- **C63 (partial).** Data reported as ragged is indeed not a rectangular array.  The converse fails
(`C63_is_ragged_fails`). -/
theorem C63_ragged_sound_partial (x : Nest) (h : isRagged x = true) : ¬ ∃ s, Rect x s := by
  rintro ⟨s, hs⟩
  rw [rect_not_ragged x s hs] at h
  simp at h

example : isRagged (.list [.list [.leaf], .list [.leaf, .leaf]]) = true := by decide

/-- **C63 (partial).** For lists of lists of scalars (two levels), `is_ragged` is exact. -/
theorem C63_two_levels_partial (xss : List (List Unit)) :
    isRagged (.list (xss.map (fun xs => .list (xs.map (fun _ => .leaf))))) = false ↔
      ∀ xs ∈ xss, ∀ ys ∈ xss, xs.length = ys.length := by
  have hinner : ∀ xs : List Unit, isRagged (.list (xs.map (fun _ => .leaf))) = false :=
    fun xs => rect_not_ragged _ _ (.list (s := []) (by
      intro x hx; obtain ⟨_, _, rfl⟩ := List.mem_map.1 hx; exact .leaf))
  have hany : ∀ xss : List (List Unit), anyRagged (xss.map (fun xs => .list (xs.map (fun _ => .leaf)))) = false := by
    intro xss
    induction xss with
    | nil => rfl
    | cons xs xss ih => rw [List.map_cons, anyRagged, hinner, ih]; rfl
  unfold isRagged
  rw [hany]
  have hm : ∀ ls : List Nat, manyLengths ls = false ↔ ∀ a ∈ ls, ∀ b ∈ ls, a = b := by
    intro ls
    cases ls with
    | nil => simp [manyLengths]
    | cons l ls =>
      simp only [manyLengths, List.any_eq_false, decide_eq_true_eq, not_not]
      constructor
      · intro h a ha b hb
        have hx : ∀ a ∈ l :: ls, a = l := by
          intro a ha
          rcases List.mem_cons.1 ha with rfl | ha
          · rfl
          · exact of_not_not (fun hc => by simpa [hc] using h a ha)
        rw [hx a ha, hx b hb]
      · intro h a ha
        simpa using h a (List.mem_cons_of_mem _ ha) l List.mem_cons_self
  rw [← Bool.not_eq_true]
  simp only [Bool.not_eq_true, ite_eq_right_iff, Bool.true_eq_false, imp_false, hm, List.map_map]
  constructor
  · intro h xs hxs ys hys
    have := h xs.length (List.mem_map.2 ⟨xs, hxs, by simp [Nest.lenOr1]⟩) ys.length
      (List.mem_map.2 ⟨ys, hys, by simp [Nest.lenOr1]⟩)
    exact this
  · intro h a ha b hb
    obtain ⟨xs, hxs, rfl⟩ := List.mem_map.1 ha
    obtain ⟨ys, hys, rfl⟩ := List.mem_map.1 hb
    simpa [Nest.lenOr1] using h xs hxs ys hys

/-- **C63 fails in full**: `[[[1,2]],[[1,2,3]]]` is reported as not ragged (each level is only compared within one
list), and so is `[[1], 2]`; neither is a rectangular array. -/
theorem C63_is_ragged_fails :
    isRagged (.list [.list [.list [.leaf, .leaf]], .list [.list [.leaf, .leaf, .leaf]]]) = false ∧
    isRagged (.list [.list [.leaf], .leaf]) = false ∧
    (¬ ∃ s, Rect (.list [.list [.list [.leaf, .leaf]], .list [.list [.leaf, .leaf, .leaf]]]) s) ∧
    (¬ ∃ s, Rect (.list [.list [.leaf], .leaf]) s) := by
  refine ⟨by decide, by decide, ?_, ?_⟩
  · rintro ⟨s, h⟩
    cases h with
    | list h =>
      have h1 := h _ List.mem_cons_self
      have h2 := h _ (List.mem_cons_of_mem _ List.mem_cons_self)
      cases h1 with
      | list h1 =>
        cases h2 with
        | list h2 =>
          have h3 := h1 _ List.mem_cons_self
          have h4 := h2 _ List.mem_cons_self
          cases h3 with
          | list _ => cases h4
  · rintro ⟨s, h⟩
    cases h with
    | list h =>
      have h1 := h _ List.mem_cons_self
      have h2 := h _ (List.mem_cons_of_mem _ List.mem_cons_self)
      cases h2
      cases h1

/-- **C63 (shape).** For a rectangular array with no empty dimension before the last one, `get_data_shape` is its
shape. -/
theorem C63_shape (x : Nest) (s : List Nat) (h : Rect x s) (hpos : ∀ n ∈ s.dropLast, 0 < n) : getShape x = s := by
  match x, s, h with
  | _, _, .leaf => rfl
  | .list [], _, @Rect.list _ s _ =>
    cases s with
    | nil => rfl
    | cons a s => simp [List.dropLast] at hpos
  | .list (y :: ys), _, @Rect.list _ s h =>
    have hy : sizeOf y < sizeOf (Nest.list (y :: ys)) := by simp; omega
    simp only [getShape, List.length_cons, List.cons.injEq, true_and]
    refine C63_shape y s (h y List.mem_cons_self) ?_
    intro n hn
    cases s with
    | nil => simp at hn
    | cons a s => exact hpos n (by simp [List.dropLast]; exact Or.inr hn)
  termination_by sizeOf x

example : Rect (.list [.list [.leaf], .list [.leaf]]) [2, 1] :=
  .list (by simp; exact .list (s := []) (by simp; exact .leaf))

/-! ### C64: forwarding keyword arguments -/

private def cInt' : Cls := ⟨"builtins.int", "int"⟩
private def n (k : Nat) : Val := .obj k [cInt'] none
private def sig' : List Param :=
  [{ name := "a", ty := .cls cInt' }, { name := "b", ty := .any, default := some (n 1), allowNone := true }]

private theorem fmtLoop_spec (ps : List Param) : ∀ (kw : Dict String Val), (ps.map Param.name).Nodup → ReqFirst ps →
    (fmtLoop ps kw).1 = (ps.filter (fun p => p.default.isNone)).map (fun p => (Dict.get? kw p.name).getD .none) ∧
    (∀ k v, (k, v) ∈ (fmtLoop ps kw).2.1 ↔
      ∃ p ∈ ps, p.name = k ∧ p.default ≠ none ∧ v ≠ .none ∧ Dict.get? kw k = some v) ∧
    (Dict.keys (fmtLoop ps kw).2.1).Nodup ∧
    (fmtLoop ps kw).2.2 = kw.filter (fun kv => decide (kv.1 ∉ ps.map Param.name)) := by
  induction ps with
  | nil => intro kw _ _; simp [fmtLoop, Dict.keys]
  | cons p ps ih =>
    intro kw hn hr
    simp only [List.map_cons, List.nodup_cons] at hn
    obtain ⟨i1, i2, i3, i4⟩ := ih (kw.del p.name) hn.2 hr.2
    have hne : ∀ q ∈ ps, q.name ≠ p.name := fun q hq e => hn.1 (e ▸ List.mem_map_of_mem hq)
    have hreq : (ps.filter (fun p => p.default.isNone)).map (fun q => (Dict.get? (kw.del p.name) q.name).getD .none) =
        (ps.filter (fun p => p.default.isNone)).map (fun q => (Dict.get? kw q.name).getD .none) := by
      apply List.map_congr_left
      intro q hq
      rw [Dict.get?_del_ne (hne q (List.mem_of_mem_filter hq))]
    have hrest : (kw.del p.name).filter (fun kv => decide (kv.1 ∉ ps.map Param.name)) =
        kw.filter (fun kv => decide (kv.1 ∉ (p :: ps).map Param.name)) := by
      unfold Dict.del
      rw [List.filter_filter]
      congr 1
      funext kv
      by_cases h1 : kv.1 = p.name <;> simp [h1]
    have hmem : ∀ k v, (k, v) ∈ (fmtLoop ps (kw.del p.name)).2.1 ↔
        ∃ q ∈ ps, q.name = k ∧ q.default ≠ none ∧ v ≠ .none ∧ Dict.get? kw k = some v := by
      intro k v
      rw [i2 k v]
      constructor
      · rintro ⟨q, h1, rfl, h3, h4, h5⟩
        exact ⟨q, h1, rfl, h3, h4, by rw [Dict.get?_del_ne (hne q h1)] at h5; exact h5⟩
      · rintro ⟨q, h1, rfl, h3, h4, h5⟩
        exact ⟨q, h1, rfl, h3, h4, by rw [Dict.get?_del_ne (hne q h1)]; exact h5⟩
    have hpk : p.name ∉ Dict.keys (fmtLoop ps (kw.del p.name)).2.1 := by
      intro hc
      obtain ⟨⟨k, v⟩, hkv, hk⟩ := List.mem_map.1 hc
      simp only at hk; subst hk
      obtain ⟨q, h1, h2, -⟩ := (i2 p.name v).1 hkv
      exact hne q h1 h2
    cases hd : p.default with
    | none =>
      simp only [fmtLoop, hd]
      refine ⟨?_, ?_, i3, ?_⟩
      · rw [List.filter_cons_of_pos (by simp [hd]), List.map_cons, i1, hreq]
      · intro k v
        rw [hmem k v]
        constructor
        · rintro ⟨q, h1, h2⟩; exact ⟨q, List.mem_cons_of_mem _ h1, h2⟩
        · rintro ⟨q, h1, h2, h3, h4⟩
          rcases List.mem_cons.1 h1 with rfl | h1
          · exact absurd hd h3
          · exact ⟨q, h1, h2, h3, h4⟩
      · rw [i4, hrest]
    | some d =>
      simp only [fmtLoop, hd]
      by_cases hv : (Dict.get? kw p.name).getD .none = .none
      · simp only [hv, ne_eq, not_true, if_false]
        refine ⟨?_, ?_, i3, ?_⟩
        · rw [List.filter_cons_of_neg (by simp [hd]), i1, hreq]
        · intro k v
          rw [hmem k v]
          constructor
          · rintro ⟨q, h1, h2⟩; exact ⟨q, List.mem_cons_of_mem _ h1, h2⟩
          · rintro ⟨q, h1, h2, h3, h4, h5⟩
            rcases List.mem_cons.1 h1 with rfl | h1
            · subst h2; rw [h5] at hv; exact absurd hv h4
            · exact ⟨q, h1, h2, h3, h4, h5⟩
        · rw [i4, hrest]
      · simp only [hv, ne_eq, not_false_eq_true, if_true]
        refine ⟨?_, ?_, ?_, ?_⟩
        · rw [List.filter_cons_of_neg (by simp [hd]), i1, hreq]
        · intro k v
          rw [List.mem_cons, hmem k v]
          constructor
          · rintro (h | ⟨q, h1, h2⟩)
            · simp only [Prod.mk.injEq] at h
              obtain ⟨rfl, rfl⟩ := h
              refine ⟨p, List.mem_cons_self, rfl, by simp [hd], hv, ?_⟩
              cases hg : Dict.get? kw p.name with
              | none => simp [hg] at hv
              | some w => rfl
            · exact ⟨q, List.mem_cons_of_mem _ h1, h2⟩
          · rintro ⟨q, h1, rfl, h3, h4, h5⟩
            rcases List.mem_cons.1 h1 with rfl | h1
            · left; simp [h5]
            · exact Or.inr ⟨q, h1, rfl, h3, h4, h5⟩
        · simp only [Dict.keys, List.map_cons, List.nodup_cons]
          exact ⟨hpk, i3⟩
        · rw [i4, hrest]

/-- **C64 (partial).** If `call_docval_func(f, kw)` is accepted (function without `allow_extra`), every declared parameter
for which `kw` holds a value other than None receives that value, and parameters without a value in `kw` receive their
default.  Explicit None values are lost: `C64_forward_none_fails`. -/
theorem C64_forward_partial (cfg : Cfg) (sig : List Param) (kw ret : Dict String Val)
    (hx : cfg.allowExtra = false) (hn : (sig.map Param.name).Nodup)
    (h : callDocvalFunc cfg sig kw = .ok ret) (p : Param) (hp : p ∈ sig) :
    (∀ v, v ≠ .none → Dict.get? kw p.name = some v → Dict.get? ret p.name = some (delivered cfg p v)) ∧
    (∀ d, p.default = some d → p.name ∉ Dict.keys kw → Dict.get? ret p.name = some d) := by
  unfold callDocvalFunc at h
  obtain ⟨i1, i2, i3, -⟩ := fmtLoop_spec (reorder sig) kw (reorder_names_nodup.2 hn) (reqFirst_reorder sig)
  simp only [fmtDocvalArgs, hx, Bool.false_eq_true, if_false] at h
  have hlen : (fmtLoop (reorder sig) kw).1.length = (sig.filter (fun p => p.default.isNone)).length := by
    rw [i1, List.length_map]
    exact ((reorder_perm sig).filter _).length_eq
  have htake : (reorder sig).take (fmtLoop (reorder sig) kw).1.length = sig.filter (fun p => p.default.isNone) := by
    rw [hlen]; simp [reorder]
  obtain ⟨k, hk⟩ := List.mem_iff_getElem?.1 (mem_reorder.2 hp)
  have hpos := C03_position_partial cfg sig _ _ ret i3 (by
    intro q hq hd
    rw [htake] at hq
    have := (List.mem_filter.1 hq).2
    simp at this; exact absurd this hd) h k p hk
  obtain ⟨c1, c2, c3⟩ := hpos
  have hpnk : p.default = none → p.name ∉ Dict.keys (fmtLoop (reorder sig) kw).2.1 := by
    intro hd hc
    obtain ⟨⟨k', v'⟩, hkv, hk'⟩ := List.mem_map.1 hc
    simp only at hk'; subst hk'
    obtain ⟨q, h1, h2, h3, -⟩ := (i2 p.name v').1 hkv
    have : q = p := List.inj_on_of_nodup_map (reorder_names_nodup.2 hn) h1 (mem_reorder.2 hp) h2
    exact h3 (this ▸ hd)
  constructor
  · intro v hv hg
    cases hd : p.default with
    | some d => exact (c1 v ((i2 p.name v).2 ⟨p, mem_reorder.2 hp, rfl, by simp [hd], hv, hg⟩)).1
    | none =>
      have hm : p ∈ sig.filter (fun p => p.default.isNone) := List.mem_filter.2 ⟨hp, by simp [hd]⟩
      have hreo : (reorder sig).filter (fun p => p.default.isNone) = sig.filter (fun p => p.default.isNone) := by
        simp [reorder, List.filter_append, List.filter_filter]
      refine c2 (hpnk hd) v ?_
      rw [i1, hreo, List.getElem?_map]
      -- position of p among required is its position overall
      have hkl : k < (sig.filter (fun p => p.default.isNone)).length := by
        by_contra hc
        have : p ∈ sig.filter (fun p => p.default.isSome) := by
          unfold reorder at hk
          rw [List.getElem?_append_right (by omega)] at hk
          exact List.mem_of_getElem? hk
        have := (List.mem_filter.1 this).2
        simp [hd] at this
      unfold reorder at hk
      rw [List.getElem?_append_left hkl] at hk
      rw [hk]; simp [hg]
  · intro d hd hnk
    refine (fun h => ?_) (c3 ?_ ?_)
    · obtain ⟨d', hd', hr⟩ := h
      rw [hd] at hd'; simp at hd'; rw [hd']; exact hr
    · intro hc
      obtain ⟨⟨k', v'⟩, hkv, hk'⟩ := List.mem_map.1 hc
      simp only at hk'; subst hk'
      obtain ⟨q, -, -, -, -, h5⟩ := (i2 p.name v').1 hkv
      exact hnk (Dict.mem_keys_of_mem (Dict.mem_of_get? h5))
    · rw [List.getElem?_eq_none]
      rw [hlen]
      by_contra hc
      unfold reorder at hk
      rw [List.getElem?_append_left (by omega)] at hk
      have := (List.mem_filter.1 (List.mem_of_getElem? hk)).2
      simp [hd] at this

example : callDocvalFunc {} sig' [("b", n 5), ("a", n 7), ("zz", n 9)] = .ok [("a", n 7), ("b", n 5)] := by
  decide +kernel

/-- **C64 fails in full**: an explicit None for a parameter that allows None is replaced by the default. -/
theorem C64_forward_none_fails :
    callDocvalFunc {} sig' [("a", n 7), ("b", .none)] = .ok [("a", n 7), ("b", n 1)] ∧
    call {} sig' [] [("a", n 7), ("b", .none)] = .ok [("a", n 7), ("b", .none)] := by decide +kernel

end Verif.Utils

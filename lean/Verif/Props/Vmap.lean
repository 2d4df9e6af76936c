import Verif.Model.Vmap
import Verif.Base.Tac
import Mathlib.Logic.Relation

/-!
# Properties of the computation of valid types
-/

namespace Verif.Vmap
open Verif

/-- `x` is `k` or inherits from it through the included types -/
inductive Sub (types : List (String × Option String)) (k : String) : String → Prop
  | refl : Sub types k k
  | step {x y} : Sub types k x → (y, some x) ∈ types → Sub types k y

/-- the children recorded in the tree -/
def kidsOf (t : Tree) (k : String) : List String :=
  match Dict.get? t k with
  | some (.kids l) => l
  | _ => []

/-- reachable in the tree -/
inductive Reach (t : Tree) (k : String) : String → Prop
  | refl : Reach t k k
  | step {x y} : Reach t k x → y ∈ kidsOf t x → Reach t k y

theorem Reach.head {t : Tree} {k c x : String} (h : c ∈ kidsOf t k) (hr : Reach t c x) : Reach t k x := by
  induction hr with
  | refl => exact .step .refl h
  | step _ hy ih => exact .step ih hy

theorem Reach.cases_head {t : Tree} {k x : String} (h : Reach t k x) : x = k ∨ ∃ c ∈ kidsOf t k, Reach t c x := by
  induction h with
  | refl => exact Or.inl rfl
  | step hx hy ih =>
    rcases ih with rfl | ⟨c, hc, hcx⟩
    · exact Or.inr ⟨_, hy, .refl⟩
    · exact Or.inr ⟨c, hc, .step hcx hy⟩

/-- the state of the tree while it is being closed: every entry is as built or done with the right set -/
structure Inv (t0 t : Tree) : Prop where
  keys : Dict.keys t = Dict.keys t0
  entry : ∀ k n, Dict.get? t k = some n → (Dict.get? t0 k = some n ∧ ∃ l, n = .kids l) ∨
    ∃ l, n = .done l ∧ ∀ x, x ∈ l ↔ Reach t0 k x

theorem Inv.set_done {t0 t : Tree} (h : Inv t0 t) {k : String} (hk : k ∈ Dict.keys t0) {l : List String}
    (hl : ∀ x, x ∈ l ↔ Reach t0 k x) : Inv t0 (Dict.set t k (.done l)) := by
  refine ⟨?_, ?_⟩
  · rw [Dict.keys_set, h.keys, if_pos hk]
  · intro k' n hn
    rw [Dict.get?_set] at hn
    split at hn
    · rename_i he
      simp only [Option.some.injEq] at hn
      subst hn; subst he
      exact Or.inr ⟨l, rfl, hl⟩
    · exact h.entry k' n hn

/-- the call works, from any state satisfying the invariant, for a node whose rank is less than the bound -/
theorem rec_ok {t0 : Tree} (rank : String → Nat) (hrank : ∀ k c, c ∈ kidsOf t0 k → rank c < rank k)
    (hclosed : ∀ k c, c ∈ kidsOf t0 k → c ∈ Dict.keys t0) (f : Nat) :
    ∀ t k, Inv t0 t → k ∈ Dict.keys t0 → rank k < f →
      ∃ t' l, rec f t k = some (t', l) ∧ Inv t0 t' ∧ (∀ x, x ∈ l ↔ Reach t0 k x) ∧ Dict.get? t' k = some (.done l) ∧
        (∀ k' l', Dict.get? t k' = some (.done l') → Dict.get? t' k' = some (.done l')) := by
  induction f with
  | zero => intro t k _ _ h; omega
  | succ f ih =>
    intro t k hI hk hr
    simp only [rec]
    cases hg : Dict.get? t k with
    | none => rw [Dict.get?_eq_none_iff, hI.keys] at hg; exact absurd hk hg
    | some n =>
      rcases hI.entry k n hg with ⟨h0, l, rfl⟩ | ⟨l, rfl, hl⟩
      · simp only
        have hkids : kidsOf t0 k = l := by simp only [kidsOf, h0]
        have loop : ∀ (cs : List String) (t : Tree) (acc : List String), Inv t0 t → (∀ c ∈ cs, c ∈ kidsOf t0 k) →
            ∃ t' acc', recAll (rec f) t cs acc = some (t', acc') ∧ Inv t0 t' ∧
              (∀ x, x ∈ acc' ↔ x ∈ acc ∨ ∃ c ∈ cs, Reach t0 c x) ∧
              (∀ k' l', Dict.get? t k' = some (.done l') → Dict.get? t' k' = some (.done l')) := by
          intro cs
          induction cs with
          | nil => intro t acc hI _; exact ⟨t, acc, rfl, hI, by simp, fun _ _ h => h⟩
          | cons c cs ih' =>
            intro t acc hI hcs
            have hc := hcs c (by simp)
            have hrc : rank c < f := by have := hrank k c hc; omega
            obtain ⟨t1, l1, e1, I1, m1, -, p1⟩ := ih t c hI (hclosed k c hc) hrc
            obtain ⟨t2, acc2, e2, I2, m2, p2⟩ := ih' t1 (acc ++ l1) I1 (fun x hx => hcs x (by simp [hx]))
            refine ⟨t2, acc2, by simp only [recAll, e1, e2], I2, ?_, fun k' l' h => p2 _ _ (p1 _ _ h)⟩
            intro x
            rw [m2, List.mem_append, m1]
            simp only [List.mem_cons, exists_eq_or_imp]
            tauto
        obtain ⟨t', acc', e, I', m, p⟩ := loop l t [k] hI (fun c hc => by rw [hkids]; exact hc)
        have hm : ∀ x, x ∈ acc' ↔ Reach t0 k x := by
          intro x
          rw [m]
          constructor
          · rintro (hx | ⟨c, hc, hx⟩)
            · simp only [List.mem_singleton] at hx; subst hx; exact .refl
            · exact Reach.head (by rw [hkids]; exact hc) hx
          · intro hx
            rcases hx.cases_head with rfl | ⟨c, hc, hx⟩
            · simp
            · rw [hkids] at hc; exact Or.inr ⟨c, hc, hx⟩
        refine ⟨Dict.set t' k (.done acc'), acc', by rw [e]; rfl, I'.set_done hk hm, hm, Dict.get?_set_self, ?_⟩
        intro k' l' h
        rw [Dict.get?_set]
        by_cases hkk' : k' = k
        · subst hkk'
          rw [hg] at h
          simp at h
        · rw [if_neg hkk']; exact p _ _ h
      · exact ⟨t, l, rfl, hI, hl, hg, fun _ _ h => h⟩

theorem close_ok {t0 : Tree} (rank : String → Nat) (hrank : ∀ k c, c ∈ kidsOf t0 k → rank c < rank k)
    (hclosed : ∀ k c, c ∈ kidsOf t0 k → c ∈ Dict.keys t0) (f : Nat) (hf : ∀ k ∈ Dict.keys t0, rank k < f) :
    ∀ ks t, Inv t0 t → (∀ k ∈ ks, k ∈ Dict.keys t0) →
      ∃ t', close f t ks = some t' ∧ Inv t0 t' ∧ (∀ k ∈ ks, ∃ l, Dict.get? t' k = some (.done l)) ∧
        (∀ k' l', Dict.get? t k' = some (.done l') → Dict.get? t' k' = some (.done l')) := by
  intro ks
  induction ks with
  | nil => intro t hI _; exact ⟨t, rfl, hI, by simp, fun _ _ h => h⟩
  | cons k ks ih =>
    intro t hI hks
    obtain ⟨t1, l, e, I1, -, d, p⟩ := rec_ok rank hrank hclosed f t k hI (hks k (by simp)) (hf k (hks k (by simp)))
    obtain ⟨t2, e2, I2, d2, p2⟩ := ih t1 I1 (fun x hx => hks x (by simp [hx]))
    refine ⟨t2, by simp only [close, e, e2], I2, ?_, fun k' l' h => p2 _ _ (p _ _ h)⟩
    intro k' hk'
    rcases List.mem_cons.1 hk' with rfl | hk'
    · exact ⟨l, p2 _ _ d⟩
    · exact d2 k' hk'

theorem append_get (t : Tree) (parent child k : String) (h : ∀ l, Dict.get? t parent ≠ some (.done l)) :
    Dict.get? (append t parent child) k =
      if k = parent then some (.kids (kidsOf t parent ++ [child])) else Dict.get? t k := by
  unfold append kidsOf
  cases hg : Dict.get? t parent with
  | none => simp only [Dict.get?_set]; simp
  | some n =>
    cases n with
    | kids l => simp only [Dict.get?_set]
    | done l => exact absurd hg (h l)

/-- while the tree is built there are only lists of children -/
def Plain (t : Tree) : Prop := ∀ k l, Dict.get? t k ≠ some (.done l)

theorem Plain.append {t : Tree} (h : Plain t) (p c : String) : Plain (append t p c) := by
  intro k l
  rw [append_get t p c k (h p)]
  split
  · simp
  · exact h k l

theorem Plain.register {t : Tree} (h : Plain t) (p : String × Option String) : Plain (register t p) := by
  have h1 : Plain (Dict.set t p.1 (.kids [])) := by
    intro k l
    rw [Dict.get?_set]
    split
    · simp
    · exact h k l
  unfold Vmap.register
  cases p.2 with
  | none => exact h1
  | some q => exact h1.append q p.1

theorem kidsOf_register {t : Tree} (h : Plain t) (p : String × Option String) (k c : String) :
    c ∈ kidsOf (register t p) k ↔ (c ∈ kidsOf t k ∧ k ≠ p.1) ∨ (c = p.1 ∧ p.2 = some k) := by
  have h1 : Plain (Dict.set t p.1 (.kids [])) := by
    intro k l
    rw [Dict.get?_set]
    split
    · simp
    · exact h k l
  have h2 : ∀ k, kidsOf (Dict.set t p.1 (.kids [])) k = if k = p.1 then [] else kidsOf t k := by
    intro k
    unfold kidsOf
    rw [Dict.get?_set]
    by_cases hk : k = p.1 <;> simp [hk]
  unfold Vmap.register
  cases hp : p.2 with
  | none =>
    simp only [h2]
    by_cases hk : k = p.1 <;> simp [hk]
  | some q =>
    have h3 : kidsOf (append (Dict.set t p.1 (.kids [])) q p.1) k =
        if k = q then kidsOf (Dict.set t p.1 (.kids [])) q ++ [p.1] else kidsOf (Dict.set t p.1 (.kids [])) k := by
      conv_lhs => unfold kidsOf
      rw [append_get _ _ _ _ (h1 q)]
      by_cases hkq : k = q
      · simp [hkq]
      · rw [if_neg hkq, if_neg hkq]; rfl
    simp only
    rw [h3]
    by_cases hkq : k = q
    · subst hkq
      rw [if_pos rfl, List.mem_append, h2]
      by_cases hk : k = p.1
      · simp [hk]
      · simp [hk]
    · have hqk : ¬ q = k := fun e => hkq e.symm
      rw [if_neg hkq, h2]
      by_cases hk : k = p.1
      · subst hk; simp [hqk]
      · simp [hk, hqk]

theorem keys_register {t : Tree} (p : String × Option String) (k : String) :
    k ∈ Dict.keys (register t p) ↔ k ∈ Dict.keys t ∨ k = p.1 ∨ p.2 = some k := by
  unfold Vmap.register
  cases hp : p.2 with
  | none => simp only [Dict.mem_keys_set]; simp; tauto
  | some q =>
    simp only
    have h1 : ∀ k', k' ∈ Dict.keys (append (Dict.set t p.1 (.kids [])) q p.1) ↔
        k' = q ∨ k' ∈ Dict.keys (Dict.set t p.1 (.kids [])) := by
      intro k'
      unfold append
      split <;> rw [Dict.mem_keys_set]
    rw [h1, Dict.mem_keys_set]
    constructor
    · rintro (rfl | h | h)
      · simp
      · simp [h]
      · simp [h]
    · rintro (h | h | h)
      · simp [h]
      · simp [h]
      · left; simpa using h.symm

/-- in the order of registration, every included type has been registered before -/
def ParentsFirst : List String → List (String × Option String) → Prop
  | _, [] => True
  | seen, (c, p) :: rest => c ∉ seen ∧ (∀ q, p = some q → q ∈ seen) ∧ ParentsFirst (seen ++ [c]) rest

/-- what the tree records after registering in order: the types included, plain, and ranks falling from parent to child -/
theorem build_ok (rest : List (String × Option String)) : ∀ (pre : List (String × Option String)) (t : Tree),
    Plain t → (∀ k c, c ∈ kidsOf t k ↔ (c, some k) ∈ pre) → (∀ k, k ∈ Dict.keys t ↔ k ∈ pre.map Prod.fst) →
    (∀ c k, (c, some k) ∈ pre → k ∈ pre.map Prod.fst) →
    ParentsFirst (pre.map Prod.fst) rest →
    Plain (rest.foldl register t) ∧ (∀ k c, c ∈ kidsOf (rest.foldl register t) k ↔ (c, some k) ∈ pre ++ rest) ∧
      (∀ k, k ∈ Dict.keys (rest.foldl register t) ↔ k ∈ (pre ++ rest).map Prod.fst) := by
  induction rest with
  | nil => intro pre t h1 h2 h3 _ _; simp only [List.append_nil]; exact ⟨h1, h2, h3⟩
  | cons p rest ih =>
    intro pre t h1 h2 h3 h5 h4
    obtain ⟨c0, p0⟩ := p
    simp only [ParentsFirst] at h4
    obtain ⟨hc0, hp0, h4⟩ := h4
    have := ih (pre ++ [(c0, p0)]) (register t (c0, p0)) (h1.register _) ?_ ?_ ?_ (by simpa using h4)
    · simpa using this
    · intro k c
      rw [kidsOf_register h1, h2]
      simp only [List.mem_append, List.mem_singleton, Prod.mk.injEq]
      constructor
      · rintro (⟨h, -⟩ | ⟨h, h'⟩)
        · exact Or.inl h
        · exact Or.inr ⟨h, h'.symm⟩
      · rintro (h | ⟨h, h'⟩)
        · refine Or.inl ⟨h, ?_⟩
          rintro rfl
          exact hc0 (h5 _ _ h)
        · exact Or.inr ⟨h, h'.symm⟩
    · intro k
      rw [keys_register, h3]
      simp only [List.map_append, List.map_cons, List.map_nil, List.mem_append, List.mem_singleton]
      constructor
      · rintro (h | h | h)
        · exact Or.inl h
        · exact Or.inr h
        · exact Or.inl (hp0 k h)
      · rintro (h | h)
        · exact Or.inl h
        · exact Or.inr (Or.inl h)
    · intro c k h
      simp only [List.mem_append, List.mem_singleton, Prod.mk.injEq, List.map_append, List.map_cons, List.map_nil] at h ⊢
      rcases h with h | ⟨-, h⟩
      · exact Or.inl (h5 _ _ h)
      · exact Or.inl (hp0 k h.symm)

/-- a rank: the number of types registered from the first occurrence of the name on -/
def rankOf (types : List (String × Option String)) (k : String) : Nat := types.length - (types.map Prod.fst).idxOf k

theorem parentsFirst_idx (rest : List (String × Option String)) : ∀ (pre : List String), ParentsFirst pre rest → pre.Nodup →
    (pre ++ rest.map Prod.fst).Nodup ∧
    ∀ c k, (c, some k) ∈ rest → (pre ++ rest.map Prod.fst).idxOf k < (pre ++ rest.map Prod.fst).idxOf c := by
  induction rest with
  | nil => intro pre _ h; simpa using h
  | cons p rest ih =>
    intro pre h hn
    obtain ⟨c0, p0⟩ := p
    simp only [ParentsFirst] at h
    obtain ⟨hc, hp, h⟩ := h
    have hn' : (pre ++ [c0]).Nodup := by
      rw [List.nodup_append]
      refine ⟨hn, by simp, ?_⟩
      intro a ha b hb
      simp only [List.mem_singleton] at hb
      subst hb
      rintro rfl; exact hc ha
    obtain ⟨h1, h2⟩ := ih (pre ++ [c0]) h hn'
    have e : pre ++ [c0] ++ rest.map Prod.fst = pre ++ ((c0, p0) :: rest).map Prod.fst := by simp
    rw [e] at h1 h2
    refine ⟨h1, ?_⟩
    intro c k hm
    rcases List.mem_cons.1 hm with hm | hm
    · simp only [Prod.mk.injEq] at hm
      obtain ⟨rfl, hk⟩ := hm
      have hk' := hp k hk.symm
      rw [List.idxOf_append_of_mem hk', List.idxOf_append_of_notMem hc]
      have := List.idxOf_lt_length_of_mem hk'
      omega
    · exact h2 c k hm

/-- **C47 (partial).** For all inheritance forests registered with each type after the one it includes (and no type twice), the valid
types for every registered type are exactly itself and all types which inherit from it, directly or not; for any other name
there are none.  The bound on the depth of recursion is any number above that of types. -/
theorem C47_valid_types_partial (types : List (String × Option String)) (h : ParentsFirst [] types) (f : Nat) (hf : types.length < f) :
    ∃ t, validTypes f types = some t ∧
      (∀ k ∈ types.map Prod.fst, ∃ l, lookup t k = some l ∧ ∀ x, x ∈ l ↔ Sub types k x) ∧
      (∀ k, k ∉ types.map Prod.fst → lookup t k = none) := by
  obtain ⟨b1, b2, b3⟩ := build_ok types [] [] (by intro k l; simp) (by intro k c; simp [kidsOf]) (by intro k; simp [Dict.keys])
    (by simp) (by simpa using h)
  simp only [List.nil_append] at b2 b3
  have hidx := parentsFirst_idx types [] h (by simp)
  simp only [List.nil_append] at hidx
  have hReach : ∀ k x, Reach (build types) k x ↔ Sub types k x := by
    intro k x
    constructor
    · intro hr
      induction hr with
      | refl => exact .refl
      | step _ hy ih => exact .step ih ((b2 _ _).1 hy)
    · intro hr
      induction hr with
      | refl => exact .refl
      | step _ hy ih => exact .step ih ((b2 _ _).2 hy)
  obtain ⟨t, e, I, d, -⟩ := close_ok (t0 := build types) (rankOf types)
    (by
      intro k c hc
      have hm := (b2 k c).1 hc
      have := hidx.2 c k hm
      have hlt := List.idxOf_lt_length_of_mem (List.mem_map_of_mem (f := Prod.fst) hm)
      simp only [List.length_map] at hlt
      unfold rankOf
      omega)
    (by
      intro k c hc
      rw [show build types = types.foldl register [] from rfl, b3]
      exact List.mem_map_of_mem (f := Prod.fst) ((b2 k c).1 hc))
    f (by intro k _; unfold rankOf; omega) (Dict.keys (build types)) (build types)
    ⟨rfl, by
      intro k n hn
      left
      refine ⟨hn, ?_⟩
      cases n with
      | kids l => exact ⟨l, rfl⟩
      | done l => exact absurd hn (b1 k l)⟩
    (fun k hk => hk)
  refine ⟨t, e, ?_, ?_⟩
  · intro k hk
    have hk' : k ∈ Dict.keys (build types) := (b3 k).2 hk
    obtain ⟨l, hl⟩ := d k hk'
    refine ⟨l, by simp only [lookup, hl], ?_⟩
    intro x
    rw [← hReach]
    rcases I.entry k _ hl with ⟨-, l', h'⟩ | ⟨l', h', hx⟩
    · simp at h'
    · simp only [Node.done.injEq] at h'
      subst h'; exact hx x
  · intro k hk
    have hk' : k ∉ Dict.keys t := by
      rw [I.keys]
      exact fun hc => hk ((b3 k).1 hc)
    simp only [lookup, Dict.get?_eq_none_iff.2 hk']

/-- non-vacuity: a forest with two roots, three levels -/
example : ParentsFirst [] [("A", none), ("B", some "A"), ("C", some "B"), ("D", some "A"), ("E", none)] ∧
    (validTypes 6 [("A", none), ("B", some "A"), ("C", some "B"), ("D", some "A"), ("E", none)]).map
      (fun t => (lookup t "A", lookup t "B", lookup t "E", lookup t "F")) =
      some (some ["A", "B", "C", "D"], some ["B", "C"], some ["E"], none) := by
  constructor
  · simp [ParentsFirst]
  · decide +kernel

/-- **C47 fails** when a type is registered before the one it includes: it is lost from the valid types of the latter, because
registering that one empties the list. -/
theorem C47_order_fails : (validTypes 9 [("B", some "A"), ("A", none)]).map (fun t => lookup t "A") = some (some ["A"]) ∧
    Sub [("B", some "A"), ("A", none)] "A" "B" :=
  ⟨by decide +kernel, .step .refl (by simp)⟩

end Verif.Vmap

import Verif.Model.Vmatch
import Verif.Base.Tac
import Mathlib.Data.List.Perm.Basic

/-!
# Properties of the assignment of children to sub-specs and of the check of quantities
-/

namespace Verif.Vmatch
open Verif

/-- a child has the name (if any) and the type (if any; or a subtype) of a sub-spec -/
def Fits (valid : Valid) (s : Sub) (c : Child) : Prop :=
  (∀ n, s.name = some n → c.name = n) ∧ (∀ t, s.type = some t → ∃ l d, valid t = some l ∧ c.type = some d ∧ d ∈ l)

/-- every type named by the sub-specs is known -/
def Known (valid : Valid) (specs : List Sub) : Prop := ∀ s ∈ specs, ∀ t, s.type = some t → (valid t).isSome

theorem fit_true {valid : Valid} {s : Sub} {c : Child} : fit valid s c = .ok true ↔ Fits valid s c := by
  obtain ⟨sn, st, sq⟩ := s
  obtain ⟨cn, ct, cr, cl⟩ := c
  unfold fit Fits
  cases sn with
  | none =>
    cases st with
    | none => simp
    | some t => cases hv : valid t <;> cases ct <;> simp [hv]
  | some n =>
    by_cases hn : n = cn
    · subst hn
      cases st with
      | none => simp
      | some t => cases hv : valid t <;> cases ct <;> simp [hv]
    · have : ¬ cn = n := fun h => hn h.symm
      simp [hn, this]

theorem fit_false {valid : Valid} {s : Sub} {c : Child} (h : fit valid s c = .ok false) : ¬ Fits valid s c := by
  rw [← fit_true, h]; simp

theorem fit_known {valid : Valid} {s : Sub} (h : ∀ t, s.type = some t → (valid t).isSome) (c : Child) : ∃ b, fit valid s c = .ok b := by
  unfold fit
  split
  · cases hs : s.type with
    | none => exact ⟨_, rfl⟩
    | some t =>
      cases hv : valid t with
      | none => have := h t hs; simp [hv] at this
      | some l => exact ⟨(match c.type with | none => false | some d => l.contains d), by simp only [hv] <;> cases c.type <;> rfl⟩
  · exact ⟨_, rfl⟩

theorem candidates_spec {valid : Valid} {c : Child} {ms : List (Sub × List Child)} {i0 : Nat} {r : List (Nat × Sub × Nat)}
    (h : candidates valid c ms i0 = .ok r) :
    (∀ x ∈ r, ∃ k s l, ms[k]? = some (s, l) ∧ x = (i0 + k, s, l.length) ∧ Fits valid s c) ∧
    (∀ k s l, ms[k]? = some (s, l) → Fits valid s c → (i0 + k, s, l.length) ∈ r) := by
  induction ms generalizing i0 r with
  | nil => simp only [candidates, Except.ok.injEq] at h; subst h; simp
  | cons m ms ih =>
    obtain ⟨s, l⟩ := m
    simp only [candidates] at h
    cases hf : fit valid s c with
    | error e => simp [hf] at h
    | ok b =>
      simp only [hf] at h
      cases hc : candidates valid c ms (i0 + 1) with
      | error e => simp [hc] at h
      | ok r' =>
        simp only [hc, Except.ok.injEq] at h
        obtain ⟨h1, h2⟩ := ih hc
        subst h
        constructor
        · intro x hx
          have : x ∈ r' ∨ (b = true ∧ x = (i0, s, l.length)) := by
            cases b
            · left; simpa using hx
            · rcases List.mem_cons.1 (by simpa using hx) with hx | hx
              · exact Or.inr ⟨rfl, hx⟩
              · exact Or.inl hx
          clear hx
          rcases this with hx | ⟨hb, hx⟩
          · obtain ⟨k, s', l', hk, he, hF⟩ := h1 x hx
            exact ⟨k + 1, s', l', by simpa using hk, by rw [he]; congr 1; omega, hF⟩
          · subst hb
            exact ⟨0, s, l, by simp, hx, fit_true.1 hf⟩
        · intro k s' l' hk hF
          cases k with
          | zero =>
            simp only [List.getElem?_cons_zero, Option.some.injEq, Prod.mk.injEq] at hk
            obtain ⟨rfl, rfl⟩ := hk
            have hb : b = true := by
              have := fit_true.2 hF
              rw [hf] at this; simpa using this
            simp [hb]
          | succ k =>
            have := h2 k s' l' (by simpa using hk) hF
            have e : i0 + 1 + k = i0 + (k + 1) := by omega
            rw [e] at this
            cases b <;> simp [this]

theorem candidates_ok {valid : Valid} (c : Child) {ms : List (Sub × List Child)} (h : Known valid (ms.map Prod.fst)) (i0 : Nat) :
    ∃ r, candidates valid c ms i0 = .ok r := by
  induction ms generalizing i0 with
  | nil => exact ⟨_, rfl⟩
  | cons m ms ih =>
    obtain ⟨s, l⟩ := m
    obtain ⟨b, hb⟩ := fit_known (h s (by simp)) c
    obtain ⟨r, hr⟩ := ih (fun s' hs' => h s' (by simp only [List.map_cons, List.mem_cons]; right; exact hs')) (i0 + 1)
    exact ⟨if b then (i0, s, l.length) :: r else r, by simp only [candidates, hb, hr]⟩

theorem best_none {cs : List (Nat × Sub × Nat)} : best cs = none ↔ cs = [] := by
  match cs with
  | [] => simp [best]
  | [c] => simp [best]
  | c :: d :: cs =>
    simp only [best]
    split <;> simp

theorem best_mem {cs : List (Nat × Sub × Nat)} {i : Nat} (h : best cs = some i) : ∃ x ∈ cs, x.1 = i := by
  match cs with
  | [] => simp [best] at h
  | [c] => simp only [best, Option.some.injEq] at h; exact ⟨c, by simp, h⟩
  | c :: d :: cs =>
    simp only [best] at h
    split at h
    · simp only [Option.some.injEq] at h; exact ⟨c, by simp, h⟩
    · rename_i u us hu
      simp only [Option.some.injEq] at h
      have : u ∈ (c :: d :: cs).filter fun x => unsatisfied x.2.1.quantity x.2.2 := by rw [hu]; simp
      exact ⟨u, (List.mem_filter.1 this).1, h⟩

theorem addAt_fst (c : Child) (ms : List (Sub × List Child)) (i : Nat) : (addAt c ms i).map Prod.fst = ms.map Prod.fst := by
  induction ms generalizing i with
  | nil => rfl
  | cons m ms ih =>
    obtain ⟨s, l⟩ := m
    cases i <;> simp [addAt, ih]

theorem addAt_get (c : Child) (ms : List (Sub × List Child)) (i k : Nat) :
    (addAt c ms i)[k]? = (ms[k]?).map fun m => if k = i then (m.1, m.2 ++ [c]) else m := by
  induction ms generalizing i k with
  | nil => simp [addAt]
  | cons m ms ih =>
    obtain ⟨s, l⟩ := m
    cases i <;> cases k <;> simp [addAt, ih]

theorem addAt_perm (c : Child) (ms : List (Sub × List Child)) (i : Nat) (h : i < ms.length) :
    ((addAt c ms i).flatMap Prod.snd).Perm (c :: ms.flatMap Prod.snd) := by
  induction ms generalizing i with
  | nil => simp at h
  | cons m ms ih =>
    obtain ⟨s, l⟩ := m
    cases i with
    | zero =>
      simp only [addAt, List.flatMap_cons, List.append_assoc]
      exact List.perm_middle
    | succ i =>
      simp only [addAt, List.flatMap_cons]
      exact ((ih i (by simpa using h)).append_left l).trans List.perm_middle

/-- what holds of the state after the children `seen` -/
structure Inv (valid : Valid) (specs : List Sub) (seen : List Child) (st : St) : Prop where
  same : st.matches_.map Prod.fst = specs
  perm : (st.unmatched ++ st.matches_.flatMap Prod.snd).Perm seen
  fits : ∀ m ∈ st.matches_, ∀ c ∈ m.2, Fits valid m.1 c
  unfit : ∀ c ∈ st.unmatched, ∀ s ∈ specs, ¬ Fits valid s c

theorem inv_init (valid : Valid) (specs : List Sub) : Inv valid specs [] (init specs) := by
  have h1 : (init specs).matches_.map Prod.fst = specs := by
    simp only [init, List.map_map]
    induction specs with
    | nil => rfl
    | cons s ss ih => simpa using ih
  have h2 : (init specs).matches_.flatMap Prod.snd = [] := by simp [init]
  refine ⟨h1, ?_, ?_, ?_⟩
  · rw [h2]; simp [init]
  · intro m hm c hc
    simp only [init, List.mem_map] at hm
    obtain ⟨s, -, rfl⟩ := hm
    simp at hc
  · intro c hc; simp [init] at hc

theorem inv_step {valid : Valid} {specs : List Sub} {seen : List Child} {st st' : St} {c : Child} (hI : Inv valid specs seen st)
    (h : step valid st c = .ok st') : Inv valid specs (seen ++ [c]) st' := by
  simp only [step] at h
  cases hc : candidates valid c st.matches_ 0 with
  | error e => simp [hc] at h
  | ok cands =>
    obtain ⟨h1, h2⟩ := candidates_spec hc
    simp only [hc] at h
    cases hb : best cands with
    | none =>
      simp only [hb, Except.ok.injEq] at h
      subst h
      have he := best_none.1 hb
      subst he
      refine ⟨hI.same, ?_, hI.fits, ?_⟩
      · simp only [List.append_assoc]
        refine (List.Perm.append_left _ List.perm_append_comm).trans ?_
        rw [← List.append_assoc]
        exact hI.perm.append_right [c]
      · intro c' hc' s hs
        rcases List.mem_append.1 hc' with hc' | hc'
        · exact hI.unfit c' hc' s hs
        · simp only [List.mem_singleton] at hc'
          subst hc'
          intro hF
          rw [← hI.same] at hs
          obtain ⟨m, hm, rfl⟩ := List.mem_map.1 hs
          obtain ⟨k, hk⟩ := List.getElem?_of_mem hm
          simpa using h2 k m.1 m.2 hk hF
    | some i =>
      simp only [hb, Except.ok.injEq] at h
      subst h
      obtain ⟨x, hx, hxi⟩ := best_mem hb
      obtain ⟨k, s, l, hk, hxe, hF⟩ := h1 x hx
      have hik : i = k := by rw [← hxi, hxe]; simp
      subst hik
      have hlt : i < st.matches_.length := (List.getElem?_eq_some_iff.1 hk).1
      refine ⟨by rw [addAt_fst]; exact hI.same, ?_, ?_, hI.unfit⟩
      · have := (addAt_perm c st.matches_ i hlt).append_left st.unmatched
        refine this.trans ?_
        refine List.perm_middle.trans ?_
        refine (hI.perm.cons c).trans ?_
        exact (List.perm_append_singleton c seen).symm
      · intro m hm c' hc'
        obtain ⟨k', hk'⟩ := List.getElem?_of_mem hm
        rw [addAt_get] at hk'
        cases hg : st.matches_[k']? with
        | none => simp [hg] at hk'
        | some m0 =>
          simp only [hg, Option.map_some, Option.some.injEq] at hk'
          by_cases hki : k' = i
          · rw [if_pos hki] at hk'
            subst hk'
            subst hki
            rw [hk] at hg
            simp only [Option.some.injEq] at hg
            subst hg
            rcases List.mem_append.1 hc' with hc' | hc'
            · exact hI.fits _ (List.mem_of_getElem? hk) c' hc'
            · simp only [List.mem_singleton] at hc'
              subst hc'; exact hF
          · rw [if_neg hki] at hk'
            subst hk'
            exact hI.fits _ (List.mem_of_getElem? hg) c' hc'

theorem inv_assign {valid : Valid} {specs : List Sub} {seen cs : List Child} {st st' : St} (hI : Inv valid specs seen st)
    (h : assign valid st cs = .ok st') : Inv valid specs (seen ++ cs) st' := by
  induction cs generalizing st seen with
  | nil => simp only [assign, Except.ok.injEq] at h; subst h; simpa using hI
  | cons c cs ih =>
    simp only [assign] at h
    cases hs : step valid st c with
    | error e => simp [hs] at h
    | ok st1 =>
      simp only [hs] at h
      have := ih (inv_step hI hs) h
      simpa using this

/-- **C45 (assignment).** For all sub-specs and all lists of children, after `assign_to_specs` the children matched to the sub-specs
together with the unmatched ones are exactly the children given (each once), each matched child has the name and type of its
sub-spec, and an unmatched child fits no sub-spec. -/
theorem C45_assignment {valid : Valid} {specs : List Sub} {cs : List Child} {st : St} (h : assign valid (init specs) cs = .ok st) :
    st.matches_.map Prod.fst = specs ∧
    (st.unmatched ++ st.matches_.flatMap Prod.snd).Perm cs ∧
    (∀ m ∈ st.matches_, ∀ c ∈ m.2, Fits valid m.1 c) ∧
    (∀ c ∈ st.unmatched, ∀ s ∈ specs, ¬ Fits valid s c) := by
  have := inv_assign (inv_init valid specs) h
  exact ⟨this.same, by simpa using this.perm, this.fits, this.unfit⟩

/-- **C45 (total).** If every type named by the sub-specs is known, the assignment succeeds. -/
theorem C45_total {valid : Valid} {specs : List Sub} (hk : Known valid specs) (cs : List Child) :
    ∃ st, assign valid (init specs) cs = .ok st := by
  suffices h : ∀ (st : St), st.matches_.map Prod.fst = specs → ∃ st', assign valid st cs = .ok st' from
    h _ (inv_init valid specs).same
  induction cs with
  | nil => intro st _; exact ⟨st, rfl⟩
  | cons c cs ih =>
    intro st hst
    obtain ⟨r, hr⟩ := candidates_ok (valid := valid) c (ms := st.matches_) (by rw [hst]; exact hk) 0
    cases hb : best r with
    | none => obtain ⟨st', h'⟩ := ih { st with unmatched := st.unmatched ++ [c] } hst
              exact ⟨st', by simp only [assign, step, hr, hb, h']⟩
    | some i => obtain ⟨st', h'⟩ := ih { st with matches_ := addAt c st.matches_ i } (by rw [← hst]; exact addAt_fst ..)
                exact ⟨st', by simp only [assign, step, hr, hb, h']⟩

/-- the types `Base` and its subtype `Derived` -/
def exValid : Valid := fun t => if t = "Base" then some ["Base", "Derived"] else if t = "Derived" then some ["Derived"] else none

/-- the names of the children matched to each sub-spec and of those unmatched -/
def St.view (st : St) : List (List String) × List String := (st.matches_.map fun m => m.2.map Child.name, st.unmatched.map Child.name)

/-- non-vacuity -/
example : (assign exValid (init [⟨some "x", none, .num 1⟩, ⟨none, some "Base", .str "*"⟩])
    [⟨"x", none, 0, false⟩, ⟨"a", some "Derived", 0, false⟩, ⟨"y", none, 0, false⟩, ⟨"b", some "Base", 0, false⟩]).map St.view = .ok ([["x"], ["a", "b"]], ["y"]) ∧
    Known exValid [⟨some "x", none, .num 1⟩, ⟨none, some "Base", .str "*"⟩] := by
  constructor
  · decide +kernel
  · intro s hs t ht
    simp at hs
    rcases hs with rfl | rfl
    · simp at ht
    · simp at ht; subst ht; decide +kernel

/-- the numbers of children allowed by a quantity -/
def Allowed : Quantity → Nat → Prop
  | .num k, n => n = k
  | .str s, n => (s = "?" → n ≤ 1) ∧ (s = "+" → n ≥ 1)

/-- the quantities with a meaning: a positive number, `?`, `*`, `+` -/
def Meaningful : Quantity → Prop
  | .num k => k ≠ 0
  | .str s => s = "?" ∨ s = "*" ∨ s = "+"

/-- **C46 (partial).** For every number of children and every quantity (a positive number, `?`, `*` or `+`), an error is reported iff
the number is not allowed; and it is "missing" iff there are no children. -/
theorem C46_exact_partial (q : Quantity) (n : Nat) (h : Meaningful q) :
    (quantityError q n = none ↔ Allowed q n) ∧ (quantityError q n = some .missing ↔ ¬ Allowed q n ∧ n = 0) := by
  cases q with
  | num k =>
    simp only [Meaningful] at h
    simp only [quantityError, Quantity.required, incorrectQuantity, Quantity.isMany, Allowed]
    by_cases hn : n = 0
    · subst hn; simp; omega
    · have h1 : (n == 0) = false := by simpa using hn
      simp only [h1, Bool.false_and, Bool.false_eq_true, if_false]
      by_cases hk : k = 1
      · subst hk
        by_cases h2 : n = 1
        · subst h2; simp
        · have : n > 1 := by omega
          simp [this, h2, hn]
      · by_cases h3 : n = k
        · subst h3; simp [hk, hn]
        · simp [hk, hn, h3]
  | str s =>
    simp only [Meaningful] at h
    rcases h with rfl | rfl | rfl
    · simp only [quantityError, Quantity.required, incorrectQuantity, Quantity.isMany, Allowed]
      by_cases h1 : n ≤ 1 <;> simp <;> omega
    · simp [quantityError, Quantity.required, incorrectQuantity, Quantity.isMany, Allowed]
    · by_cases h1 : n = 0
      · subst h1; simp [quantityError, Quantity.required, incorrectQuantity, Quantity.isMany, Allowed]
      · simp [quantityError, Quantity.required, incorrectQuantity, Quantity.isMany, Allowed, h1]; omega

/-- non-vacuity -/
example : Meaningful (.num 3) ∧ quantityError (.num 3) 2 = some .incorrect ∧ quantityError (.num 3) 0 = some .missing ∧
    quantityError (.str "+") 7 = none ∧ quantityError (.str "?") 2 = some .incorrect := by
  refine ⟨by simp [Meaningful], ?_⟩; decide +kernel

/-- **C46 fails** for the quantity 0, where the absence of children is reported as missing, and for the spelled-out quantities (accepted
by `DatasetSpec` with a default value), which are required and unlimited. -/
theorem C46_fails : quantityError (.num 0) 0 = some .missing ∧ quantityError (.str "zero_or_one") 0 = some .missing ∧
    quantityError (.str "zero_or_one") 2 = none ∧ quantityError (.str "zero_or_many") 0 = some .missing := by decide +kernel

theorem candidates_sorted {valid : Valid} {c : Child} {ms : List (Sub × List Child)} {i0 : Nat} {r : List (Nat × Sub × Nat)}
    (h : candidates valid c ms i0 = .ok r) : r.Pairwise (fun x y => x.1 < y.1) := by
  induction ms generalizing i0 r with
  | nil => simp only [candidates, Except.ok.injEq] at h; subst h; exact .nil
  | cons m ms ih =>
    obtain ⟨s, l⟩ := m
    simp only [candidates] at h
    cases hf : fit valid s c with
    | error e => simp [hf] at h
    | ok b =>
      simp only [hf] at h
      cases hc : candidates valid c ms (i0 + 1) with
      | error e => simp [hc] at h
      | ok r' =>
        simp only [hc, Except.ok.injEq] at h
        subst h
        cases b with
        | false => exact ih hc
        | true =>
          rw [if_pos rfl]
          refine List.Pairwise.cons ?_ (ih hc)
          intro x hx
          obtain ⟨k, s', l', -, rfl, -⟩ := (candidates_spec hc).1 x hx
          simp only; omega

/-- the least number of children for a quantity -/
def least : Quantity → Nat
  | .num k => k
  | .str s => if s = "+" then 1 else 0

theorem unsatisfied_iff {q : Quantity} (h : Meaningful q) (n : Nat) : unsatisfied q n = true ↔ n < least q := by
  cases q with
  | num k =>
    simp only [Meaningful] at h
    by_cases hn : n = 0
    · subst hn; simp [unsatisfied, Quantity.required, least]; omega
    · simp [unsatisfied, least, hn]
  | str s =>
    simp only [Meaningful] at h
    rcases h with rfl | rfl | rfl <;> simp [unsatisfied, Quantity.required, least]

theorem best_choice {cs : List (Nat × Sub × Nat)} {i : Nat} (hs : cs.Pairwise (fun x y => x.1 < y.1)) (h : best cs = some i) :
    ((∃ x ∈ cs, unsatisfied x.2.1.quantity x.2.2 = true) →
      ∃ x ∈ cs, x.1 = i ∧ unsatisfied x.2.1.quantity x.2.2 = true ∧ ∀ y ∈ cs, y.1 < i → unsatisfied y.2.1.quantity y.2.2 = false) ∧
    ((∀ x ∈ cs, unsatisfied x.2.1.quantity x.2.2 = false) → ∀ y ∈ cs, i ≤ y.1) := by
  have hfirst : ∀ (l : List (Nat × Sub × Nat)) u us, l.Pairwise (fun x y => x.1 < y.1) → l = u :: us → ∀ y ∈ l, u.1 ≤ y.1 := by
    rintro l u us hl rfl y hy
    rcases List.mem_cons.1 hy with rfl | hy
    · exact Nat.le_refl _
    · exact Nat.le_of_lt (List.rel_of_pairwise_cons hl hy)
  match cs, hs, h with
  | [], _, h => simp [best] at h
  | [c], _, h =>
    simp only [best, Option.some.injEq] at h
    subst h
    constructor
    · rintro ⟨x, hx, hu⟩
      simp only [List.mem_singleton] at hx
      subst hx
      exact ⟨x, by simp, rfl, hu, by intro y hy hlt; simp only [List.mem_singleton] at hy; subst hy; omega⟩
    · intro _ y hy
      simp only [List.mem_singleton] at hy
      subst hy; exact Nat.le_refl _
  | c :: d :: cs, hs, h =>
    simp only [best] at h
    split at h
    · rename_i he
      simp only [Option.some.injEq] at h
      subst h
      constructor
      · rintro ⟨x, hx, hu⟩
        have : x ∈ (c :: d :: cs).filter fun x => unsatisfied x.2.1.quantity x.2.2 := List.mem_filter.2 ⟨hx, hu⟩
        rw [he] at this; simp at this
      · intro _; exact hfirst _ c _ hs rfl
    · rename_i u us he
      simp only [Option.some.injEq] at h
      have hu : u ∈ (c :: d :: cs).filter fun x => unsatisfied x.2.1.quantity x.2.2 := by rw [he]; simp
      obtain ⟨hu1, hu2⟩ := List.mem_filter.1 hu
      constructor
      · intro _
        refine ⟨u, hu1, h, hu2, ?_⟩
        intro y hy hlt
        by_contra hc
        have hy' : y ∈ (c :: d :: cs).filter fun x => unsatisfied x.2.1.quantity x.2.2 :=
          List.mem_filter.2 ⟨hy, by simpa using hc⟩
        have := hfirst _ u us (hs.filter _) he y hy'
        omega
      · intro hall
        have := hall u hu1
        rw [hu2] at this; simp at this

/-- the sub-spec at `i` fits the child and has fewer children than it needs -/
def Needs (valid : Valid) (st : St) (c : Child) (i : Nat) : Prop :=
  ∃ s l, st.matches_[i]? = some (s, l) ∧ Fits valid s c ∧ l.length < least s.quantity

/-- the sub-spec at `i` fits the child -/
def FitsAt (valid : Valid) (st : St) (c : Child) (i : Nat) : Prop := ∃ s l, st.matches_[i]? = some (s, l) ∧ Fits valid s c

/-- **C45 (choice).** From any state of the matcher, a child which fits some sub-spec is added to exactly one: the first of those it fits
which have fewer children than they need, or the first it fits if there is none. -/
theorem C45_choice {valid : Valid} {st st' : St} {c : Child} (hq : ∀ m ∈ st.matches_, Meaningful m.1.quantity)
    (h : step valid st c = .ok st') (hf : ∃ i, FitsAt valid st c i) :
    st'.unmatched = st.unmatched ∧ ∃ i, FitsAt valid st c i ∧
      (∀ j : Nat, st'.matches_[j]? = (st.matches_[j]?).map fun m => if j = i then (m.1, m.2 ++ [c]) else m) ∧
      ((∃ j, Needs valid st c j) → Needs valid st c i ∧ ∀ j < i, ¬ Needs valid st c j) ∧
      ((∀ j, ¬ Needs valid st c j) → ∀ j < i, ¬ FitsAt valid st c j) := by
  simp only [step] at h
  cases hc : candidates valid c st.matches_ 0 with
  | error e => simp [hc] at h
  | ok cands =>
    obtain ⟨h1, h2⟩ := candidates_spec hc
    simp only [Nat.zero_add] at h1 h2
    simp only [hc] at h
    cases hb : best cands with
    | none =>
      have he := best_none.1 hb
      subst he
      obtain ⟨i, s, l, hi, hF⟩ := hf
      simpa using h2 i s l hi hF
    | some i =>
      simp only [hb, Except.ok.injEq] at h
      subst h
      obtain ⟨x, hx, hxi⟩ := best_mem hb
      obtain ⟨b1, b2⟩ := best_choice (candidates_sorted hc) hb
      have hneeds : ∀ j, Needs valid st c j ↔ ∃ y ∈ cands, y.1 = j ∧ unsatisfied y.2.1.quantity y.2.2 = true := by
        intro j
        constructor
        · rintro ⟨s, l, hj, hF, hlt⟩
          exact ⟨_, h2 j s l hj hF, rfl, (unsatisfied_iff (hq _ (List.mem_of_getElem? hj)) _).2 hlt⟩
        · rintro ⟨y, hy, rfl, hu⟩
          obtain ⟨k, s, l, hk, rfl, hF⟩ := h1 y hy
          exact ⟨s, l, hk, hF, (unsatisfied_iff (hq _ (List.mem_of_getElem? hk)) _).1 hu⟩
      refine ⟨rfl, i, ?_, fun j => addAt_get c st.matches_ i j, ?_, ?_⟩
      · obtain ⟨k, s, l, hk, rfl, hF⟩ := h1 x hx
        simp only at hxi
        subst hxi
        exact ⟨s, l, hk, hF⟩
      · rintro ⟨j, hj⟩
        obtain ⟨y, hy, -, hu⟩ := (hneeds j).1 hj
        obtain ⟨z, hz, hzi, hzu, hzmin⟩ := b1 ⟨y, hy, hu⟩
        refine ⟨(hneeds i).2 ⟨z, hz, hzi, hzu⟩, ?_⟩
        intro j' hlt hN
        obtain ⟨w, hw, hwj, hwu⟩ := (hneeds j').1 hN
        have := hzmin w hw (by omega)
        rw [hwu] at this; simp at this
      · intro hno j hlt hF
        obtain ⟨s, l, hj, hF⟩ := hF
        have := b2 (by
          intro y hy
          by_contra hcon
          exact hno y.1 ((hneeds y.1).2 ⟨y, hy, rfl, by simpa using hcon⟩)) _ (h2 j s l hj hF)
        simp only at this
        omega

/-- non-vacuity: the second `Base` goes to the second sub-spec, which needs one; the third to the first -/
example : (assign exValid (init [⟨none, some "Base", .num 1⟩, ⟨none, some "Base", .str "+"⟩])
    [⟨"a", some "Base", 0, false⟩, ⟨"b", some "Base", 0, false⟩, ⟨"c", some "Base", 0, false⟩]).map St.view = .ok ([["a", "c"], ["b"]], []) := by decide +kernel

/-- every child has at most one sub-spec it fits -/
def Unambiguous (valid : Valid) (specs : List Sub) (cs : List Child) : Prop :=
  ∀ c ∈ cs, ∀ (i j : Nat) s s', specs[i]? = some s → specs[j]? = some s' → Fits valid s c → Fits valid s' c → i = j

/-- the children a sub-spec could have -/
noncomputable def fitting (valid : Valid) (s : Sub) (cs : List Child) : List Child :=
  open Classical in cs.filter fun c => Fits valid s c

theorem unambiguous_step {valid : Valid} {specs : List Sub} {seen : List Child} {st st' : St} {c : Child}
    (hI : Inv valid specs seen st)
    (hu : ∀ (i j : Nat) s s', specs[i]? = some s → specs[j]? = some s' → Fits valid s c → Fits valid s' c → i = j)
    (hm : ∀ m ∈ st.matches_, m.2 = fitting valid m.1 seen) (h : step valid st c = .ok st') :
    ∀ m ∈ st'.matches_, m.2 = fitting valid m.1 (seen ++ [c]) := by
  classical
  have hget : ∀ (k : Nat) s l, st.matches_[k]? = some (s, l) → specs[k]? = some s := by
    intro k s l hk
    rw [← hI.same, List.getElem?_map, hk]; rfl
  have happ : ∀ s, fitting valid s (seen ++ [c]) = fitting valid s seen ++ (if Fits valid s c then [c] else []) := by
    intro s
    simp only [fitting, List.filter_append, List.filter_cons, List.filter_nil, decide_eq_true_eq]
  simp only [step] at h
  cases hc : candidates valid c st.matches_ 0 with
  | error e => simp [hc] at h
  | ok cands =>
    obtain ⟨h1, h2⟩ := candidates_spec hc
    simp only [hc] at h
    cases hb : best cands with
    | none =>
      simp only [hb, Except.ok.injEq] at h
      subst h
      have he := best_none.1 hb
      subst he
      intro m hmm
      obtain ⟨k, hk⟩ := List.getElem?_of_mem hmm
      have : ¬ Fits valid m.1 c := fun hF => by simpa using h2 k m.1 m.2 hk hF
      rw [happ, if_neg this, hm m hmm, List.append_nil]
    | some i =>
      simp only [hb, Except.ok.injEq] at h
      subst h
      obtain ⟨x, hx, hxi⟩ := best_mem hb
      obtain ⟨k, s, l, hk, hxe, hF⟩ := h1 x hx
      have hik : i = k := by rw [← hxi, hxe]; simp
      subst hik
      intro m hmm
      obtain ⟨k', hk'⟩ := List.getElem?_of_mem hmm
      rw [addAt_get] at hk'
      cases hg : st.matches_[k']? with
      | none => simp [hg] at hk'
      | some m0 =>
        simp only [hg, Option.map_some, Option.some.injEq] at hk'
        by_cases hki : k' = i
        · rw [if_pos hki] at hk'
          subst hk'
          subst hki
          rw [hk] at hg
          simp only [Option.some.injEq] at hg
          subst hg
          rw [happ, if_pos hF]
          simp only
          rw [← hm _ (List.mem_of_getElem? hk)]
        · rw [if_neg hki] at hk'
          subst hk'
          have : ¬ Fits valid m0.1 c := fun hF' =>
            hki (hu k' i m0.1 s (hget _ m0.1 m0.2 hg) (hget _ _ _ hk) hF' hF)
          rw [happ, if_neg this, List.append_nil]
          exact hm _ (List.mem_of_getElem? hg)

/-- **C45 (unambiguous).** If every child fits at most one sub-spec, each sub-spec gets exactly the children which fit it, in order. -/
theorem C45_unambiguous {valid : Valid} {specs : List Sub} {cs : List Child} {st : St} (hu : Unambiguous valid specs cs)
    (h : assign valid (init specs) cs = .ok st) : ∀ m ∈ st.matches_, m.2 = fitting valid m.1 cs := by
  suffices hh : ∀ (seen : List Child) (st0 : St), Inv valid specs seen st0 → (∀ m ∈ st0.matches_, m.2 = fitting valid m.1 seen) →
      assign valid st0 cs = .ok st → ∀ m ∈ st.matches_, m.2 = fitting valid m.1 (seen ++ cs) by
    have := hh [] _ (inv_init valid specs) (by
      intro m hm
      simp only [init, List.mem_map] at hm
      obtain ⟨s, -, rfl⟩ := hm
      simp [fitting]) h
    simpa using this
  clear h
  induction cs with
  | nil => intro seen st0 _ hm h; simp only [assign, Except.ok.injEq] at h; subst h; simpa using hm
  | cons c cs ih =>
    intro seen st0 hI hm h
    simp only [assign] at h
    cases hs : step valid st0 c with
    | error e => simp [hs] at h
    | ok st1 =>
      simp only [hs] at h
      have := ih (fun c' hc' => hu c' (by simp [hc'])) (seen ++ [c]) st1 (inv_step hI hs)
        (unambiguous_step hI (hu c (by simp)) hm hs) h
      simpa using this

/-- an assignment of the children: every child to a sub-spec it fits (or to none if it fits none), the numbers being allowed -/
def Assignable (valid : Valid) (specs : List Sub) (cs : List Child) : Prop :=
  ∃ ms : List (Sub × List Child), ms.map Prod.fst = specs ∧
    (∃ un, (un ++ ms.flatMap Prod.snd).Perm cs ∧ ∀ c ∈ un, ∀ s ∈ specs, ¬ Fits valid s c) ∧
    (∀ m ∈ ms, ∀ c ∈ m.2, Fits valid m.1 c) ∧ ∀ m ∈ ms, Allowed m.1.quantity m.2.length

theorem noErrors_iff (st : St) (hq : ∀ m ∈ st.matches_, Meaningful m.1.quantity) :
    quantityErrors st = [] ↔ ∀ m ∈ st.matches_, Allowed m.1.quantity m.2.length := by
  simp only [quantityErrors, List.filterMap_eq_nil_iff]
  constructor
  · intro h m hm; exact (C46_exact_partial _ _ (hq m hm)).1.1 (h m hm)
  · intro h m hm; exact (C46_exact_partial _ _ (hq m hm)).1.2 (h m hm)

/-- **C81 (sound).** For all sub-specs and children: if no error about quantities is reported, there is an assignment of the children
which respects the names, types and quantities. -/
theorem C81_sound {valid : Valid} {specs : List Sub} {cs : List Child} {st : St} (hq : ∀ s ∈ specs, Meaningful s.quantity)
    (h : assign valid (init specs) cs = .ok st) (he : quantityErrors st = []) : Assignable valid specs cs := by
  obtain ⟨h1, h2, h3, h4⟩ := C45_assignment h
  refine ⟨st.matches_, h1, ⟨_, h2, h4⟩, h3, ?_⟩
  apply (noErrors_iff st _).1 he
  intro m hm
  exact hq _ (by rw [← h1]; exact List.mem_map_of_mem hm)

/-- **C81 (complete, partial).** If moreover every child fits at most one sub-spec, errors about quantities are reported only if there is
no such assignment. -/
theorem C81_complete_partial {valid : Valid} {specs : List Sub} {cs : List Child} {st : St} (hq : ∀ s ∈ specs, Meaningful s.quantity)
    (hu : Unambiguous valid specs cs) (h : assign valid (init specs) cs = .ok st) (ha : Assignable valid specs cs) :
    quantityErrors st = [] := by
  classical
  obtain ⟨h1, h2, h3, h4⟩ := C45_assignment h
  have hq' : ∀ m ∈ st.matches_, Meaningful m.1.quantity := fun m hm => hq _ (by rw [← h1]; exact List.mem_map_of_mem hm)
  apply (noErrors_iff st hq').2
  obtain ⟨ms, g1, ⟨un, g2, g4⟩, g3, g5⟩ := ha
  intro m hm
  obtain ⟨k, hk⟩ := List.getElem?_of_mem hm
  have hks : specs[k]? = some m.1 := by rw [← h1, List.getElem?_map, hk]; rfl
  have : (ms.map Prod.fst)[k]? = some m.1 := by rw [g1]; exact hks
  rw [List.getElem?_map] at this
  cases hg : ms[k]? with
  | none => simp [hg] at this
  | some m' =>
    simp only [hg, Option.map_some, Option.some.injEq] at this
    have hA := g5 m' (List.mem_of_getElem? hg)
    rw [this] at hA
    have hlen : m.2.length = m'.2.length := by
      rw [C45_unambiguous hu h m hm]
      have hperm : (fitting valid m.1 (un ++ ms.flatMap Prod.snd)).Perm (fitting valid m.1 cs) := g2.filter _
      rw [← hperm.length_eq]
      have hun : fitting valid m.1 un = [] := by
        simp only [fitting, List.filter_eq_nil_iff, decide_eq_true_eq]
        intro c hc; exact g4 c hc m.1 (List.mem_of_getElem? hks)
      have happ : fitting valid m.1 (un ++ ms.flatMap Prod.snd) = fitting valid m.1 un ++ fitting valid m.1 (ms.flatMap Prod.snd) := by
        simp [fitting]
      rw [happ, hun, List.nil_append]
      -- only the k-th entry contributes
      have key : ∀ (l : List (Sub × List Child)) (o : Nat), (∀ (i : Nat) x, l[i]? = some x → (specs[o + i]? = some x.1 ∧
          (∀ c ∈ x.2, Fits valid x.1 c ∧ c ∈ cs))) → o ≤ k →
          ∀ x, l[k - o]? = some x → fitting valid m.1 (l.flatMap Prod.snd) = x.2 := by
        intro l
        induction l with
        | nil => intro o _ _ x hx; simp at hx
        | cons y l ih =>
          intro o hl hok x hx
          have hsplit : fitting valid m.1 ((y :: l).flatMap Prod.snd) = fitting valid m.1 y.2 ++ fitting valid m.1 (l.flatMap Prod.snd) := by
            simp [fitting]
          rw [hsplit]
          obtain ⟨y1, y2⟩ := hl 0 y rfl
          simp only [Nat.add_zero] at y1
          by_cases hko : k = o
          · subst hko
            simp only [Nat.sub_self, List.getElem?_cons_zero, Option.some.injEq] at hx
            subst hx
            have e1 : fitting valid m.1 y.2 = y.2 := by
              rw [hks] at y1
              simp only [Option.some.injEq] at y1
              simp only [fitting, List.filter_eq_self, decide_eq_true_eq]
              intro c hc; rw [y1]; exact (y2 c hc).1
            have e2 : fitting valid m.1 (l.flatMap Prod.snd) = [] := by
              simp only [fitting, List.filter_eq_nil_iff, decide_eq_true_eq]
              intro c hc hF
              obtain ⟨z, hz, hcz⟩ := List.mem_flatMap.1 hc
              obtain ⟨i, hi⟩ := List.getElem?_of_mem hz
              obtain ⟨z1, z2⟩ := hl (i + 1) z (by simpa using hi)
              have := hu c (z2 c hcz).2 k (k + (i + 1)) m.1 z.1 hks z1 hF (z2 c hcz).1
              omega
            rw [e1, e2, List.append_nil]
          · have e1 : fitting valid m.1 y.2 = [] := by
              simp only [fitting, List.filter_eq_nil_iff, decide_eq_true_eq]
              intro c hc hF
              have := hu c (y2 c hc).2 k o m.1 y.1 hks y1 hF (y2 c hc).1
              omega
            rw [e1, List.nil_append]
            apply ih (o + 1) _ (by omega) x
            · have : k - o = (k - (o + 1)) + 1 := by omega
              rw [this] at hx
              simpa using hx
            · intro i x' hx'
              have := hl (i + 1) x' (by simpa using hx')
              have e : o + 1 + i = o + (i + 1) := by omega
              rw [e]; exact this
      have := key ms 0 (by
        intro i x hx
        refine ⟨by rw [← g1, List.getElem?_map, Nat.zero_add, hx]; rfl, ?_⟩
        intro c hc
        refine ⟨g3 x (List.mem_of_getElem? hx) c hc, ?_⟩
        apply g2.mem_iff.1
        simp only [List.mem_append, List.mem_flatMap]
        exact Or.inr ⟨x, List.mem_of_getElem? hx, hc⟩) (Nat.zero_le k) m' (by simpa using hg)
      rw [this]
    rw [hlen]; exact hA

/-- non-vacuity: an unnamed `Base` and a named `x` without type -/
example : Unambiguous exValid [⟨some "x", none, .num 1⟩, ⟨none, some "Base", .str "+"⟩] [⟨"x", none, 0, false⟩, ⟨"a", some "Derived", 0, false⟩] ∧
    (assign exValid (init [⟨some "x", none, .num 1⟩, ⟨none, some "Base", .str "+"⟩]) [⟨"x", none, 0, false⟩, ⟨"a", some "Derived", 0, false⟩]).map
      quantityErrors = .ok [] := by
  constructor
  · intro c hc i j s s' hi hj h1 h2
    have hlen : ∀ (k : Nat) (x : Sub), ([⟨some "x", none, .num 1⟩, ⟨none, some "Base", .str "+"⟩] : List Sub)[k]? = some x →
        (k = 0 ∧ x = ⟨some "x", none, .num 1⟩) ∨ (k = 1 ∧ x = ⟨none, some "Base", .str "+"⟩) := by
      intro k x hk
      match k, hk with
      | 0, hk => left; simp at hk; exact ⟨rfl, hk.symm⟩
      | 1, hk => right; simp at hk; exact ⟨rfl, hk.symm⟩
      | k + 2, hk => simp at hk
    simp only [List.mem_cons, List.not_mem_nil, or_false] at hc
    have hx : ∀ c' : Child, (c' = ⟨"x", none, 0, false⟩ ∨ c' = ⟨"a", some "Derived", 0, false⟩) →
        Fits exValid ⟨some "x", none, .num 1⟩ c' → Fits exValid ⟨none, some "Base", .str "+"⟩ c' → False := by
      rintro c' (rfl | rfl) f1 f2
      · obtain ⟨l, d, -, hd, -⟩ := f2.2 "Base" rfl
        simp at hd
      · have := f1.1 "x" rfl
        simp at this
    rcases hlen i s hi with ⟨rfl, rfl⟩ | ⟨rfl, rfl⟩ <;> rcases hlen j s' hj with ⟨rfl, rfl⟩ | ⟨rfl, rfl⟩
    · rfl
    · exact (hx c hc h1 h2).elim
    · exact (hx c hc h2 h1).elim
    · rfl
  · decide +kernel

/-- **C81 fails** when sub-specs overlap: a `Derived` and a `Base` child for the sub-specs "one `Base`" and "one `Derived`" are reported
in one order (the greedy choice gives the `Derived` child to the first sub-spec), though an assignment exists, which is found
in the other order. -/
theorem C81_fails :
    (assign exValid (init [⟨none, some "Base", .num 1⟩, ⟨none, some "Derived", .num 1⟩]) [⟨"d", some "Derived", 0, false⟩, ⟨"b", some "Base", 0, false⟩]).map
      quantityErrors = .ok [.incorrect, .missing] ∧
    (assign exValid (init [⟨none, some "Base", .num 1⟩, ⟨none, some "Derived", .num 1⟩]) [⟨"b", some "Base", 0, false⟩, ⟨"d", some "Derived", 0, false⟩]).map
      quantityErrors = .ok [] := by decide +kernel

end Verif.Vmatch

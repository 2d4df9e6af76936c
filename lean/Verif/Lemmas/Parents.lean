import Verif.Model.Parents

/-! Lemmas about `Verif.Parents`. -/

namespace Verif.Parents
open Verif

theorem upd_self {α : Type} {f : Nat → α} {b : Nat} {x : α} : upd f b x b = x := by simp [upd]

theorem upd_ne {α : Type} {f : Nat → α} {b c : Nat} {x : α} (h : c ≠ b) : upd f b x c = f c := by simp [upd, h]

/-- The parents of a parent are the rest of the parents. -/
def Chained (E : Env) : Prop := ∀ b p rest, (E b).above = p :: rest → (E p).above = rest

theorem parentDt_mem {E : Env} {l : List Nat} {p : Nat} (h : parentDt E l = some p) : p ∈ l := by
  induction l with
  | nil => cases h
  | cons a l ih =>
    cases l with
    | nil =>
      simp only [parentDt, Option.some.injEq] at h
      subst h
      exact List.mem_cons_self ..
    | cons q rest =>
      unfold parentDt at h
      split at h
      · cases h
        exact List.mem_cons_self ..
      · exact List.mem_cons_of_mem _ (ih h)

/-- a builder's location is that of the builder above with its name -/
theorem upNames_above {E : Env} (hE : Chained E) {l : List Nat} {b : Nat} (hl : (E b).above = l) :
    upNames E l = match parentDt E l with
      | none => []
      | some p => (E p).name :: upNames E (E p).above := by
  induction l generalizing b with
  | nil => rfl
  | cons a l ih =>
    have ha := hE b a l hl
    cases l with
    | nil => simp [upNames, parentDt, ha]
    | cons q rest =>
      have e1 : upNames E (a :: q :: rest) =
          if (E a).typ.isSome then (E a).name :: upNames E (q :: rest) else upNames E (q :: rest) := rfl
      have e2 : parentDt E (a :: q :: rest) = if (E a).typ.isSome then some a else parentDt E (q :: rest) := rfl
      rw [e1, e2]
      by_cases ht : (E a).typ.isSome
      · rw [if_pos ht, if_pos ht]
        simp only [ha]
      · rw [if_neg ht, if_neg ht]
        exact ih ha

theorem above_lt {E : Env} (hE : Chained E) {b p : Nat} (h : p ∈ (E b).above) :
    (E p).above.length < (E b).above.length := by
  generalize hl : (E b).above = l at h
  induction l generalizing b with
  | nil => cases h
  | cons a l ih =>
    have ha := hE b a l hl
    rcases List.mem_cons.1 h with rfl | h
    · rw [ha, List.length_cons]
      exact Nat.lt_succ_self _
    · have := ih ha h
      rw [List.length_cons]
      omega

theorem locB {E : Env} (hE : Chained E) (b : Nat) : (proxyB E b).loc =
    match parentDt E (E b).above with
    | none => [(E b).name]
    | some p => (proxyB E p).loc ++ [(E b).name] := by
  unfold proxyB
  simp only
  rw [upNames_above hE rfl]
  cases parentDt E (E b).above <;> simp

/-! ### What holds for every environment -/

/-- children have the container as parent -/
def Kids (s : State) : Prop := ∀ p c, c ∈ s.kids p → s.par c = .cont p

/-- the parents of two states are the same but for those that got a container, or candidates -/
structure Step (s s' : State) : Prop where
  cont : ∀ {c p}, s.par c = .cont p → s'.par c = .cont p
  proxy : ∀ {c pr cs}, s.par c = .proxy pr cs → (∃ cs', s'.par c = .proxy pr cs') ∨ ∃ p, s'.par c = .cont p

theorem adopt_made (E : Env) (p : Nat) (s : State) (c : Nat) : (adopt E p s c).made = s.made := by
  unfold adopt
  split
  · rfl
  · rfl
  · split <;> rfl

theorem adopt_par_ne (E : Env) {p : Nat} {s : State} {c d : Nat} (h : d ≠ c) : (adopt E p s c).par d = s.par d := by
  unfold adopt
  split
  · rfl
  · exact upd_ne h
  · split
    · exact upd_ne h
    · exact upd_ne h

theorem adopt_par (E : Env) (p : Nat) (s : State) (c : Nat) :
    (adopt E p s c).par c = match s.par c with
      | .cont q => .cont q
      | .none => .cont p
      | .proxy pr cs => if proxyC E s (s.made.length + 2) p = some pr then .cont p else .proxy pr (cs ++ [p]) := by
  unfold adopt
  cases h : s.par c with
  | cont q => exact h
  | none => exact upd_self
  | proxy pr cs =>
    simp only
    split
    · exact upd_self
    · exact upd_self

theorem adopt_kids {E : Env} {p : Nat} {s : State} {c : Nat} (h : Kids s) : Kids (adopt E p s c) := by
  have new : ∀ s' : State, (∀ q, s.par c ≠ .cont q) → s'.par = upd s.par c (.cont p) →
      s'.kids = upd s.kids p (s.kids p ++ [c]) → Kids s' := by
    intro s' hc h1 h2 q d hd
    have old : d ∈ s.kids q → s'.par d = .cont q := by
      intro hd
      have hdq := h q d hd
      by_cases e : d = c
      · subst e
        exact absurd hdq (hc q)
      · rw [h1, upd_ne e]
        exact hdq
    rw [h2] at hd
    by_cases e : q = p
    · subst e
      rw [upd_self] at hd
      rcases List.mem_append.1 hd with hd | hd
      · exact old hd
      · rw [List.mem_singleton] at hd
        subst hd
        rw [h1, upd_self]
    · rw [upd_ne e] at hd
      exact old hd
  unfold adopt
  cases hc : s.par c with
  | cont q => exact h
  | none => exact new _ (by rw [hc]; simp) rfl rfl
  | proxy pr cs =>
    simp only
    split
    · exact new _ (by rw [hc]; simp) rfl rfl
    · intro q d hd
      have hdq := h q d hd
      by_cases e : d = c
      · subst e
        rw [hc] at hdq
        cases hdq
      · show upd s.par c _ d = _
        rw [upd_ne e]
        exact hdq

theorem adopts_made (E : Env) (p : Nat) (cs : List Nat) (s : State) : (cs.foldl (adopt E p) s).made = s.made := by
  induction cs generalizing s with
  | nil => rfl
  | cons c cs ih => rw [List.foldl_cons, ih, adopt_made]

theorem adopts_par_notin (E : Env) {p : Nat} {cs : List Nat} {s : State} {d : Nat} (h : d ∉ cs) :
    (cs.foldl (adopt E p) s).par d = s.par d := by
  induction cs generalizing s with
  | nil => rfl
  | cons c cs ih =>
    rw [List.foldl_cons, ih fun hd => h (List.mem_cons_of_mem _ hd)]
    exact adopt_par_ne E fun e => h (by rw [e]; exact List.mem_cons_self ..)

theorem adopts_kids {E : Env} {p : Nat} {cs : List Nat} {s : State} (h : Kids s) : Kids (cs.foldl (adopt E p) s) := by
  induction cs generalizing s with
  | nil => exact h
  | cons c cs ih => exact ih (adopt_kids h)

theorem constructAll_nil {E : Env} {n : Nat} {s : State} : constructAll E n s [] = .ok s := rfl

theorem constructAll_cons {E : Env} {n : Nat} {s : State} {b : Nat} {bs : List Nat} :
    constructAll E n s (b :: bs) = match construct E n s b with
      | .error e => .error e
      | .ok s' => constructAll E n s' bs := rfl

theorem construct_succ {E : Env} {n : Nat} {s : State} {b : Nat} :
    construct E (n + 1) s b = if s.made.contains b then .ok s
      else match constructAll E n s (E b).vals with
        | .error e => .error e
        | .ok s' => .ok (make E s' b) := rfl

/-- A property of states that making a container keeps holds after construction. -/
theorem construct_induct {E : Env} {P : State → Prop} {Q : Nat → Prop} (hQ : ∀ b, ∀ c ∈ (E b).vals, Q c)
    (hm : ∀ s b, P s → Q b → b ∉ s.made → (∀ c ∈ (E b).vals, c ∈ s.made) → P (make E s b))
    (rank : Nat → Nat) (hr : ∀ b, ∀ c ∈ (E b).vals, rank c < rank b) :
    ∀ n, (∀ s b s', P s → Q b → construct E n s b = .ok s' →
        P s' ∧ s.made ⊆ s'.made ∧ b ∈ s'.made ∧ ∀ d ∈ s'.made, d ∈ s.made ∨ rank d ≤ rank b) ∧
      ∀ bs s s' k, P s → (∀ b ∈ bs, Q b) → (∀ b ∈ bs, rank b < k) → constructAll E n s bs = .ok s' →
        P s' ∧ s.made ⊆ s'.made ∧ (∀ b ∈ bs, b ∈ s'.made) ∧ ∀ d ∈ s'.made, d ∈ s.made ∨ rank d < k := by
  have all : ∀ n, (∀ s b s', P s → Q b → construct E n s b = .ok s' →
        P s' ∧ s.made ⊆ s'.made ∧ b ∈ s'.made ∧ ∀ d ∈ s'.made, d ∈ s.made ∨ rank d ≤ rank b) →
      ∀ bs s s' k, P s → (∀ b ∈ bs, Q b) → (∀ b ∈ bs, rank b < k) → constructAll E n s bs = .ok s' →
        P s' ∧ s.made ⊆ s'.made ∧ (∀ b ∈ bs, b ∈ s'.made) ∧ ∀ d ∈ s'.made, d ∈ s.made ∨ rank d < k := by
    intro n hn bs
    induction bs with
    | nil =>
      intro s s' k hP _ _ h
      simp only [constructAll_nil, Except.ok.injEq] at h
      subst h
      exact ⟨hP, List.Subset.refl _, by simp, fun d hd => .inl hd⟩
    | cons b bs ih =>
      intro s s' k hP hq hk h
      rw [constructAll_cons] at h
      split at h
      · cases h
      · next s1 h1 =>
        obtain ⟨a1, a2, a3, a4⟩ := hn s b s1 hP (hq b (List.mem_cons_self ..)) h1
        obtain ⟨b1, b2, b3, b4⟩ := ih s1 s' k a1 (fun c hc => hq c (List.mem_cons_of_mem _ hc)) (fun c hc => hk c (List.mem_cons_of_mem _ hc)) h
        refine ⟨b1, fun d hd => b2 (a2 hd), ?_, ?_⟩
        · intro c hc
          rcases List.mem_cons.1 hc with rfl | hc
          · exact b2 a3
          · exact b3 c hc
        · intro d hd
          rcases b4 d hd with h | h
          · rcases a4 d h with h | h
            · exact .inl h
            · exact .inr (Nat.lt_of_le_of_lt h (hk b (List.mem_cons_self ..)))
          · exact .inr h
  intro n
  induction n with
  | zero =>
    have : ∀ s b s', P s → Q b → construct E 0 s b = .ok s' →
        P s' ∧ s.made ⊆ s'.made ∧ b ∈ s'.made ∧ ∀ d ∈ s'.made, d ∈ s.made ∨ rank d ≤ rank b := by
      intro s b s' _ _ h
      simp [construct] at h
    exact ⟨this, all 0 this⟩
  | succ n ih =>
    have : ∀ s b s', P s → Q b → construct E (n + 1) s b = .ok s' →
        P s' ∧ s.made ⊆ s'.made ∧ b ∈ s'.made ∧ ∀ d ∈ s'.made, d ∈ s.made ∨ rank d ≤ rank b := by
      intro s b s' hP hq h
      rw [construct_succ] at h
      split at h
      · next hb =>
        cases h
        exact ⟨hP, List.Subset.refl _, by simpa using hb, fun d hd => .inl hd⟩
      · next hb =>
        have hb : b ∉ s.made := by simpa using hb
        split at h
        · cases h
        · next s1 h1 =>
          cases h
          obtain ⟨a1, a2, a3, a4⟩ := ih.2 _ _ _ (rank b) hP (hQ b) (hr b) h1
          have hb1 : b ∉ s1.made := by
            intro hm
            rcases a4 b hm with h | h
            · exact hb h
            · exact Nat.lt_irrefl _ h
          have hmade : (make E s1 b).made = s1.made ++ [b] := by
            unfold make
            simp only
            rw [adopts_made]
          refine ⟨hm s1 b a1 hq hb1 a3, ?_, ?_, ?_⟩
          · intro d hd
            rw [hmade]
            exact List.mem_append_left _ (a2 hd)
          · rw [hmade]
            simp
          · intro d hd
            rw [hmade] at hd
            rcases List.mem_append.1 hd with hd | hd
            · rcases a4 d hd with h | h
              · exact .inl h
              · exact .inr (Nat.le_of_lt h)
            · rw [List.mem_singleton] at hd
              subst hd
              exact .inr (Nat.le_refl _)
    exact ⟨this, all _ this⟩

/-- construction ends if links do not lead round and the recursion limit is high enough -/
theorem construct_total {E : Env} {rank : Nat → Nat} (hr : ∀ b, ∀ c ∈ (E b).vals, rank c < rank b) :
    ∀ n, (∀ s b, rank b < n → ∃ s', construct E n s b = .ok s') ∧
      ∀ bs s, (∀ b ∈ bs, rank b < n) → ∃ s', constructAll E n s bs = .ok s' := by
  have all : ∀ n, (∀ s b, rank b < n → ∃ s', construct E n s b = .ok s') →
      ∀ bs s, (∀ b ∈ bs, rank b < n) → ∃ s', constructAll E n s bs = .ok s' := by
    intro n hn bs
    induction bs with
    | nil => exact fun s _ => ⟨s, by simp [constructAll_nil]⟩
    | cons b bs ih =>
      intro s h
      obtain ⟨s1, h1⟩ := hn s b (h b (List.mem_cons_self ..))
      obtain ⟨s2, h2⟩ := ih s1 fun c hc => h c (List.mem_cons_of_mem _ hc)
      refine ⟨s2, ?_⟩
      rw [constructAll_cons]
      simp only [h1, h2]
  intro n
  induction n with
  | zero =>
    have : ∀ s b, rank b < 0 → ∃ s', construct E 0 s b = .ok s' := fun s b h => absurd h (Nat.not_lt_zero _)
    exact ⟨this, all 0 this⟩
  | succ n ih =>
    have : ∀ s b, rank b < n + 1 → ∃ s', construct E (n + 1) s b = .ok s' := by
      intro s b h
      rw [construct_succ]
      by_cases hb : s.made.contains b
      · rw [if_pos hb]
        exact ⟨s, rfl⟩
      · rw [if_neg hb]
        obtain ⟨s1, h1⟩ := ih.2 (E b).vals s fun c hc => by have := hr b c hc; omega
        exact ⟨make E s1 b, by simp only [h1]⟩
    exact ⟨this, all _ this⟩

/-! ### The invariant -/

/-- Names and types of containers are those of their builders; no two builders with a type have the same source, location
and type; links do not lead round; and what is in a builder is constructed with it. -/
structure Faithful (E : Env) (rank : Nat → Nat) : Prop where
  chained : Chained E
  name : ∀ b, (E b).cname = (E b).name
  typ : ∀ b, (E b).typ.isSome → (E b).typ = some (E b).ctype
  typed : ∀ b, ∀ c ∈ (E b).vals, (E c).typ.isSome
  distinct : ∀ p q, (E p).typ.isSome → (E q).typ.isSome → proxyB E p = proxyB E q → p = q
  rank : ∀ b, ∀ c ∈ (E b).vals, rank c < rank b
  inside : ∀ c p, (E c).typ.isSome → (E p).typ.isSome → parentDt E (E c).above = some p → c ∈ (E p).vals

/-- what holds of the containers made so far -/
structure Inv (E : Env) (s : State) : Prop where
  typed : ∀ c ∈ s.made, (E c).typ.isSome
  closed : ∀ p ∈ s.made, ∀ c ∈ (E p).vals, c ∈ s.made
  top : ∀ c ∈ s.made, parentDt E (E c).above = none → s.par c = .none ∨ ∃ q, s.par c = .cont q ∧ c ∈ (E q).vals
  below : ∀ c ∈ s.made, ∀ p, parentDt E (E c).above = some p →
    (∃ cs, s.par c = .proxy (proxyB E p) cs) ∨ (s.par c = .cont p ∧ p ∈ s.made)
  real : ∀ c ∈ s.made, ∀ p ∈ s.made, parentDt E (E c).above = some p → s.par c = .cont p

/-- the proxy of a container that has just been made is that of its builder -/
theorem proxyC_first {E : Env} {rank : Nat → Nat} (hE : Faithful E rank) {s : State} {b n : Nat}
    (ht : (E b).typ.isSome) (h : s.par b = firstPar E b) : proxyC E s (n + 1) b = some (proxyB E b) := by
  have hl := locB hE.chained b
  unfold proxyC locC
  unfold firstPar at h
  rw [h]
  cases hp : parentDt E (E b).above with
  | none =>
    rw [hp] at hl
    simp only at hl
    simp only [Option.map_some, hE.name, ← hl, ← hE.typ b ht]
    rfl
  | some p =>
    rw [hp] at hl
    simp only at hl
    simp only [Option.map_some, hE.name, ← hl, ← hE.typ b ht]
    rfl

theorem adopts_par_first {E : Env} {rank : Nat → Nat} (hE : Faithful E rank) {b : Nat} (hb : (E b).typ.isSome) :
    ∀ (cs : List Nat) (s : State), s.par b = firstPar E b → b ∉ cs → ∀ c ∈ cs,
      (∀ q, s.par c = .cont q → (cs.foldl (adopt E b) s).par c = .cont q) ∧
      (s.par c = .none → (cs.foldl (adopt E b) s).par c = .cont b) ∧
      (∀ pr l, s.par c = .proxy pr l → (pr = proxyB E b → (cs.foldl (adopt E b) s).par c = .cont b) ∧
        (pr ≠ proxyB E b → ∃ l', (cs.foldl (adopt E b) s).par c = .proxy pr l')) := by
  have cont : ∀ (cs : List Nat) (s : State) (c q : Nat), s.par c = .cont q → (cs.foldl (adopt E b) s).par c = .cont q := by
    intro cs
    induction cs with
    | nil => exact fun s c q h => h
    | cons d cs ih =>
      intro s c q h
      refine ih _ c q ?_
      by_cases e : c = d
      · subst e
        rw [adopt_par, h]
      · rw [adopt_par_ne E e]
        exact h
  have other : ∀ (cs : List Nat) (s : State) (c : Nat) (pr : Proxy) (l : List Nat), s.par b = firstPar E b → b ∉ cs →
      pr ≠ proxyB E b → s.par c = .proxy pr l → ∃ l', (cs.foldl (adopt E b) s).par c = .proxy pr l' := by
    intro cs
    induction cs with
    | nil => exact fun s c pr l _ _ _ h => ⟨l, h⟩
    | cons d cs ih =>
      intro s c pr l h0 hn hpr h
      have hbd : b ≠ d := fun e => hn (by rw [e]; exact List.mem_cons_self ..)
      have h0' : (adopt E b s d).par b = firstPar E b := by rw [adopt_par_ne E hbd]; exact h0
      have hn' : b ∉ cs := fun h => hn (List.mem_cons_of_mem _ h)
      by_cases e : c = d
      · subst e
        have := adopt_par E b s c
        rw [h] at this
        simp only at this
        rw [proxyC_first hE hb h0, if_neg (fun e => hpr (Option.some.inj e).symm)] at this
        exact ih _ c pr _ h0' hn' hpr this
      · exact ih _ c pr l h0' hn' hpr (by rw [adopt_par_ne E e]; exact h)
  intro cs
  induction cs with
  | nil => intro s _ _ c hc; cases hc
  | cons d cs ih =>
    intro s h0 hn c hc
    have hbd : b ≠ d := fun e => hn (by rw [e]; exact List.mem_cons_self ..)
    have h0' : (adopt E b s d).par b = firstPar E b := by rw [adopt_par_ne E hbd]; exact h0
    have hn' : b ∉ cs := fun h => hn (List.mem_cons_of_mem _ h)
    refine ⟨fun q hq => cont (d :: cs) s c q hq, ?_, ?_⟩
    · intro hp
      by_cases e : c = d
      · subst e
        refine cont cs _ c b ?_
        rw [adopt_par, hp]
      · rcases List.mem_cons.1 hc with hc | hc
        · exact absurd hc e
        · refine (ih _ h0' hn' c hc).2.1 ?_
          rw [adopt_par_ne E e]
          exact hp
    · intro pr l hp
      refine ⟨fun hpr => ?_, fun hpr => other (d :: cs) s c pr l h0 hn hpr hp⟩
      by_cases e : c = d
      · subst e
        refine cont cs _ c b ?_
        have := adopt_par E b s c
        rw [hp] at this
        simp only at this
        rw [proxyC_first hE hb h0, if_pos (by rw [hpr])] at this
        exact this
      · rcases List.mem_cons.1 hc with hc | hc
        · exact absurd hc e
        · refine ((ih _ h0' hn' c hc).2.2 pr l ?_).1 hpr
          rw [adopt_par_ne E e]
          exact hp

theorem make_made (E : Env) (s : State) (b : Nat) : (make E s b).made = s.made ++ [b] := by
  unfold make
  simp only
  rw [adopts_made]

theorem make_par (E : Env) (s : State) (b : Nat) : (make E s b).par =
    ((E b).vals.foldl (adopt E b) { s with par := upd s.par b (firstPar E b) }).par := rfl

theorem Inv.make {E : Env} {rank : Nat → Nat} (hE : Faithful E rank) {s : State} {b : Nat} (h : Inv E s)
    (ht : (E b).typ.isSome) (hb : b ∉ s.made) (hv : ∀ c ∈ (E b).vals, c ∈ s.made) : Inv E (make E s b) := by
  have hbv : b ∉ (E b).vals := fun hm => hb (hv b hm)
  have h0 : ({ s with par := upd s.par b (firstPar E b) } : State).par b = firstPar E b := upd_self
  have hparb : (Parents.make E s b).par b = firstPar E b := by
    rw [make_par, adopts_par_notin E hbv]
    exact h0
  have hparne : ∀ c ∈ s.made, c ∉ (E b).vals → (Parents.make E s b).par c = s.par c := by
    intro c hc hcv
    rw [make_par, adopts_par_notin E hcv]
    exact upd_ne fun e => hb (by rw [← e]; exact hc)
  have hval := fun c hc => adopts_par_first hE ht (E b).vals _ h0 hbv c hc
  have hold : ∀ c ∈ s.made, ({ s with par := upd s.par b (firstPar E b) } : State).par c = s.par c := by
    intro c hc
    exact upd_ne fun e => hb (by rw [← e]; exact hc)
  have hmem : ∀ c, c ∈ (Parents.make E s b).made ↔ c ∈ s.made ∨ c = b := by
    intro c
    rw [make_made, List.mem_append, List.mem_singleton]
  have below : ∀ c ∈ s.made, ∀ p, parentDt E (E c).above = some p →
      ((∃ cs, (Parents.make E s b).par c = .proxy (proxyB E p) cs) ∧ ∀ q, s.par c ≠ .cont q) ∨
        ((Parents.make E s b).par c = .cont p ∧ (p ∈ s.made ∨ p = b)) := by
    intro c hc p hp
    by_cases hcv : c ∈ (E b).vals
    · obtain ⟨v1, -, v3⟩ := hval c hcv
      rw [hold c hc] at v1 v3
      rcases h.below c hc p hp with ⟨cs, h1⟩ | ⟨h1, h2⟩
      · by_cases e : proxyB E p = proxyB E b
        · have hpt : (E p).typ.isSome := by
            have := congrArg Proxy.typ e
            simp only [proxyB] at this
            rw [this]
            exact ht
          have hpb := hE.distinct p b hpt ht e
          subst hpb
          exact .inr ⟨(v3 _ cs h1).1 rfl, .inr rfl⟩
        · refine .inl ⟨(v3 _ cs h1).2 e, ?_⟩
          rw [h1]
          simp
      · exact .inr ⟨v1 p h1, .inl h2⟩
    · rw [hparne c hc hcv]
      rcases h.below c hc p hp with ⟨cs, h1⟩ | ⟨h1, h2⟩
      · exact .inl ⟨⟨cs, h1⟩, by rw [h1]; simp⟩
      · exact .inr ⟨h1, .inl h2⟩
  constructor
  · intro c hc
    rcases (hmem c).1 hc with hc | rfl
    · exact h.typed c hc
    · exact ht
  · intro p hp c hc
    rcases (hmem p).1 hp with hp | rfl
    · exact (hmem c).2 (.inl (h.closed p hp c hc))
    · exact (hmem c).2 (.inl (hv c hc))
  · intro c hc hp
    rcases (hmem c).1 hc with hc | rfl
    · by_cases hcv : c ∈ (E b).vals
      · obtain ⟨v1, v2, -⟩ := hval c hcv
        rw [hold c hc] at v1 v2
        rcases h.top c hc hp with h1 | ⟨q, h1, hq⟩
        · exact .inr ⟨b, v2 h1, hcv⟩
        · exact .inr ⟨q, v1 q h1, hq⟩
      · rw [hparne c hc hcv]
        exact h.top c hc hp
    · left
      rw [hparb]
      unfold firstPar
      rw [hp]
  · intro c hc p hp
    rcases (hmem c).1 hc with hc | rfl
    · rcases below c hc p hp with ⟨h1, -⟩ | ⟨h1, h2⟩
      · exact .inl h1
      · exact .inr ⟨h1, (hmem p).2 h2⟩
    · left
      rw [hparb]
      unfold firstPar
      rw [hp]
      exact ⟨[], rfl⟩
  · intro c hc p hp hcp
    rcases (hmem c).1 hc with hc' | rfl
    · clear hc
      have hc := hc'
      rcases (hmem p).1 hp with hp | rfl
      · rcases below c hc p hcp with ⟨-, h2⟩ | ⟨h1, -⟩
        · exact absurd (h.real c hc p hp hcp) (h2 p)
        · exact h1
      · have hcv := hE.inside c p (h.typed c hc) ht hcp
        obtain ⟨v1, -, v3⟩ := hval c hcv
        rw [hold c hc] at v1 v3
        rcases h.below c hc p hcp with ⟨cs, h1⟩ | ⟨h1, h2⟩
        · exact (v3 _ cs h1).1 rfl
        · exact v1 p h1
    · exfalso
      rcases (hmem p).1 hp with hp | rfl
      · exact hb (h.closed p hp c (hE.inside c p ht (h.typed p hp) hcp))
      · exact hbv (hE.inside p p ht ht hcp)

theorem Inv.empty (E : Env) : Inv E {} :=
  ⟨by simp, by simp, by simp, by simp, by simp⟩

theorem Inv.all {E : Env} {rank : Nat → Nat} (hE : Faithful E rank) {n : Nat} {bs : List Nat}
    (hb : ∀ b ∈ bs, (E b).typ.isSome) {s : State} (h : constructAll E n {} bs = .ok s) :
    Inv E s ∧ ∀ b ∈ bs, b ∈ s.made := by
  have := (construct_induct (P := Inv E) (Q := fun b => (E b).typ.isSome) hE.typed
    (fun s b hP hq hm hv => Inv.make hE hP hq hm hv) rank hE.rank n).2 bs {} s
  have hk : ∀ b ∈ bs, rank b < (bs.map rank).sum + 1 := by
    intro b hb
    have : rank b ≤ (bs.map rank).sum := by
      clear h this
      induction bs with
      | nil => cases hb
      | cons a bs ih =>
        rw [List.map_cons, List.sum_cons]
        rcases List.mem_cons.1 hb with rfl | hb
        · omega
        · have := ih (fun b hb' => (by assumption : ∀ b ∈ a :: bs, (E b).typ.isSome) b (List.mem_cons_of_mem _ hb')) hb
          omega
    omega
  obtain ⟨h1, -, h3, -⟩ := this _ (Inv.empty E) hb hk h
  exact ⟨h1, h3⟩

theorem Kids.make {E : Env} {s : State} {b : Nat} (h : Kids s) (hc : ∀ p c, c ∈ s.kids p → c ∈ s.made) (hb : b ∉ s.made) :
    Kids (make E s b) := by
  refine adopts_kids (s := { s with par := upd s.par b (firstPar E b) }) ?_
  intro p c hcp
  show upd s.par b _ c = _
  rw [upd_ne fun e => hb (by rw [← e]; exact hc p c hcp)]
  exact h p c hcp

theorem adopt_kids_mem {E : Env} {p : Nat} {s : State} {c q d : Nat} (h : d ∈ (adopt E p s c).kids q) :
    d ∈ s.kids q ∨ d = c := by
  have new : d ∈ upd s.kids p (s.kids p ++ [c]) q → d ∈ s.kids q ∨ d = c := by
    intro h
    by_cases e : q = p
    · subst e
      rw [upd_self] at h
      rcases List.mem_append.1 h with h | h
      · exact .inl h
      · exact .inr (List.mem_singleton.1 h)
    · rw [upd_ne e] at h
      exact .inl h
  unfold adopt at h
  split at h
  · exact .inl h
  · exact new h
  · split at h
    · exact new h
    · exact .inl h

theorem adopts_kids_mem {E : Env} {p : Nat} {cs : List Nat} {s : State} {q d : Nat}
    (h : d ∈ (cs.foldl (adopt E p) s).kids q) : d ∈ s.kids q ∨ d ∈ cs := by
  induction cs generalizing s with
  | nil => exact .inl h
  | cons c cs ih =>
    rcases ih h with h | h
    · rcases adopt_kids_mem h with h | h
      · exact .inl h
      · exact .inr (by rw [h]; exact List.mem_cons_self ..)
    · exact .inr (List.mem_cons_of_mem _ h)

end Verif.Parents

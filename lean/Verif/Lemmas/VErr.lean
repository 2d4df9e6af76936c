import Verif.Model.VErr

/-!
# Lemmas on validation errors
-/

namespace Verif.VErr
open Verif

/-- a text is cut at the first character of a kind in one way -/
theorem cut {α : Type} (p : α → Prop) : ∀ {a a' b b' : List α} {c c' : α}, (∀ x ∈ a, ¬ p x) → (∀ x ∈ a', ¬ p x) → p c → p c' →
    a ++ c :: b = a' ++ c' :: b' → a = a' ∧ c = c' ∧ b = b'
  | [], [], b, b', c, c', _, _, _, _, h => by
    injection h with h1 h2
    exact ⟨rfl, h1, h2⟩
  | [], x :: a', b, b', c, c', _, h2, h3, _, h => by
    injection h with e1 e2
    exact (h2 x (List.mem_cons_self ..) (e1 ▸ h3)).elim
  | x :: a, [], b, b', c, c', h1, _, _, h4, h => by
    injection h with e1 e2
    exact (h1 x (List.mem_cons_self ..) (e1 ▸ h4)).elim
  | x :: a, y :: a', b, b', c, c', h1, h2, h3, h4, h => by
    injection h with e1 e2
    obtain ⟨g1, g2, g3⟩ := cut p (fun z hz => h1 z (List.mem_cons_of_mem _ hz)) (fun z hz => h2 z (List.mem_cons_of_mem _ hz)) h3 h4 e2
    exact ⟨by rw [e1, g1], g2, g3⟩

theorem str_ext {s t : String} (h : s.toList = t.toList) : s = t := String.toList_injective h

/-- the name that counts: all of it if there is no location, and otherwise its last part -/
def field (e : Error) : String := if e.loc.isSome then lastPart e.name else e.name

theorem format_inj {n n' r r' : String} {l l' : Option String} (hn : '(' ∉ n.toList ∧ ':' ∉ n.toList) (hn' : '(' ∉ n'.toList ∧ ':' ∉ n'.toList)
    (hl : ∀ x, l = some x → ')' ∉ x.toList) (hl' : ∀ x, l' = some x → ')' ∉ x.toList) (h : formatStr n l r = formatStr n' l' r') : n = n' ∧ l = l' ∧ r = r' := by
  have hp : ∀ {m : String}, ('(' ∉ m.toList ∧ ':' ∉ m.toList) → ∀ x ∈ m.toList, ¬ (x = '(' ∨ x = ':') := by
    rintro m ⟨h1, h2⟩ x hx (rfl | rfl)
    · exact h1 hx
    · exact h2 hx
  have hp' : ∀ {m : String}, ('(' ∉ m.toList ∧ ':' ∉ m.toList) → ∀ x ∈ m.toList ++ [' '], ¬ (x = '(' ∨ x = ':') := by
    intro m hm x hx
    rcases List.mem_append.1 hx with hx | hx
    · exact hp hm x hx
    · rw [List.mem_singleton] at hx; subst hx; decide
  have h := congrArg String.toList h
  unfold formatStr at h
  cases l with
  | some x =>
    cases l' with
    | some x' =>
      simp only [String.toList_append] at h
      have h : (n.toList ++ [' ']) ++ '(' :: (x.toList ++ ')' :: (':' :: ' ' :: r.toList)) = (n'.toList ++ [' ']) ++ '(' :: (x'.toList ++ ')' :: (':' :: ' ' :: r'.toList)) := by
        simpa using h
      obtain ⟨g1, _, g2⟩ := cut (fun c => c = '(' ∨ c = ':') (hp' hn) (hp' hn') (.inl rfl) (.inl rfl) h
      obtain ⟨g3, _, g4⟩ := cut (fun c => c = ')') (fun c hc e => hl x rfl (e ▸ hc)) (fun c hc e => hl' x' rfl (e ▸ hc)) rfl rfl g2
      refine ⟨str_ext (List.append_cancel_right g1), by rw [str_ext g3], str_ext ?_⟩
      simpa using g4
    | none =>
      simp only [String.toList_append] at h
      have h : (n.toList ++ [' ']) ++ '(' :: (x.toList ++ ')' :: (':' :: ' ' :: r.toList)) = n'.toList ++ ':' :: (' ' :: r'.toList) := by
        simpa using h
      obtain ⟨_, g2, _⟩ := cut (fun c => c = '(' ∨ c = ':') (hp' hn) (hp hn') (.inl rfl) (.inr rfl) h
      exact absurd g2 (by decide)
  | none =>
    cases l' with
    | some x' =>
      simp only [String.toList_append] at h
      have h : n.toList ++ ':' :: (' ' :: r.toList) = (n'.toList ++ [' ']) ++ '(' :: (x'.toList ++ ')' :: (':' :: ' ' :: r'.toList)) := by
        simpa using h
      obtain ⟨_, g2, _⟩ := cut (fun c => c = '(' ∨ c = ':') (hp hn) (hp' hn') (.inr rfl) (.inl rfl) h
      exact absurd g2 (by decide)
    | none =>
      simp only [String.toList_append] at h
      have h : n.toList ++ ':' :: (' ' :: r.toList) = n'.toList ++ ':' :: (' ' :: r'.toList) := by
        simpa using h
      obtain ⟨g1, _, g2⟩ := cut (fun c => c = '(' ∨ c = ':') (hp hn) (hp hn') (.inr rfl) (.inr rfl) h
      refine ⟨str_ext g1, rfl, str_ext ?_⟩
      simpa using g2

theorem lastPart_append {a x : String} (hx : '/' ∉ x.toList) : lastPart (a ++ "/" ++ x) = x := by
  unfold lastPart
  apply str_ext
  rw [String.toList_ofList]
  have : (a ++ "/" ++ x).toList.reverse = x.toList.reverse ++ '/' :: a.toList.reverse := by simp
  rw [this, List.takeWhile_append_of_pos (fun c hc => by
    have : c ≠ '/' := fun e => hx (e ▸ List.mem_reverse.1 hc)
    simpa using this)]
  simp

theorem lastPart_self {x : String} (hx : '/' ∉ x.toList) : lastPart x = x := by
  unfold lastPart
  apply str_ext
  rw [String.toList_ofList]
  have : x.toList.reverse.takeWhile (fun c => c != '/') = x.toList.reverse := by
    have := List.takeWhile_append_of_pos (p := fun c => c != '/') (l₁ := x.toList.reverse) (l₂ := []) (fun c hc => by
      have : c ≠ '/' := fun e => hx (e ▸ List.mem_reverse.1 hc)
      simpa using this)
    simpa using this
  rw [this, List.reverse_reverse]

/-! ## Duplicates -/

/-- the errors that are equal to no earlier one, where some are there before -/
def firstsAfter (before : List String) : List Error → List Error
  | [] => []
  | e :: l => if eqStr e ∈ before then firstsAfter before l else e :: firstsAfter (before ++ [eqStr e]) l

theorem foldl_put : ∀ (l d : List Error), l.foldl put d = d ++ firstsAfter (d.map eqStr) l
  | [], d => by simp [firstsAfter]
  | e :: l, d => by
    rw [List.foldl_cons, foldl_put l, show firstsAfter (d.map eqStr) (e :: l) =
      if eqStr e ∈ d.map eqStr then firstsAfter (d.map eqStr) l else e :: firstsAfter (d.map eqStr ++ [eqStr e]) l from rfl]
    unfold put
    by_cases h : eqStr e ∈ d.map eqStr
    · have : (d.any fun x => decide (eqStr x = eqStr e)) = true := by
        obtain ⟨x, hx, he⟩ := List.mem_map.1 h
        exact List.any_eq_true.2 ⟨x, hx, by simpa using he⟩
      rw [if_pos this, if_pos h]
    · have : ¬ (d.any fun x => decide (eqStr x = eqStr e)) = true := by
        intro hh
        obtain ⟨x, hx, he⟩ := List.any_eq_true.1 hh
        exact h (List.mem_map.2 ⟨x, hx, by simpa using he⟩)
      rw [if_neg this, if_neg h]
      simp

end Verif.VErr

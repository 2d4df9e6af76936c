import Verif.Model.Raises

/-!
# Theorems about exact messages in tests (C233)
-/

namespace Verif.Raises
open Verif

theorem special_not_alnum {c : Char} (h : c ∈ special) : c.isAlphanum = false := by
  have : ∀ c ∈ special, c.isAlphanum = false := by decide +kernel
  exact this c h

theorem parse_plain {c : Char} (h : c ∉ special) (r : Text) : parse (c :: r) = (parse r).map (.lit c :: ·) := by
  have h1 : c ≠ '^' := by rintro rfl; exact h (by decide +kernel)
  have h2 : c ≠ '$' := by rintro rfl; exact h (by decide +kernel)
  have h3 : c ≠ '\\' := by rintro rfl; exact h (by decide +kernel)
  have h4 : metaChars.contains c = false := by
    have : ∀ c ∈ metaChars, c ∈ special := by decide +kernel
    cases hc : metaChars.contains c with
    | false => rfl
    | true => exact absurd (this c (by simpa using hc)) h
  rw [parse.eq_def]
  split
  · contradiction
  · rename_i e; cases e; exact (h1 rfl).elim
  · rename_i e; cases e; exact (h2 rfl).elim
  · rename_i e; cases e; exact (h3 rfl).elim
  · rename_i e; cases e; exact (h3 rfl).elim
  · rename_i e; cases e; rw [if_neg (by rw [h4]; exact Bool.false_ne_true)]

theorem parse_escaped {c : Char} (h : c ∈ special) (r : Text) : parse ('\\' :: c :: r) = (parse r).map (.lit c :: ·) := by
  rw [parse, special_not_alnum h]
  rfl

theorem parse_escape (msg : Text) : parse (escape msg ++ ['$']) = some (msg.map .lit ++ [.stop]) := by
  induction msg with
  | nil => rfl
  | cons c msg ih =>
    unfold escape
    split
    · rename_i h
      have h : c ∈ special := by simpa using h
      rw [List.cons_append, List.cons_append, parse_escaped h, ih]
      rfl
    · rename_i h
      have h : c ∉ special := by simpa using h
      rw [List.cons_append, parse_plain h, ih]
      rfl

theorem match_lits (msg s : Text) (st : Bool) : matchHere (msg.map .lit ++ [.stop]) st s = true ↔ s = msg ∨ s = msg ++ ['\n'] := by
  induction msg generalizing s st with
  | nil => simp [matchHere]
  | cons c msg ih =>
    cases s with
    | nil => simp [matchHere]
    | cons x s =>
      simp only [List.map_cons, List.cons_append, matchHere, Bool.and_eq_true, decide_eq_true_eq, ih, List.cons.injEq]
      constructor
      · rintro ⟨rfl, h | h⟩
        · exact .inl ⟨rfl, h⟩
        · exact .inr ⟨rfl, h⟩
      · rintro (⟨rfl, h⟩ | ⟨rfl, h⟩)
        · exact ⟨rfl, .inl h⟩
        · exact ⟨rfl, .inr h⟩

theorem search_later (as : List Atom) (s : Text) : search (.start :: as) false s = false := by
  induction s with
  | nil => rfl
  | cons x s ih => simp [search, ih, matchHere]

/-- a message is found in a text if and only if the text is the message, or the message and a newline -/
theorem found_iff (msg s : Text) : found msg s = true ↔ s = msg ∨ s = msg ++ ['\n'] := by
  unfold found
  have : parse (pattern msg) = some (.start :: (msg.map .lit ++ [.stop])) := by
    show (parse (escape msg ++ ['$'])).map _ = _
    rw [parse_escape]
    rfl
  rw [this]
  simp only
  cases s with
  | nil =>
    show (true && matchHere (msg.map .lit ++ [.stop]) true []) = true ↔ _
    rw [Bool.true_and, match_lits]
  | cons x s =>
    show ((true && matchHere (msg.map .lit ++ [.stop]) true (x :: s)) || search (.start :: (msg.map .lit ++ [.stop])) false s) = true ↔ _
    rw [search_later, Bool.true_and, Bool.or_false, match_lits]

/-- for all messages, with any characters: `assertRaisesWith` passes if and only if an exception of the class is raised whose message is the one given, or this with a newline
at the end; other exceptions pass through -/
theorem C233_raises_partial (cls : Nat) (msg : Text) (e : Option Exc) :
    (raisesWith cls msg e = .pass ↔ ∃ x, e = some x ∧ cls ∈ x.classes ∧ (x.msg = msg ∨ x.msg = msg ++ ['\n'])) ∧
    (∀ x, raisesWith cls msg e = .raised x ↔ e = some x ∧ cls ∉ x.classes) := by
  cases e with
  | none => simp [raisesWith]
  | some x =>
    simp only [raisesWith]
    by_cases hc : cls ∈ x.classes
    · rw [if_pos (by simpa using hc)]
      by_cases hf : found msg x.msg = true
      · rw [if_pos hf]
        refine ⟨⟨fun _ => ⟨x, rfl, hc, (found_iff _ _).1 hf⟩, fun _ => rfl⟩, fun y => ⟨(fun h => nomatch h), ?_⟩⟩
        rintro ⟨e, hn⟩; cases e; exact absurd hc hn
      · rw [if_neg hf]
        refine ⟨⟨(fun h => nomatch h), ?_⟩, fun y => ⟨(fun h => nomatch h), ?_⟩⟩
        · rintro ⟨y, e, -, h⟩; cases e; exact absurd ((found_iff _ _).2 h) hf
        · rintro ⟨e, hn⟩; cases e; exact absurd hc hn
    · rw [if_neg (by simpa using hc)]
      refine ⟨⟨(fun h => nomatch h), ?_⟩, fun y => ⟨?_, ?_⟩⟩
      · rintro ⟨y, e, h, -⟩; cases e; exact absurd h hc
      · intro e; cases e; exact ⟨rfl, hc⟩
      · rintro ⟨e, -⟩; cases e; rfl

example : (raisesWith 1 "a.b (c)".toList (some ⟨[3, 1], "a.b (c)".toList⟩) matches .pass) = true ∧ (raisesWith 1 "a.b (c)".toList (some ⟨[3, 1], "axb (c)".toList⟩) matches .fail) = true ∧
    (raisesWith 1 "a".toList (some ⟨[2], "a".toList⟩) matches .raised _) = true := by decide +kernel

/-- so for warnings: some warning of the class has the message -/
theorem C233_warns_partial (cls : Nat) (msg : Text) (ws : List Exc) :
    warnsWith cls msg ws = true ↔ ∃ w ∈ ws, cls ∈ w.classes ∧ (w.msg = msg ∨ w.msg = msg ++ ['\n']) := by
  unfold warnsWith
  rw [List.any_eq_true]
  constructor
  · rintro ⟨w, hw, h⟩
    rw [Bool.and_eq_true] at h
    exact ⟨w, hw, by simpa using h.1, (found_iff _ _).1 h.2⟩
  · rintro ⟨w, hw, hc, h⟩
    exact ⟨w, hw, by rw [Bool.and_eq_true]; exact ⟨by simpa using hc, (found_iff _ _).2 h⟩⟩

example : warnsWith 1 "x+".toList [⟨[2], "x+".toList⟩, ⟨[1], "xx".toList⟩] = false ∧ warnsWith 1 "x+".toList [⟨[1], "xx".toList⟩, ⟨[1], "x+".toList⟩] = true := by decide +kernel

/-- the match is not exact: a newline at the end is not noticed -/
theorem C233_newline_fails : (raisesWith 1 "a".toList (some ⟨[1], "a\n".toList⟩) matches .pass) = true ∧ (raisesWith 1 "a\n".toList (some ⟨[1], "a".toList⟩) matches .fail) = true := by decide +kernel

end Verif.Raises

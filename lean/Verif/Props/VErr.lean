import Verif.Lemmas.VErr

/-!
# C217–C219: when validation errors are equal, and which are reported
-/

namespace Verif.VErr
open Verif

/-! ## C217: equality -/

/-- two errors at one place are equal if the fields and the reasons are, whatever spec the field was found with -/
theorem C217_field (a a' x r l : String) (hx : '/' ∉ x.toList) :
    eq ⟨a ++ "/" ++ x, r, some l⟩ (.error ⟨a' ++ "/" ++ x, r, some l⟩) = .ok true ∧ eq ⟨a ++ "/" ++ x, r, some l⟩ (.error ⟨x, r, some l⟩) = .ok true := by
  unfold eq hash eqStr
  simp only [Option.isSome_some, if_true, lastPart_append hx, lastPart_self hx, decide_true, and_self]

example : eq ⟨"Group/attr", "argument missing", some "root/g"⟩ (.error ⟨"SubGroup/sub/attr", "argument missing", some "root/g"⟩) = .ok true := by decide +kernel

/-- without brackets and colons in the names and locations, errors are equal only if they have the same reason, the same location and the same field, or name where there is
no location -/
theorem C217_same_partial (e e' : Error) (h : '(' ∉ (field e).toList ∧ ':' ∉ (field e).toList) (h' : '(' ∉ (field e').toList ∧ ':' ∉ (field e').toList)
    (hl : ∀ x, e.loc = some x → ')' ∉ x.toList) (hl' : ∀ x, e'.loc = some x → ')' ∉ x.toList) :
    eq e (.error e') = .ok true ↔ e.reason = e'.reason ∧ e.loc = e'.loc ∧ field e = field e' := by
  unfold eq hash
  simp only [Except.ok.injEq, decide_eq_true_eq]
  constructor
  · intro hh
    obtain ⟨h1, h2, h3⟩ := format_inj (n := field e) (n' := field e') h h' hl hl' hh
    exact ⟨h3, h2, h1⟩
  · rintro ⟨h1, h2, h3⟩
    show formatStr (field e) e.loc e.reason = formatStr (field e') e'.loc e'.reason
    rw [h1, h2, h3]

/-- which part of the name counts -/
theorem C217_name (a x r l : String) (hx : '/' ∉ x.toList) : field ⟨a ++ "/" ++ x, r, some l⟩ = x ∧ field ⟨a ++ "/" ++ x, r, none⟩ = a ++ "/" ++ x :=
  ⟨lastPart_append hx, rfl⟩

example : eq ⟨"G/a", "r", some "root/g"⟩ (.error ⟨"G/b", "r", some "root/g"⟩) = .ok false ∧ eq ⟨"G/a", "r", some "root/g"⟩ (.error ⟨"G/a", "r", some "root/h"⟩) = .ok false ∧
    eq ⟨"G/a", "r", none⟩ (.error ⟨"H/a", "r", none⟩) = .ok false ∧ '(' ∉ (field ⟨"G/a", "r", some "root/g"⟩).toList := by decide +kernel

/-- it is an equivalence on errors -/
theorem C217_equivalence (a b c : Error) : eq a (.error a) = .ok true ∧ eq a (.error b) = eq b (.error a) ∧
    (eq a (.error b) = .ok true → eq b (.error c) = .ok true → eq a (.error c) = .ok true) := by
  unfold eq hash
  simp only [Except.ok.injEq, decide_eq_true_eq, decide_true, true_and]
  exact ⟨by rw [decide_eq_decide]; exact ⟨Eq.symm, Eq.symm⟩, fun h1 h2 => h1.trans h2⟩

/-- errors about different things are equal: with brackets in a name, one of them may have no location, or both may have different ones -/
theorem C217_brackets_fails : eq ⟨"a (b)", "argument missing", none⟩ (.error ⟨"a", "argument missing", some "b"⟩) = .ok true ∧
    eq ⟨"a", "r", some "b): x (c"⟩ (.error ⟨"a (b): x", "r", some "c"⟩) = .ok true := by decide +kernel

/-- an error is equal to a text; comparing it with a list raises -/
theorem C217_other_fails (e : Error) : eq e (.text (eqStr e)) = .ok true ∧ eq e .unhashable = .error .typeError := by
  unfold eq hash
  simp

/-- errors with the same text may be different, and equal ones may have different texts -/
theorem C217_text_fails : str ⟨"G/a", "r", some "l"⟩ ≠ str ⟨"H/a", "r", some "l"⟩ ∧ eq ⟨"G/a", "r", some "l"⟩ (.error ⟨"H/a", "r", some "l"⟩) = .ok true ∧
    str ⟨"x/a (b)", "r", none⟩ = str ⟨"x/a", "r", some "b"⟩ ∧ eq ⟨"x/a (b)", "r", none⟩ (.error ⟨"x/a", "r", some "b"⟩) = .ok false := by decide +kernel

/-- setting the location changes what an error is equal to -/
theorem C217_location_fails : ∃ e e' : Error, eq e (.error e') = .ok false ∧ eq (setLoc e e'.loc) (.error e') = .ok true :=
  ⟨⟨"G/a", "r", none⟩, ⟨"a", "r", some "l"⟩, by decide +kernel⟩

/-! ## C218: removing duplicates -/

/-- of each class of equal errors the first one stays, in the order of the list, and nothing else -/
theorem C218_first (l : List Error) (i : Nat) (hi : i < l.length) :
    l[i] ∈ removeDuplicates l ∨ ∃ j, ∃ hj : j < i, eqStr (l[j]'(Nat.lt_trans hj hi)) = eqStr l[i] := by
  by_cases h : ∃ j, ∃ hj : j < i, eqStr (l[j]'(Nat.lt_trans hj hi)) = eqStr l[i]
  · exact .inr h
  · left
    have key : ∀ (l : List Error) (before : List String) (i : Nat) (hi : i < l.length), eqStr l[i] ∉ before →
        (∀ j (hj : j < i), eqStr (l[j]'(Nat.lt_trans hj hi)) ≠ eqStr l[i]) → l[i] ∈ firstsAfter before l := by
      intro l
      induction l with
      | nil => intro before i hi; cases hi
      | cons e l ih =>
        intro before i hi hb hf
        unfold firstsAfter
        cases i with
        | zero =>
          simp only [List.getElem_cons_zero] at hb ⊢
          rw [if_neg hb]
          exact List.mem_cons_self ..
        | succ i =>
          simp only [List.getElem_cons_succ] at hb ⊢
          have hf' : ∀ j (hj : j < i), eqStr (l[j]'(Nat.lt_trans hj (Nat.lt_of_succ_lt_succ hi))) ≠ eqStr (l[i]'(Nat.lt_of_succ_lt_succ hi)) := by
            intro j hj
            have := hf (j + 1) (Nat.succ_lt_succ hj)
            simpa using this
          split
          · exact ih before i (Nat.lt_of_succ_lt_succ hi) hb hf'
          · refine List.mem_cons_of_mem _ (ih _ i (Nat.lt_of_succ_lt_succ hi) ?_ hf')
            rw [List.mem_append, List.mem_singleton, not_or]
            refine ⟨hb, ?_⟩
            have := hf 0 (Nat.succ_pos _)
            simp only [List.getElem_cons_zero, List.getElem_cons_succ] at this
            exact fun hh => this hh.symm
    have hm : l[i] ∈ removeDuplicates l := by
      unfold removeDuplicates
      rw [foldl_put]
      simp only [List.map_nil, List.nil_append]
      exact key l [] i hi (by simp) (fun j hj he => h ⟨j, hj, he⟩)
    exact hm

/-- nothing is added, the order stays, no two are equal, and each error has an equal one in the result -/
theorem C218_result (l : List Error) : (removeDuplicates l).Sublist l ∧ (removeDuplicates l).Pairwise (fun a b => eqStr a ≠ eqStr b) ∧
    ∀ e ∈ l, ∃ e' ∈ removeDuplicates l, eqStr e' = eqStr e := by
  have key : ∀ (l : List Error) (before : List String), (firstsAfter before l).Sublist l ∧ (firstsAfter before l).Pairwise (fun a b => eqStr a ≠ eqStr b) ∧
      (∀ e ∈ firstsAfter before l, eqStr e ∉ before) ∧ ∀ e ∈ l, eqStr e ∈ before ∨ ∃ e' ∈ firstsAfter before l, eqStr e' = eqStr e := by
    intro l
    induction l with
    | nil => intro before; exact ⟨.slnil, .nil, by simp [firstsAfter], by simp⟩
    | cons e l ih =>
      intro before
      unfold firstsAfter
      split
      · rename_i hb
        obtain ⟨h1, h2, h3, h4⟩ := ih before
        refine ⟨h1.cons _, h2, h3, fun x hx => ?_⟩
        rcases List.mem_cons.1 hx with rfl | hx
        · exact .inl hb
        · exact h4 x hx
      · rename_i hb
        obtain ⟨h1, h2, h3, h4⟩ := ih (before ++ [eqStr e])
        refine ⟨h1.cons_cons _, List.pairwise_cons.2 ⟨fun x hx he => ?_, h2⟩, fun x hx => ?_, fun x hx => ?_⟩
        · exact h3 x hx (by rw [he]; simp)
        · rcases List.mem_cons.1 hx with rfl | hx
          · exact hb
          · exact fun hh => h3 x hx (List.mem_append_left _ hh)
        · rcases List.mem_cons.1 hx with rfl | hx
          · exact .inr ⟨x, List.mem_cons_self .., rfl⟩
          · rcases h4 x hx with hh | ⟨y, hy, he⟩
            · rcases List.mem_append.1 hh with hh | hh
              · exact .inl hh
              · exact .inr ⟨e, List.mem_cons_self .., (List.mem_singleton.1 hh).symm⟩
            · exact .inr ⟨y, List.mem_cons_of_mem _ hy, he⟩
  obtain ⟨h1, h2, _, h4⟩ := key l []
  unfold removeDuplicates
  rw [foldl_put]
  simp only [List.map_nil, List.nil_append]
  exact ⟨h1, h2, fun e he => (h4 e he).resolve_left (by simp)⟩

/-- a list without duplicates stays as it is -/
theorem C218_again (l : List Error) : removeDuplicates (removeDuplicates l) = removeDuplicates l := by
  have key : ∀ (l : List Error) (before : List String), l.Pairwise (fun a b => eqStr a ≠ eqStr b) → (∀ e ∈ l, eqStr e ∉ before) → firstsAfter before l = l := by
    intro l
    induction l with
    | nil => intro _ _ _; rfl
    | cons e l ih =>
      intro before hp hb
      rw [List.pairwise_cons] at hp
      unfold firstsAfter
      rw [if_neg (hb e (List.mem_cons_self ..)), ih _ hp.2 (fun x hx hh => ?_)]
      rcases List.mem_append.1 hh with hh | hh
      · exact hb x (List.mem_cons_of_mem _ hx) hh
      · exact hp.1 x hx (List.mem_singleton.1 hh).symm
  have h : ∀ k, removeDuplicates k = firstsAfter [] k := by
    intro k
    unfold removeDuplicates
    rw [foldl_put]
    simp only [List.map_nil, List.nil_append]
  rw [h (removeDuplicates l)]
  exact key _ [] (C218_result l).2.1 (by simp)

example : removeDuplicates [⟨"G/a", "r", some "l"⟩, ⟨"b", "r", some "l"⟩, ⟨"H/a", "r", some "l"⟩, ⟨"G/a", "r", none⟩] =
    [⟨"G/a", "r", some "l"⟩, ⟨"b", "r", some "l"⟩, ⟨"G/a", "r", none⟩] := by decide +kernel

/-- an error that is not a duplicate may be lost -/
theorem C218_lost_fails : removeDuplicates [missing "a (b)" none, missing "a" (some "b")] = [missing "a (b)" none] := by decide +kernel

/-! ## C219: what the text of an error says -/

theorem quoted {p m q a a' b b' : String} {ms : List Char} (hm : m.toList = '\'' :: ms) (ha : '\'' ∉ a.toList) (ha' : '\'' ∉ a'.toList)
    (h : p ++ a ++ m ++ b ++ q = p ++ a' ++ m ++ b' ++ q) : a = a' ∧ b = b' := by
  have h := congrArg String.toList h
  simp only [String.toList_append, hm] at h
  have h : a.toList ++ '\'' :: (ms ++ (b.toList ++ q.toList)) = a'.toList ++ '\'' :: (ms ++ (b'.toList ++ q.toList)) := by
    simpa using h
  obtain ⟨g1, _, g2⟩ := cut (fun c => c = '\'') (fun c hc e => ha (e ▸ hc)) (fun c hc e => ha' (e ▸ hc)) rfl rfl h
  exact ⟨str_ext g1, str_ext (List.append_cancel_right (List.append_cancel_left g2))⟩

/-- the reasons say which type, dtype or shape was expected and which was received, if there are no quotes in what was expected -/
theorem C219_expected_partial (n x x' y y' : String) (l : Option String) (hx : '\'' ∉ x.toList) (hx' : '\'' ∉ x'.toList) :
    ((incorrectDataType n x y l).reason = (incorrectDataType n x' y' l).reason ↔ x = x' ∧ y = y') ∧
    ((dtypeError n x y l).reason = (dtypeError n x' y' l).reason ↔ x = x' ∧ y = y') ∧
    ((shapeError n x y l).reason = (shapeError n x' y' l).reason ↔ x = x' ∧ y = y') ∧
    ((expectedArray n x y l).reason = (expectedArray n x' y' l).reason ↔ x = x' ∧ y = y') := by
  refine ⟨⟨fun h => ?_, ?_⟩, ⟨fun h => ?_, ?_⟩, ⟨fun h => ?_, ?_⟩, ⟨fun h => ?_, ?_⟩⟩
  · exact quoted (p := "incorrect data_type - expected '") (m := "', got '") (q := "'") rfl hx hx' h
  · rintro ⟨rfl, rfl⟩; rfl
  · exact quoted (p := "incorrect type - expected '") (m := "', got '") (q := "'") rfl hx hx' h
  · rintro ⟨rfl, rfl⟩; rfl
  · exact quoted (p := "incorrect shape - expected '") (m := "', got '") (q := "'") rfl hx hx' h
  · rintro ⟨rfl, rfl⟩; rfl
  · exact quoted (p := "incorrect shape - expected an array of shape '") (m := "', got non-array data '") (q := "'") rfl hx hx' h
  · rintro ⟨rfl, rfl⟩; rfl

example : (incorrectDataType "n" "A" "B" none).reason = "incorrect data_type - expected 'A', got 'B'" ∧ (shapeError "n" "(2, 3)" "(1,)" none).reason =
    "incorrect shape - expected '(2, 3)', got '(1,)'" ∧ str (dtypeError "n" "int" "text" (some "root/n")) = "n (root/n): incorrect type - expected 'int', got 'text'" := by decide +kernel

/-- which type is missing, and under which name, if the type has no bracket -/
theorem C219_missing_partial (n t t' : String) (l m m' : Option String) (ht : '(' ∉ t.toList) (ht' : '(' ∉ t'.toList) :
    (missingDataType n t l m).reason = (missingDataType n t' l m').reason ↔ t = t' ∧ m = m' := by
  constructor
  · intro h
    have hp : ∀ {s : String}, '(' ∉ s.toList → ∀ x ∈ s.toList ++ [' '], ¬ x = '(' := by
      intro s hs x hx
      rcases List.mem_append.1 hx with hx | hx
      · exact fun e => hs (e ▸ hx)
      · rw [List.mem_singleton] at hx; subst hx; decide
    have h := congrArg String.toList h
    unfold missingDataType at h
    cases m with
    | some a =>
      cases m' with
      | some a' =>
        simp only [String.toList_append] at h
        have h : (t.toList ++ [' ']) ++ '(' :: (a.toList ++ [')']) = (t'.toList ++ [' ']) ++ '(' :: (a'.toList ++ [')']) := by
          simpa using h
        obtain ⟨g1, _, g2⟩ := cut (fun c => c = '(') (hp ht) (hp ht') rfl rfl h
        exact ⟨str_ext (List.append_cancel_right g1), by rw [str_ext (List.append_cancel_right g2)]⟩
      | none =>
        simp only [String.toList_append] at h
        have h : t.toList ++ ' ' :: '(' :: (a.toList ++ [')']) = t'.toList := by simpa using h
        exact (ht' (by rw [← h]; simp)).elim
    | none =>
      cases m' with
      | some a' =>
        simp only [String.toList_append] at h
        have h : t.toList = t'.toList ++ ' ' :: '(' :: (a'.toList ++ [')']) := by simpa using h
        exact (ht (by rw [h]; simp)).elim
      | none =>
        simp only [String.toList_append] at h
        exact ⟨str_ext (List.append_cancel_left h), rfl⟩
  · rintro ⟨rfl, rfl⟩; rfl

example : (missingDataType "n" "T" none (some "x")).reason = "missing data type T (x)" ∧ (missingDataType "n" "T" none none).reason = "missing data type T" := by decide +kernel

/-- what quantity was expected and received, if the numbers are digits -/
theorem C219_quantity_partial (n t x x' y y' : String) (l : Option String) (hx : ' ' ∉ x.toList) (hx' : ' ' ∉ x'.toList) :
    (incorrectQuantity n t x y l).reason = (incorrectQuantity n t x' y' l).reason ↔ x = x' ∧ y = y' := by
  constructor
  · intro h
    have h := congrArg String.toList h
    unfold incorrectQuantity at h
    simp only [String.toList_append] at h
    have h : x.toList ++ ' ' :: ("for data type ".toList ++ (t.toList ++ (", received ".toList ++ y.toList))) =
        x'.toList ++ ' ' :: ("for data type ".toList ++ (t.toList ++ (", received ".toList ++ y'.toList))) := by simpa using h
    obtain ⟨g1, _, g2⟩ := cut (fun c => c = ' ') (fun c hc e => hx (e ▸ hc)) (fun c hc e => hx' (e ▸ hc)) rfl rfl h
    exact ⟨str_ext g1, str_ext (List.append_cancel_left (List.append_cancel_left (List.append_cancel_left g2)))⟩
  · rintro ⟨rfl, rfl⟩; rfl

example : str (incorrectQuantity "n" "T" "1" "2" (some "root")) = "n (root): expected a quantity of 1 for data type T, received 2" := by decide +kernel

/-- different errors with one text: quotes in a dtype, and brackets in a type -/
theorem C219_ambiguous_fails : dtypeError "n" "a', got 'b" "c" none = dtypeError "n" "a" "b', got 'c" none ∧
    missingDataType "n" "T (x)" none none = missingDataType "n" "T" none (some "x") := by decide +kernel

/-- errors of two classes are not equal -/
theorem C219_classes (n t x y x' y' : String) (l m : Option String) : (missing n l).reason ≠ (illegalLink n l).reason ∧ (missing n l).reason ≠ (missingDataType n t l m).reason ∧
    (illegalLink n l).reason ≠ (missingDataType n t l m).reason ∧ (dtypeError n x y l).reason ≠ (shapeError n x' y' l).reason ∧
    (dtypeError n x y l).reason ≠ (incorrectDataType n x' y' l).reason ∧ (shapeError n x y l).reason ≠ (expectedArray n x' y' l).reason ∧
    (incorrectQuantity n t x y l).reason ≠ (incorrectDataType n x' y' l).reason := by
  refine ⟨?_, ?_, ?_, ?_, ?_, ?_, ?_⟩ <;> intro h <;> have h := congrArg String.toList h <;>
    (try cases m) <;> simp [missing, missingDataType, illegalLink, dtypeError, shapeError, incorrectDataType, expectedArray, incorrectQuantity] at h

end Verif.VErr

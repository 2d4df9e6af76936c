import Verif.Model.Ids

/-!
# C223: the identifiers of a table are integers
-/

namespace Verif.Ids
open Verif

/-- an integer of Python or NumPy -/
def Integer : Elem → Prop
  | .int _ => True
  | .npInt _ => True
  | .npUint _ => True
  | .bool _ => True
  | _ => False

/-- the elements that an operation adds to a list, if it is accepted -/
def added : Op → List Elem
  | .append e => if isInt e then [e] else []
  | .extend (.iter dt _) => if dt.integer then [.list] else []
  | .extend a => match a.elems with
    | [] => []
    | e :: es => if isInt e then e :: es else []

theorem isInt_integer {e : Elem} (h : isInt e = true) : Integer e := by
  cases e <;> first | trivial | cases h

theorem step_list (l : List Elem) (op : Op) : step (.list l) op = .list (l ++ added op) := by
  have key : ∀ es : List Elem, (match validateFirst es with
      | .error x => Except.error x
      | .ok () => .ok (Src.list (l ++ es))).toOption.getD (.list l) = .list (l ++ match es with | [] => [] | e :: es => if isInt e then e :: es else []) := by
    intro es
    cases es with
    | nil => rfl
    | cons e es =>
      unfold validateFirst validateElem
      by_cases h : isInt e = true
      · simp [h, Except.toOption]
      · simp [h, Except.toOption]
  cases op with
  | append e =>
    unfold step append validateElem added
    by_cases h : isInt e = true
    · simp [h, Except.toOption]
    · simp [h, Except.toOption]
  | extend a =>
    cases a with
    | iter dt k =>
      unfold step extend validate added items
      by_cases h : dt.integer = true
      · simp [h, Except.toOption]
      · simp [h, Except.toOption]
    | list k => exact key k
    | tuple k => exact key k
    | array dt k => exact key (k.map dt.elem)
    | h5 dt k => exact key (k.map dt.elem)

/-- a list of identifiers after any operations: what it had and what was accepted, in order -/
theorem C223_history (l : List Elem) (ops : List Op) : run (.list l) ops = .list (l ++ ops.flatMap added) := by
  induction ops generalizing l with
  | nil => simp [run]
  | cons o os ih =>
    show run (step (.list l) o) os = _
    rw [step_list, ih]
    simp

/-- identifiers that are appended one by one are integers, whatever is tried -/
theorem C223_append (l : List Elem) (es : List Elem) (hl : ∀ e ∈ l, Integer e) : ∀ e ∈ (run (.list l) (es.map .append)).elems, Integer e := by
  rw [C223_history]
  intro e he
  rcases List.mem_append.1 he with he | he
  · exact hl e he
  · obtain ⟨op, hop, he⟩ := List.mem_flatMap.1 he
    obtain ⟨x, -, rfl⟩ := List.mem_map.1 hop
    by_cases h : isInt x = true
    · simp only [added, h, if_true, List.mem_singleton] at he
      subst he
      exact isInt_integer h
    · simp [added, h] at he

example : (run (.list []) ([.int 1, .float 2, .text "a", .npInt 3, .bool true].map .append)).elems = [.int 1, .npInt 3, .bool true] := by decide +kernel

/-- arrays, datasets and iterators: if they are accepted and not empty, all elements are integers, because they have one dtype -/
theorem C223_arrays (s s' : Src) (h : new s = .ok s') (hk : (∀ l, s ≠ .list l) ∧ ∀ l, s ≠ .tuple l) : s' = s ∧ ∀ e ∈ s.elems, Integer e := by
  unfold new at h
  split at h
  · cases h
  rename_i hv
  refine ⟨by cases h; rfl, ?_⟩
  have key : ∀ (dt : Dt) (l : List Int), (l ≠ [] → dt ≠ .float ∧ dt ≠ .bool) → ∀ e ∈ l.map dt.elem, Integer e := by
    intro dt l hd e he
    obtain ⟨i, hi, rfl⟩ := List.mem_map.1 he
    have := hd (fun h => by rw [h] at hi; cases hi)
    cases dt with
    | float => exact (this.1 rfl).elim
    | bool => exact (this.2 rfl).elim
    | _ => trivial
  have first : ∀ (dt : Dt) (l : List Int), validateFirst (l.map dt.elem) = .ok () → l ≠ [] → dt ≠ .float ∧ dt ≠ .bool := by
    intro dt l hv hl
    cases l with
    | nil => exact (hl rfl).elim
    | cons i l =>
      refine ⟨?_, ?_⟩ <;> rintro rfl <;> exact nomatch (show Except.error Err.valueError = Except.ok () from hv)
  cases s with
  | list l => exact (hk.1 l rfl).elim
  | tuple l => exact (hk.2 l rfl).elim
  | array dt l => exact key dt l (first dt l hv)
  | h5 dt l => exact key dt l (first dt l hv)
  | iter dt l =>
    refine key dt l fun _ => ?_
    unfold validate at hv
    cases dt <;> first | exact ⟨by decide, by decide⟩ | cases hv

example : (new (.array .int [1, 2])).isOk = true ∧ (new (.iter .uint [1])).isOk = true ∧ (new (.array .float [1])).isOk = false := by decide +kernel

/-- for lists the same holds if all elements are of the kind of the first one -/
theorem C223_list_partial (l : List Elem) (h : new (.list l) = .ok (.list l)) (hk : ∀ a ∈ l, ∀ b ∈ l, isInt a = isInt b) : ∀ e ∈ l, Integer e := by
  cases l with
  | nil => intro e he; cases he
  | cons a l =>
    have ha : isInt a = true := by
      unfold new at h
      split at h
      · cases h
      · rename_i hv
        unfold validate Src.elems validateFirst validateElem at hv
        by_cases hi : isInt a = true
        · exact hi
        · simp [hi] at hv
    intro e he
    exact isInt_integer (by rw [← hk a (List.mem_cons_self ..) e he]; exact ha)

example : new (.list [.int 1, .npInt 2]) = .ok (.list [.int 1, .npInt 2]) := by rfl

/-- a list is accepted for its first element, when it is given and when it is added -/
theorem C223_first_fails : (new (.list [.int 1, .text "a"])).isOk = true ∧ (run (.list [.int 1]) [.extend (.list [.int 2, .text "a", .float 3])]).elems =
    [.int 1, .int 2, .text "a", .float 3] ∧ ¬ Integer (.text "a") ∧ ¬ Integer (.float 3) := ⟨by decide +kernel, by decide +kernel, id, id⟩

/-- an empty array has no first element: an identifier that is appended to an array of floats is a float -/
theorem C223_empty_array_fails : ((new (.array .float [])).toOption.map fun s => (run s [.append (.int 5)]).elems) = some [.float 5] ∧ ¬ Integer (.float 5) :=
  ⟨by decide +kernel, id⟩

/-- unsigned integers are rejected in arrays, and accepted from iterators -/
theorem C223_unsigned_fails : (new (.array .uint [1])).isOk = false ∧ (new (.iter .uint [1])).isOk = true ∧ Integer (.npUint 1) := ⟨by decide +kernel, by decide +kernel, trivial⟩

/-- identifiers of signed dtype can be read after they were written -/
theorem C223_reread_partial (s : Src) (h : ∃ l, s = .array .int l ∨ s = .h5 .int l ∨ s = .iter .int l ∨ ∃ k, s = .list k ∨ s = .tuple k) : (reread s).isOk = true := by
  have key : ∀ l, (new (.h5 .int l)).isOk = true := by
    intro l
    cases l <;> rfl
  obtain ⟨l, rfl | rfl | rfl | ⟨k, rfl | rfl⟩⟩ := h <;> exact key _

/-- identifiers from an iterator of unsigned dtype can be written, and the file cannot be read -/
theorem C223_reread_fails : (new (.iter .uint [1])).isOk = true ∧ (reread (.iter .uint [1])).isOk = false := by decide +kernel

/-- writing and reading keeps the integers -/
theorem C223_reread_values (s s' : Src) (h : reread s = .ok s') (hi : ∀ e ∈ s.elems, Integer e) : s'.elems.map value = s.elems.map value ∧ ∀ e ∈ s'.elems, Integer e := by
  have key : ∀ s s', new s = .ok s' → s' = s := by
    intro s s' h
    unfold new at h
    split at h
    · cases h
    · cases h; rfl
  have hv : ∀ l : List Elem, ((Src.h5 .int (l.map value)).elems).map value = l.map value ∧ ∀ e ∈ (Src.h5 .int (l.map value)).elems, Integer e := by
    intro l
    refine ⟨?_, ?_⟩
    · show ((l.map value).map Dt.int.elem).map value = l.map value
      rw [List.map_map]
      exact (List.map_congr_left (fun i _ => rfl)).trans (List.map_id _)
    · intro e he
      obtain ⟨i, -, rfl⟩ := List.mem_map.1 he
      trivial
  cases s with
  | list l => cases key _ _ h; exact hv l
  | tuple l => cases key _ _ h; exact hv l
  | array dt l => cases key _ _ h; exact ⟨rfl, hi⟩
  | h5 dt l => cases key _ _ h; exact ⟨rfl, hi⟩
  | iter dt l => cases key _ _ h; exact ⟨rfl, hi⟩

example : reread (.list [.int 1, .npInt 2]) = .ok (.h5 .int [1, 2]) ∧ reread (.iter .int [4]) = .ok (.h5 .int [4]) := ⟨rfl, rfl⟩

end Verif.Ids

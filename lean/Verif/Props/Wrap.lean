import Verif.Model.Wrap

/-!
# Properties of `DataIO` as its data
-/

namespace Verif.Wrap
open Verif

/-- a `DataIO` as `__init__` and the methods leave it: what has data has no shape and dtype of its own -/
def Sound (w : World) : Prop := ∀ o, (w.ios o).data.isSome → (w.ios o).shape = none ∧ (w.ios o).dtype = none

/-- the elements of data that are not an iterator -/
def elems (w : World) : Data → Option (List Elem)
  | .list i => some ((w.lists i).map .num)
  | .tuple l => some (l.map .num)
  | .arr l => some (l.map .num)
  | .arr2 rows => some (rows.map .row)
  | .iter _ => none

theorem new_sound {d : Option Data} {dt : Option String} {sh : Option (List Nat)} {io : Io} (h : new d dt sh = .ok io) :
    io.data = d ∧ (io.data.isSome → io.shape = none ∧ io.dtype = none) := by
  cases d with
  | none =>
    simp only [new] at h
    split at h
    · cases h
    · injection h with h; subst h; simp
  | some d => simp only [new] at h; injection h with h; subst h; simp

theorem putData_ios {w : World} {o : Nat} {d : Data} (p : Nat) :
    (putData w o d).ios p = if p = o then ⟨some d, (w.ios p).dtype, (w.ios p).shape⟩ else w.ios p := rfl

theorem sound_put {w : World} {o : Nat} {d : Data} (h : Sound w) (ho : (w.ios o).shape = none ∧ (w.ios o).dtype = none) :
    Sound (putData w o d) := by
  intro p hp
  rw [putData_ios] at hp ⊢
  split
  · rename_i he; subst he; exact ho
  · rename_i he; rw [if_neg he] at hp; exact h p hp

theorem sound_step {w : World} (h : Sound w) (op : Op) : Sound (step w op).1 := by
  cases op with
  | setData o d =>
    simp only [step, setData]
    split
    · exact h
    · split
      · exact h
      · rename_i h1 h2
        refine sound_put h ?_
        cases hd : (w.ios o).dtype <;> cases hs : (w.ios o).shape <;> simp [hd, hs] at h2 ⊢
  | append o v =>
    simp only [step, append]
    split
    · rename_i i hd
      exact sound_put (w := pushList w i [v]) h (h o (by simp [hd]))
    · rename_i l hd
      exact sound_put h (h o (by simp [hd]))
    · exact h
  | extend o vs =>
    simp only [step, extend]
    split
    · rename_i i hd
      exact sound_put (w := pushList w i vs) h (h o (by simp [hd]))
    · rename_i l hd
      split
      · exact sound_put h (h o (by simp [hd]))
      · exact h
    · rename_i l hd
      split
      · exact sound_put h (h o (by simp [hd]))
      · exact h
    · exact h
  | listAppend i v => exact h

theorem sound_run {w : World} (h : Sound w) (ops : List Op) : Sound (run w ops) := by
  induction ops generalizing w with
  | nil => exact h
  | cons op ops ih => exact ih (sound_step h op)

/-- **C238 (read).** After any history the length of a `DataIO` with data, its elements and its truth are those of the data. -/
theorem C238_read {w : World} (h : Sound w) (ops : List Op) {o : Nat} {d : Data} (hd : ((run w ops).ios o).data = some d) {l : List Elem}
    (hl : elems (run w ops) d = some l) :
    len (run w ops) ((run w ops).ios o) = .ok l.length ∧
    (∀ j, get (run w ops) ((run w ops).ios o) j = match l[j]? with | some e => .ok e | none => .error .indexError) ∧
    truth (run w ops) ((run w ops).ios o) = .ok (decide (l ≠ [])) := by
  have hs := (sound_run h ops o (by simp [hd])).1
  generalize run w ops = u at *
  have hlen : len u (u.ios o) = .ok l.length := by
    simp only [len, hs, hd]
    cases d <;> simp only [elems, Option.some.injEq, reduceCtorEq] at hl <;> subst hl <;> simp [lenData]
  refine ⟨hlen, ?_, ?_⟩
  · intro j
    simp only [get, hd]
    cases d <;> simp only [elems, Option.some.injEq, reduceCtorEq] at hl <;> subst hl <;> simp only [List.getElem?_map]
    all_goals
      first
      | (cases hj : (u.lists _)[j]? <;> simp)
      | (rename_i x; cases hj : x[j]? <;> simp)
  · have key : (match len u (u.ios o) with | .error e => (.error e : Except Err Bool) | .ok n => .ok (decide (n > 0))) = .ok (decide (l ≠ [])) := by
      rw [hlen]
      cases l <;> simp
    simp only [truth, hd]
    cases d with
    | iter m => simp [elems] at hl
    | _ => exact key

/-- **C238 (once).** The data of a `DataIO` are the same object for ever, or, for an array, an array: they are never replaced by others, nor taken away. -/
theorem C238_once {w : World} (ops : List Op) {o : Nat} {d : Data} (hd : (w.ios o).data = some d) :
    (∀ i, d = .list i → ((run w ops).ios o).data = some (.list i)) ∧
    (∀ l, d = .tuple l → ((run w ops).ios o).data = some (.tuple l)) ∧
    (∀ m, d = .iter m → ((run w ops).ios o).data = some (.iter m)) ∧ ((run w ops).ios o).data.isSome := by
  suffices H : ∀ (w : World) (d : Data) (op : Op), (w.ios o).data = some d → ∃ d', ((step w op).1.ios o).data = some d' ∧
      (d' = d ∨ ((∃ l, d = .arr l ∨ ∃ r, d = .arr2 r) ∧ ((∃ l, d' = .arr l) ∨ ∃ r, d' = .arr2 r))) by
    have G : ∀ (ops : List Op) (w : World) (d : Data), (w.ios o).data = some d → ∃ d', ((run w ops).ios o).data = some d' ∧
        (d' = d ∨ ((∃ l, d = .arr l ∨ ∃ r, d = .arr2 r) ∧ ((∃ l, d' = .arr l) ∨ ∃ r, d' = .arr2 r))) := by
      intro ops
      induction ops with
      | nil => intro w d h; exact ⟨d, h, Or.inl rfl⟩
      | cons op ops ih =>
        intro w d h
        obtain ⟨d1, h1, k1⟩ := H w d op h
        obtain ⟨d2, h2, k2⟩ := ih _ d1 h1
        refine ⟨d2, h2, ?_⟩
        rcases k1 with rfl | ⟨ka, kb⟩
        · exact k2
        · rcases k2 with rfl | ⟨_, kd⟩
          · exact Or.inr ⟨ka, kb⟩
          · exact Or.inr ⟨ka, kd⟩
    obtain ⟨d', h1, h2⟩ := G ops w d hd
    refine ⟨?_, ?_, ?_, by simp [h1]⟩ <;> rintro x rfl <;> rw [h1] <;> rcases h2 with rfl | ⟨⟨l, h | ⟨r, h⟩⟩, _⟩ <;> first | rfl | cases h
  intro w d op h
  cases op with
  | setData p e =>
    refine ⟨d, ?_, Or.inl rfl⟩
    simp only [step, setData]
    split
    · exact h
    · split
      · exact h
      · rename_i h1 _
        rw [putData_ios, if_neg]
        · exact h
        · rintro rfl; simp [h] at h1
  | append p v =>
    simp only [step, append]
    split
    · rename_i i hp
      refine ⟨d, ?_, Or.inl rfl⟩
      rw [putData_ios]
      split
      · rename_i he; subst he; rw [h] at hp; injection hp with hp; rw [hp]
      · exact h
    · rename_i l hp
      by_cases he : o = p
      · subst he
        rw [h] at hp; injection hp with hp; subst hp
        exact ⟨.arr (l ++ [v]), by simp [putData_ios], Or.inr ⟨⟨l, Or.inl rfl⟩, Or.inl ⟨_, rfl⟩⟩⟩
      · exact ⟨d, by simp [putData_ios, he, h], Or.inl rfl⟩
    · exact ⟨d, h, Or.inl rfl⟩
  | extend p vs =>
    simp only [step, extend]
    split
    · rename_i i hp
      refine ⟨d, ?_, Or.inl rfl⟩
      rw [putData_ios]
      split
      · rename_i he; subst he; rw [h] at hp; injection hp with hp; rw [hp]
      · exact h
    · rename_i l hp
      split
      · by_cases he : o = p
        · subst he
          rw [h] at hp; injection hp with hp; subst hp
          exact ⟨.arr2 [l, vs], by simp [putData_ios], Or.inr ⟨⟨l, Or.inl rfl⟩, Or.inr ⟨_, rfl⟩⟩⟩
        · exact ⟨d, by simp [putData_ios, he, h], Or.inl rfl⟩
      · exact ⟨d, h, Or.inl rfl⟩
    · rename_i rows hp
      split
      · by_cases he : o = p
        · subst he
          rw [h] at hp; injection hp with hp; subst hp
          exact ⟨.arr2 (rows ++ [vs]), by simp [putData_ios], Or.inr ⟨⟨[], Or.inr ⟨rows, rfl⟩⟩, Or.inr ⟨_, rfl⟩⟩⟩
        · exact ⟨d, by simp [putData_ios, he, h], Or.inl rfl⟩
      · exact ⟨d, h, Or.inl rfl⟩
    · exact ⟨d, h, Or.inl rfl⟩
  | listAppend i v => exact ⟨d, h, Or.inl rfl⟩

/-! ## C239: what is added -/

/-- the values a call adds to the list `i`: through a `DataIO` that wraps it, or directly -/
def toList (w : World) (i : Nat) : Op → List Int
  | .append o v => if (w.ios o).data = some (.list i) then [v] else []
  | .extend o vs => if (w.ios o).data = some (.list i) then vs else []
  | .listAppend j v => if j = i then [v] else []
  | .setData _ _ => []

/-- the values a history adds to the list `i`, in order -/
def allToList (i : Nat) : World → List Op → List Int
  | _, [] => []
  | w, op :: ops => toList w i op ++ allToList i (step w op).1 ops

/-- **C239 (lists).** After any history a list has what it had, followed by everything added to it, directly or through any `DataIO` that wraps it, in order; so all `DataIO`s with
the same list, and those who hold it, see the same. -/
theorem C239_list (i : Nat) (ops : List Op) : ∀ w, (run w ops).lists i = w.lists i ++ allToList i w ops := by
  induction ops with
  | nil => intro w; simp [run, allToList]
  | cons op ops ih =>
    intro w
    have hs : (step w op).1.lists i = w.lists i ++ toList w i op := by
      cases op with
      | setData o d =>
        simp only [step, setData, toList, List.append_nil]
        split
        · rfl
        · split <;> rfl
      | append o v =>
        simp only [step, append, toList]
        split
        · rename_i j hd
          simp only [putData, pushList, hd, Option.some.injEq, Data.list.injEq]
          by_cases hj : j = i
          · simp [hj]
          · simp [hj, Ne.symm hj]
        · rename_i l hd; simp [putData, hd]
        · rename_i h1 h2
          rw [if_neg (fun h => h1 i h)]; simp
      | extend o vs =>
        simp only [step, extend, toList]
        split
        · rename_i j hd
          simp only [putData, pushList, hd, Option.some.injEq, Data.list.injEq]
          by_cases hj : j = i
          · simp [hj]
          · simp [hj, Ne.symm hj]
        · rename_i l hd; split <;> simp [putData, hd]
        · rename_i l hd; split <;> simp [putData, hd]
        · rename_i h1 h2 h3
          rw [if_neg (fun h => h1 i h)]; simp
      | listAppend j v =>
        simp only [step, pushList, toList]
        by_cases hj : j = i
        · simp [hj]
        · simp [hj, Ne.symm hj]
    show (run (step w op).1 ops).lists i = _
    rw [ih, hs, allToList, List.append_assoc]

/-- the values appended through the `DataIO` with number `o` -/
def appended (o : Nat) : List Op → List Int
  | [] => []
  | .append p v :: ops => if p = o then v :: appended o ops else appended o ops
  | _ :: ops => appended o ops

/-- **C239 (arrays, partial).** After any history in which it is not extended, a `DataIO` with an array has an array of what there was and the values appended to it, in order;
nobody else's calls change it.  Missing: `extend`. -/
theorem C239_array_partial {o : Nat} (ops : List Op) (he : ∀ op ∈ ops, ∀ vs, op ≠ .extend o vs) : ∀ (w : World) (l : List Int),
    (w.ios o).data = some (.arr l) → ((run w ops).ios o).data = some (.arr (l ++ appended o ops)) := by
  induction ops with
  | nil => intro w l h; simpa [run, appended] using h
  | cons op ops ih =>
    intro w l h
    have ih := ih (fun op' h' => he op' (by simp [h']))
    have hop := he op (by simp)
    show ((run (step w op).1 ops).ios o).data = _
    cases op with
    | setData p d =>
      rw [appended]
      · refine ih _ l ?_
        simp only [step, setData]
        split
        · exact h
        · split
          · exact h
          · rename_i h1 _
            rw [putData_ios, if_neg]
            · exact h
            · rintro rfl; simp [h] at h1
      · intro p v h; cases h
    | append p v =>
      rw [appended]
      by_cases hp : p = o
      · subst hp
        rw [if_pos rfl, ih _ (l ++ [v]) (by simp [step, append, h, putData_ios])]
        simp
      · rw [if_neg hp]
        refine ih _ l ?_
        have hp' : o ≠ p := fun h => hp h.symm
        simp only [step, append]
        split <;> simp [putData_ios, hp', h, pushList]
    | extend p vs =>
      have hp' : o ≠ p := by rintro rfl; exact hop vs rfl
      rw [appended]
      · refine ih _ l ?_
        simp only [step, extend]
        split
        · simp [putData_ios, hp', h, pushList]
        · split <;> simp [putData_ios, hp', h]
        · split <;> simp [putData_ios, hp', h]
        · exact h
      · intro p v h; cases h
    | listAppend i v =>
      rw [appended]
      · exact ih _ l h
      · intro p v h; cases h

/-- **C239 (refused).** A call that is refused changes nothing. -/
theorem C239_refused {w : World} {op : Op} {e : Err} (h : (step w op).2 = .error e) : (step w op).1 = w := by
  cases op with
  | setData o d =>
    simp only [step, setData] at h ⊢
    split
    · rfl
    · rename_i h1
      rw [if_neg h1] at h
      split
      · rfl
      · rename_i h2
        rw [if_neg h2] at h
        cases h
  | append o v => simp only [step, append] at h ⊢; split <;> simp_all
  | extend o vs =>
    simp only [step, extend] at h ⊢
    split
    · simp_all
    · split <;> simp_all
    · split <;> simp_all
    · rfl
  | listAppend i v => simp [step] at h

/-! ## C240: no data -/

/-- **C240 (partial).** A `DataIO` made without data, dtype and shape is false and gives no length and no elements until data are set, which is possible; with dtype and shape it never
gets data.  Missing: with a shape it has a length. -/
theorem C240_invalid_partial {w : World} {o : Nat} (hd : (w.ios o).data = none) :
    truth w (w.ios o) = .ok false ∧ (∀ j, get w (w.ios o) j = .error .runtimeError) ∧
    ((w.ios o).shape = none → len w (w.ios o) = .error .runtimeError) ∧
    ((w.ios o).shape = none → (w.ios o).dtype = none → ∀ d, (step w (.setData o d)).2 = .ok () ∧ ((step w (.setData o d)).1.ios o).data = some d) ∧
    ((w.ios o).shape ≠ none → ∀ ops, (run w ops).ios o = w.ios o) := by
  refine ⟨by simp [truth, hd], by simp [get, hd], by intro hs; simp [len, hd, hs], ?_, ?_⟩
  · intro hs ht d
    simp [step, setData, hd, hs, ht, putData_ios]
  · intro hs ops
    induction ops generalizing w with
    | nil => rfl
    | cons op ops ih =>
      have h1 : (step w op).1.ios o = w.ios o := by
        cases op with
        | setData p d =>
          simp only [step, setData]
          split
          · rfl
          · split
            · rfl
            · rename_i h1 h2
              rw [putData_ios, if_neg]
              rintro rfl
              cases hx : (w.ios o).shape with
              | none => exact hs hx
              | some x => simp [hx] at h2
        | append p v =>
          simp only [step, append]
          split
          · rename_i i hp
            rw [putData_ios, if_neg]
            · rfl
            · rintro rfl; rw [hd] at hp; cases hp
          · rename_i l hp
            rw [putData_ios, if_neg]
            rintro rfl; rw [hd] at hp; cases hp
          · rfl
        | extend p vs =>
          simp only [step, extend]
          split
          · rename_i i hp
            rw [putData_ios, if_neg]
            · rfl
            · rintro rfl; rw [hd] at hp; cases hp
          · rename_i l hp
            split
            · rw [putData_ios, if_neg]
              rintro rfl; rw [hd] at hp; cases hp
            · rfl
          · rename_i l hp
            split
            · rw [putData_ios, if_neg]
              rintro rfl; rw [hd] at hp; cases hp
            · rfl
          · rfl
        | listAppend i v => rfl
      have := ih (w := (step w op).1) (by rw [h1]; exact hd) (by rw [h1]; exact hs)
      show (run (step w op).1 ops).ios o = _
      rw [this, h1]

/-- **C240 (made).** `DataIO(...)` is refused iff there are no data and only one of dtype and shape; otherwise it has the data it was given, and then no dtype and shape of its own. -/
theorem C240_made (d : Option Data) (dt : Option String) (sh : Option (List Nat)) :
    ((∃ e, new d dt sh = .error e) ↔ d = none ∧ (dt = none ↔ sh ≠ none)) ∧
    ∀ io, new d dt sh = .ok io → io.data = d ∧ (io.data.isSome → io.shape = none ∧ io.dtype = none) := by
  refine ⟨?_, fun io h => new_sound h⟩
  cases d with
  | some d => simp [new]
  | none => cases dt <;> cases sh <;> simp [new]

/-! ## Concrete cases -/

/-- `DataIO`s 0 and 1 wrap the list 0, 2 wraps an array, 3 nothing, 4 a shape, 5 a tuple, 6 an iterator without end -/
def ex : World where
  lists _ := [7]
  ios o := match o with
    | 0 => ⟨some (.list 0), none, none⟩
    | 1 => ⟨some (.list 0), none, none⟩
    | 2 => ⟨some (.arr [1, 2]), none, none⟩
    | 3 => ⟨none, none, none⟩
    | 4 => ⟨none, some "int", some [5]⟩
    | 5 => ⟨some (.tuple [1]), none, none⟩
    | _ => ⟨some (.iter none), none, none⟩

/-- non-vacuity of the theorems of C238, C239 and C240 -/
example : Sound ex ∧ ((run ex [.append 0 8, .append 2 3, .extend 1 [9, 10], .listAppend 0 11, .setData 3 (.list 0)]).lists 0 = [7, 8, 9, 10, 11]) ∧
    ((run ex [.append 0 8, .append 2 3, .extend 1 [9, 10]]).ios 2).data = some (.arr [1, 2, 3]) ∧
    ((run ex [.setData 3 (.list 0), .setData 3 (.list 1), .append 3 4]).ios 3).data = some (.list 0) ∧
    (step ex (.append 5 1)).2 = .error .valueError := by
  refine ⟨?_, by decide, by decide, by decide, by rfl⟩
  intro o
  match o with
  | 0 | 1 | 2 | 3 | 4 | 5 => simp [ex]
  | n + 6 => simp [ex]

/-- **C238 fails** for an iterator without a known end: it has data and is true, but has no length. -/
theorem C238_iterator_fails : (ex.ios 6).data = some (.iter none) ∧ truth ex (ex.ios 6) = .ok true ∧ len ex (ex.ios 6) = .error .typeError ∧
    get ex (ex.ios 6) 0 = .error .typeError := ⟨rfl, rfl, rfl, rfl⟩

/-- **C239 fails** for `extend` on an array: with as many values as there are it becomes two rows, otherwise the values are refused; and for a tuple. -/
theorem C239_extend_fails : ((step ex (.extend 2 [3, 4])).1.ios 2).data = some (.arr2 [[1, 2], [3, 4]]) ∧
    (step ex (.extend 2 [3])).2 = .error .valueError ∧ (step ex (.extend 5 [3])).2 = .error .valueError := ⟨by decide, rfl, rfl⟩

/-- **C240 fails** for a `DataIO` with a shape and no data: it has a length, but is false and has no elements. -/
theorem C240_shape_fails : len ex (ex.ios 4) = .ok 5 ∧ truth ex (ex.ios 4) = .ok false ∧ get ex (ex.ios 4) 0 = .error .runtimeError ∧
    valid (ex.ios 4) = false := ⟨rfl, rfl, rfl, rfl⟩

end Verif.Wrap

import Verif.Model.Repr

/-!
# Properties of the text that shows a container
-/

namespace Verif.Repr
open Verif

/-! ## Keys -/

/-- keys that can be compared, in order -/
def KeyLe : Key → Key → Prop
  | .str a, .str b => a ≤ b
  | .int a, .int b => a ≤ b
  | _, _ => False

/-- the keys are all strings or all numbers -/
def Comparable (l : List Key) : Prop := (∀ k ∈ l, ∃ s, k = .str s) ∨ ∀ k ∈ l, ∃ n, k = .int n

theorem ints_nil {l : List Key} (h : ints l = []) : l = (strs l).map .str := by
  induction l with
  | nil => rfl
  | cons k l ih => cases k with
    | str s => simp only [ints] at h; simp only [strs, List.map_cons]; rw [← ih h]
    | int n => simp [ints] at h

theorem strs_nil {l : List Key} (h : strs l = []) : l = (ints l).map .int := by
  induction l with
  | nil => rfl
  | cons k l ih => cases k with
    | int n => simp only [strs] at h; simp only [ints, List.map_cons]; rw [← ih h]
    | str s => simp [strs] at h

theorem mem_strs {l : List Key} {s : Text} : s ∈ strs l ↔ Key.str s ∈ l := by
  induction l with
  | nil => simp [strs]
  | cons k l ih => cases k <;> simp [strs, ih]

theorem mem_ints {l : List Key} {n : Nat} : n ∈ ints l ↔ Key.int n ∈ l := by
  induction l with
  | nil => simp [ints]
  | cons k l ih => cases k <;> simp [ints, ih]

theorem sortKeys_ok {l ks : List Key} (h : sortKeys l = .ok ks) : ks.Perm l ∧ ks.Pairwise KeyLe := by
  unfold sortKeys at h
  split at h
  · rename_i hs
    injection h with h; subst h
    refine ⟨?_, ?_⟩
    · conv => rhs; rw [strs_nil hs]
      exact (List.perm_insertionSort _ _).map _
    · rw [List.pairwise_map]
      exact (List.pairwise_insertionSort (· ≤ ·) _).imp (fun h => h)
  · injection h with h; subst h
    refine ⟨?_, ?_⟩
    · have hi : ints l = [] := by assumption
      conv => rhs; rw [ints_nil hi]
      exact (List.perm_insertionSort _ _).map _
    · rw [List.pairwise_map]
      exact (List.pairwise_insertionSort (· ≤ ·) _).imp (fun h => h)
  · cases h

theorem sortKeys_iff {l : List Key} : (∃ ks, sortKeys l = .ok ks) ↔ Comparable l := by
  constructor
  · rintro ⟨ks, h⟩
    unfold sortKeys at h
    split at h
    · rename_i hs
      right; intro k hk; rw [strs_nil hs] at hk
      obtain ⟨n, _, rfl⟩ := List.mem_map.1 hk; exact ⟨n, rfl⟩
    · have hi : ints l = [] := by assumption
      left; intro k hk; rw [ints_nil hi] at hk
      obtain ⟨n, _, rfl⟩ := List.mem_map.1 hk; exact ⟨n, rfl⟩
    · cases h
  · intro h
    unfold sortKeys
    split
    · exact ⟨_, rfl⟩
    · exact ⟨_, rfl⟩
    · rename_i hs hi
      exfalso
      obtain ⟨s, hs⟩ := List.exists_mem_of_ne_nil _ hs
      obtain ⟨n, hn⟩ := List.exists_mem_of_ne_nil _ hi
      rw [mem_strs] at hs
      rw [mem_ints] at hn
      rcases h with h | h
      · obtain ⟨_, he⟩ := h _ hn; cases he
      · obtain ⟨_, he⟩ := h _ hs; cases he

theorem sortKeys_error {l : List Key} {e : Err} (h : sortKeys l = .error e) : e = .typeError := by
  unfold sortKeys at h
  split at h <;> first | cases h; done | (injection h with h; exact h.symm)

/-! ## C236: lists, dictionaries and sets -/

/-- brackets around lines with commas between them: the elements are indented one step more than the closing bracket; nothing between the brackets is shown as a blank -/
def Bracketed (n : Nat) (left right : Char) (ts : List Text) (t : Text) : Prop :=
  (ts = [] ∧ t = [left, ' ', right]) ∨
  (ts ≠ [] ∧ t = [left] ++ List.intercalate [','] (ts.map fun u => ['\n'] ++ List.replicate (2 * n + 2) ' ' ++ u) ++
    ['\n'] ++ List.replicate (2 * n) ' ' ++ [right])

theorem rows_eq (n : Nat) : ∀ ts : List Text,
    rows n ts = List.intercalate [','] (ts.map fun u => ['\n'] ++ List.replicate (2 * n + 2) ' ' ++ u)
  | [] => rfl
  | [t] => by
    have : (n + 1) * 2 = 2 * n + 2 := by omega
    simp [rows, spaces, List.intercalate, this]
  | t :: u :: l => by
    have h := rows_eq n (u :: l)
    have : (n + 1) * 2 = 2 * n + 2 := by omega
    rw [rows, h]
    simp [spaces, List.intercalate, this]

theorem block_bracketed (n : Nat) (left right : Char) (ts : List Text) : Bracketed n left right ts (block n left right ts) := by
  cases ts with
  | nil => exact Or.inl ⟨rfl, rfl⟩
  | cons t ts =>
    right
    refine ⟨by simp, ?_⟩
    have : n * 2 = 2 * n := by omega
    simp only [block, rows_eq, spaces, this]
    simp

theorem smartAll_ok {h : Heap} {n : Nat} : ∀ {l : List Val} {ts : List Text}, smartAll h n l = .ok ts →
    List.Forall₂ (fun v t => smart h n v = .ok t) l ts
  | [], ts, hs => by
    simp only [smartAll] at hs; injection hs with hs; subst hs; exact .nil
  | v :: l, ts, hs => by
    simp only [smartAll] at hs
    cases hv : smart h n v with
    | error e => simp [hv, bind, Except.bind] at hs
    | ok t => cases hl : smartAll h n l with
      | error e => simp [hv, hl, bind, Except.bind] at hs
      | ok ts' =>
        simp only [hv, hl, bind, Except.bind, Except.ok.injEq] at hs
        subst hs
        exact .cons hv (smartAll_ok hl)

/-- **C236 (lists).** A list whose first element is a container, or that makes no array, is shown element by element, in order, each one step further in. -/
theorem C236_list {h : Heap} {n : Nat} {np : Option Text} {l : List Val} {t : Text} (hs : smart h n (.list np l) = .ok t)
    (hl : np = none ∨ ∃ o rest, l = .obj o :: rest) :
    ∃ ts, List.Forall₂ (fun v u => smart h (n + 1) v = .ok u) l ts ∧ Bracketed n '(' ')' ts t := by
  have key : (do let ts ← smartAll h (n + 1) l; Except.ok (block n '(' ')' ts)) = Except.ok t := by
    simp only [smart] at hs
    split at hs
    · rcases hl with hl | ⟨o, rest, rfl⟩
      · cases hl
      · rename_i h1; simp [startsWithObj] at h1
    · exact hs
  cases ha : smartAll h (n + 1) l with
  | error e => simp [ha, bind, Except.bind] at key
  | ok ts =>
    simp only [ha, bind, Except.bind, Except.ok.injEq] at key
    subst key
    exact ⟨ts, smartAll_ok ha, block_bracketed _ _ _ _⟩

/-- **C236 (dictionaries).** A dictionary is shown with each key once, in order, and the type of its value. -/
theorem C236_dict {h : Heap} {n : Nat} {l : List (Key × Text)} {t : Text} (hn : (l.map Prod.fst).Nodup)
    (hs : smart h n (.dict l) = .ok t) :
    ∃ l' : List (Key × Text), l'.Perm l ∧ (l'.map Prod.fst).Pairwise KeyLe ∧
      Bracketed n '{' '}' (l'.map fun p => p.1.text ++ [' '] ++ p.2) t := by
  simp only [smart] at hs
  cases hk : sortKeys (l.map Prod.fst) with
  | error e => simp [hk, bind, Except.bind] at hs
  | ok ks =>
    simp only [hk, bind, Except.bind, Except.ok.injEq] at hs
    subst hs
    obtain ⟨hp, ho⟩ := sortKeys_ok hk
    have hperm : (ks.map fun k => (k, (Dict.get? l k).getD [])).Perm l := by
      have h1 := hp.map (fun k => (k, (Dict.get? l k).getD []))
      refine h1.trans ?_
      rw [List.map_map]
      have : l.map ((fun k => (k, (Dict.get? l k).getD [])) ∘ Prod.fst) = l := by
        conv => rhs; rw [← List.map_id l]
        apply List.map_congr_left
        rintro ⟨k, v⟩ hm
        have : Dict.get? l k = some v := Dict.get?_of_mem hn hm
        simp [this]
      rw [this]
    refine ⟨_, hperm, ?_, ?_⟩
    · rw [List.map_map]
      have : (Prod.fst ∘ fun k : Key => (k, (Dict.get? l k).getD [])) = id := rfl
      rw [this, List.map_id]; exact ho
    · rw [List.map_map]
      have := block_bracketed n '{' '}' (ks.map fun k => k.text ++ ' ' :: (Dict.get? l k).getD [])
      simpa [Function.comp_def] using this

/-- **C236 (sets).** A set is shown with each element once, in order. -/
theorem C236_set {h : Heap} {n : Nat} {l : List Key} {t : Text} (hs : smart h n (.set l) = .ok t) :
    ∃ l' : List Key, l'.Perm l ∧ l'.Pairwise KeyLe ∧ Bracketed n '{' '}' (l'.map Key.text) t := by
  simp only [smart] at hs
  cases hk : sortKeys l with
  | error e => simp [hk, bind, Except.bind] at hs
  | ok ks =>
    simp only [hk, bind, Except.bind, Except.ok.injEq] at hs
    subst hs
    exact ⟨ks, (sortKeys_ok hk).1, (sortKeys_ok hk).2, block_bracketed _ _ _ _⟩

/-! ## C235: the fields -/

/-- the empty values that are not shown -/
def Hidden (h : Heap) (v : Val) : Prop :=
  (∃ s, v = .sized s (some false)) ∨ v = .dict [] ∨ v = .set [] ∨ ∃ o, v = .obj o ∧ (h o).len = some 0

/-- what is shown of a field: a container without length with all its fields, everything else short -/
def Shown (h : Heap) (f : Nat) (v : Val) (t : Text) : Prop :=
  (∃ o, v = .obj o ∧ (h o).len = none ∧ repr h f o = .ok t) ∨ ((∀ o, v = .obj o → (h o).len ≠ none) ∧ smart h 1 v = .ok t)

theorem fieldText_ok {h : Heap} {f : Nat} {v : Val} {r : Option Text} (hr : fieldText h (repr h f) v = .ok r) :
    (Hidden h v ∧ r = none) ∨ (¬ Hidden h v ∧ ∃ t, r = some t ∧ Shown h f v t) := by
  cases v with
  | plain s =>
    simp only [fieldText, Except.ok.injEq] at hr
    right; exact ⟨by simp [Hidden], s, hr.symm, Or.inr ⟨by simp, by simp [smart]⟩⟩
  | obj o =>
    simp only [fieldText] at hr
    cases hl : (h o).len with
    | none =>
      simp only [hl] at hr
      cases hrec : repr h f o with
      | error e => simp [hrec, bind, Except.bind] at hr
      | ok t =>
        simp only [hrec, bind, Except.bind, Except.ok.injEq] at hr
        right
        exact ⟨by simp [Hidden, hl], t, hr.symm, Or.inl ⟨o, rfl, hl, hrec⟩⟩
    | some n => cases n with
      | zero =>
        simp only [hl, Except.ok.injEq] at hr
        left; exact ⟨Or.inr (Or.inr (Or.inr ⟨o, rfl, hl⟩)), hr.symm⟩
      | succ n =>
        simp only [hl, smart, bind, Except.bind, Except.ok.injEq] at hr
        right
        refine ⟨by simp [Hidden, hl], _, hr.symm, Or.inr ⟨?_, by simp [smart]⟩⟩
        intro o' he; injection he with he; subst he; simp [hl]
  | sized s b =>
    cases b with
    | none => simp [fieldText, truth, bind, Except.bind] at hr
    | some b => cases b with
      | false =>
        simp [fieldText, truth, bind, Except.bind] at hr
        left; exact ⟨Or.inl ⟨s, rfl⟩, hr.symm⟩
      | true =>
        simp [fieldText, truth, smart, bind, Except.bind] at hr
        right; exact ⟨by simp [Hidden], s, hr.symm, Or.inr ⟨by simp, by simp [smart]⟩⟩
  | arr s =>
    simp [fieldText, truth, smart, bind, Except.bind] at hr
    right; exact ⟨by simp [Hidden], s, hr.symm, Or.inr ⟨by simp, by simp [smart]⟩⟩
  | list np l =>
    simp only [fieldText, truth, bind, Except.bind, if_true] at hr
    cases hs : smart h 1 (.list np l) with
    | error e => simp [hs] at hr
    | ok t =>
      simp only [hs, Except.ok.injEq] at hr
      right; exact ⟨by simp [Hidden], t, hr.symm, Or.inr ⟨by simp, hs⟩⟩
  | dict l =>
    cases l with
    | nil =>
      simp [fieldText, truth, bind, Except.bind] at hr
      left; exact ⟨Or.inr (Or.inl rfl), hr.symm⟩
    | cons a l =>
      simp only [fieldText, truth, bind, Except.bind, List.isEmpty_cons, Bool.not_false, if_true] at hr
      cases hs : smart h 1 (.dict (a :: l)) with
      | error e => simp [hs] at hr
      | ok t =>
        simp only [hs, Except.ok.injEq] at hr
        right; exact ⟨by simp [Hidden], t, hr.symm, Or.inr ⟨by simp, hs⟩⟩
  | set l =>
    cases l with
    | nil =>
      simp [fieldText, truth, bind, Except.bind] at hr
      left; exact ⟨Or.inr (Or.inr (Or.inl rfl)), hr.symm⟩
    | cons a l =>
      simp only [fieldText, truth, bind, Except.bind, List.isEmpty_cons, Bool.not_false, if_true] at hr
      cases hs : smart h 1 (.set (a :: l)) with
      | error e => simp [hs] at hr
      | ok t =>
        simp only [hs, Except.ok.injEq] at hr
        right; exact ⟨by simp [Hidden], t, hr.symm, Or.inr ⟨by simp, hs⟩⟩

theorem loop_ok {h : Heap} {f : Nat} {fs : Dict Text Val} : ∀ {ks : List Text} {r : Text}, loop h (repr h f) fs ks = .ok r →
    ∃ shown : List (Text × Text), r = shown.flatMap (fun p => "  ".toList ++ p.1 ++ ": ".toList ++ p.2 ++ "\n".toList) ∧
      (shown.map Prod.fst).Sublist ks ∧
      (∀ p ∈ shown, ∃ v, Dict.get? fs p.1 = some v ∧ ¬ Hidden h v ∧ Shown h f v p.2) ∧
      (∀ k ∈ ks, ∀ v, Dict.get? fs k = some v → ¬ Hidden h v → k ∈ shown.map Prod.fst)
  | [], r, hr => by
    simp only [loop, Except.ok.injEq] at hr; subst hr
    exact ⟨[], by simp, by simp, by simp, by simp⟩
  | k :: ks, r, hr => by
    simp only [loop] at hr
    cases hg : Dict.get? fs k with
    | none => simp [hg] at hr
    | some v =>
      simp only [hg] at hr
      cases ht : fieldText h (repr h f) v with
      | error e => simp [ht, bind, Except.bind] at hr
      | ok t => cases hl : loop h (repr h f) fs ks with
        | error e => simp [ht, hl, bind, Except.bind] at hr
        | ok r' =>
          simp only [ht, hl, bind, Except.bind, Except.ok.injEq] at hr
          subst hr
          obtain ⟨shown, h1, h2, h3, h4⟩ := loop_ok hl
          rcases fieldText_ok ht with ⟨hh, rfl⟩ | ⟨hh, u, rfl, hu⟩
          · refine ⟨shown, by simpa using h1, h2.cons _, h3, ?_⟩
            intro k' hk' v' hv' hn
            rcases List.mem_cons.1 hk' with rfl | hk'
            · rw [hg] at hv'; injection hv' with hv'; subst hv'; exact absurd hh hn
            · exact h4 k' hk' v' hv' hn
          · refine ⟨(k, u) :: shown, by simp [line, h1], by simpa using h2.cons_cons k, ?_, ?_⟩
            · intro p hp
              rcases List.mem_cons.1 hp with rfl | hp
              · exact ⟨v, hg, hh, hu⟩
              · exact h3 p hp
            · intro k' hk' v' hv' hn
              rcases List.mem_cons.1 hk' with rfl | hk'
              · simp
              · simp only [List.map_cons, List.mem_cons]; exact Or.inr (h4 k' hk' v' hv' hn)

/-- **C235 (partial).** If a container can be shown, the text is its name and class followed by one line for each field whose value is not empty, in the order of the names, none
twice.  Missing: fields whose value is an empty dictionary, set, string or table (but not an empty list) are left out. -/
theorem C235_fields_partial {h : Heap} {f o : Nat} {t : Text} (hn : (Dict.keys (h o).fields).Nodup) (hr : repr h (f + 1) o = .ok t) :
    ∃ shown : List (Text × Text),
      t = (h o).name ++ " ".toList ++ (h o).cls ++ (if (h o).fields = [] then [] else "\nFields:\n".toList) ++
        shown.flatMap (fun p => "  ".toList ++ p.1 ++ ": ".toList ++ p.2 ++ "\n".toList) ∧
      (shown.map Prod.fst).Pairwise (· < ·) ∧
      (∀ p ∈ shown, ∃ v, Dict.get? (h o).fields p.1 = some v ∧ Shown h f v p.2) ∧
      ∀ k, k ∈ shown.map Prod.fst ↔ ∃ v, Dict.get? (h o).fields k = some v ∧ ¬ Hidden h v := by
  simp only [repr] at hr
  cases hl : loop h (repr h f) (h o).fields ((Dict.keys (h o).fields).insertionSort (· ≤ ·)) with
  | error e => simp [hl, bind, Except.bind] at hr
  | ok r =>
    simp only [hl, bind, Except.bind, Except.ok.injEq] at hr
    subst hr
    obtain ⟨shown, h1, h2, h3, h4⟩ := loop_ok hl
    refine ⟨shown, ?_, ?_, fun p hp => ?_, fun k => ⟨?_, ?_⟩⟩
    · rw [← h1]
      cases hf : (h o).fields <;> simp [header, hf]
    · refine List.Pairwise.sublist h2 ?_
      have hs := List.pairwise_insertionSort (· ≤ ·) (Dict.keys (h o).fields)
      have hnd : ((Dict.keys (h o).fields).insertionSort (· ≤ ·)).Nodup := (List.perm_insertionSort _ _).nodup_iff.2 hn
      exact (hs.and hnd).imp (fun hab => lt_of_le_of_ne hab.1 hab.2)
    · obtain ⟨v, hv, _, hs⟩ := h3 p hp; exact ⟨v, hv, hs⟩
    · intro hk
      obtain ⟨p, hp, rfl⟩ := List.mem_map.1 hk
      obtain ⟨v, hv, hh, _⟩ := h3 p hp; exact ⟨v, hv, hh⟩
    · rintro ⟨v, hv, hh⟩
      refine h4 k ?_ v hv hh
      rw [(List.perm_insertionSort _ _).mem_iff]
      exact Dict.mem_keys_of_mem (Dict.mem_of_get? hv)

/-! ## C237: the text can be made -/

mutual
/-- dictionaries and sets in a value have keys that can be compared -/
def Sortable : Val → Prop
  | .list none l => SortableAll l
  | .list (some _) (.obj _ :: l) => SortableAll l
  | .dict l => Comparable (l.map Prod.fst)
  | .set l => Comparable l
  | _ => True
def SortableAll : List Val → Prop
  | [] => True
  | v :: l => Sortable v ∧ SortableAll l
end

mutual
theorem smart_ok {h : Heap} : ∀ (v : Val) (n : Nat), Sortable v → ∃ t, smart h n v = .ok t
  | .plain s, n, _ => ⟨_, by rw [smart]⟩
  | .sized s _, n, _ => ⟨_, by rw [smart]⟩
  | .arr s, n, _ => ⟨_, by rw [smart]⟩
  | .obj o, n, _ => ⟨_, by rw [smart]⟩
  | .list np l, n, hs => by
    cases np with
    | none =>
      obtain ⟨ts, hts⟩ := smartAll_total (h := h) l (n + 1) (by simpa [Sortable] using hs)
      exact ⟨block n '(' ')' ts, by simp [smart, hts, bind, Except.bind]⟩
    | some s =>
      match l, hs with
      | .obj o :: l, hs =>
        obtain ⟨ts, hts⟩ := smartAll_total (h := h) l (n + 1) (by simpa [Sortable] using hs)
        exact ⟨block n '(' ')' (((h o).name ++ ' ' :: (h o).type) :: ts),
          by simp only [smart, startsWithObj, smartAll, hts, bind, Except.bind]⟩
      | [], _ => exact ⟨s, by simp only [smart, startsWithObj]⟩
      | .plain _ :: l, _ => exact ⟨s, by simp only [smart, startsWithObj]⟩
      | .sized _ _ :: l, _ => exact ⟨s, by simp only [smart, startsWithObj]⟩
      | .arr _ :: l, _ => exact ⟨s, by simp only [smart, startsWithObj]⟩
      | .list _ _ :: l, _ => exact ⟨s, by simp only [smart, startsWithObj]⟩
      | .dict _ :: l, _ => exact ⟨s, by simp only [smart, startsWithObj]⟩
      | .set _ :: l, _ => exact ⟨s, by simp only [smart, startsWithObj]⟩
  | .dict l, n, hs => by
    rw [smart]
    obtain ⟨ks, hk⟩ := sortKeys_iff.2 (show Comparable (l.map Prod.fst) by simpa [Sortable] using hs)
    simp [hk, bind, Except.bind]
  | .set l, n, hs => by
    rw [smart]
    obtain ⟨ks, hk⟩ := sortKeys_iff.2 (show Comparable l by simpa [Sortable] using hs)
    simp [hk, bind, Except.bind]
theorem smartAll_total {h : Heap} : ∀ (l : List Val) (n : Nat), SortableAll l → ∃ ts, smartAll h n l = .ok ts
  | [], n, _ => ⟨_, by rw [smartAll]⟩
  | v :: l, n, hs => by
    simp only [SortableAll] at hs
    obtain ⟨t, ht⟩ := smart_ok (h := h) v n hs.1
    obtain ⟨ts, hts⟩ := smartAll_total (h := h) l n hs.2
    exact ⟨t :: ts, by rw [smartAll]; simp [ht, hts, bind, Except.bind]⟩
end

/-- a value of a field does no harm: its keys can be compared and it knows whether it is empty -/
def Harmless (v : Val) : Prop := Sortable v ∧ ∀ s, v ≠ .sized s none

theorem fieldText_total {h : Heap} {rec : Nat → Except Err Text} {v : Val} (hv : Harmless v)
    (hrec : ∀ o, v = .obj o → (h o).len = none → ∃ t, rec o = .ok t) : ∃ r, fieldText h rec v = .ok r := by
  obtain ⟨t, ht⟩ := smart_ok (h := h) v 1 hv.1
  cases v with
  | plain s => exact ⟨_, by rw [fieldText]⟩
  | obj o =>
    simp only [fieldText]
    cases hl : (h o).len with
    | none => obtain ⟨t, hr⟩ := hrec o rfl hl; simp [hr, bind, Except.bind]
    | some n => cases n <;> simp [smart, bind, Except.bind]
  | sized s b =>
    cases b with
    | none => exact absurd rfl (hv.2 s)
    | some b => cases b <;> simp [fieldText, truth, smart, bind, Except.bind]
  | arr s => simp [fieldText, truth, smart, bind, Except.bind]
  | list np l => simp [fieldText, truth, ht, bind, Except.bind]
  | dict l => cases l <;> simp [fieldText, truth, ht, bind, Except.bind]
  | set l => cases l <;> simp [fieldText, truth, ht, bind, Except.bind]

theorem loop_total {h : Heap} {rec : Nat → Except Err Text} {fs : Dict Text Val}
    (hf : ∀ k v, Dict.get? fs k = some v → ∃ r, fieldText h rec v = .ok r) : ∀ ks : List Text, (∀ k ∈ ks, k ∈ Dict.keys fs) →
      ∃ r, loop h rec fs ks = .ok r
  | [], _ => ⟨_, by rw [loop]⟩
  | k :: ks, hk => by
    obtain ⟨r, hr⟩ := loop_total hf ks (fun k' hk' => hk k' (by simp [hk']))
    rw [loop]
    cases hg : Dict.get? fs k with
    | none => exact absurd (hk k (by simp)) (Dict.get?_eq_none_iff.1 hg)
    | some v =>
      obtain ⟨t, ht⟩ := hf k v hg
      simp [ht, hr, bind, Except.bind]

/-- **C237 (partial).** If the containers without length that are fields of one another form no cycle, and the values of fields do no harm, every container can be shown, with a stack
as deep as the nesting.  Missing: cycles, keys of different kinds, and values that do not know whether they are empty. -/
theorem C237_shown_partial {h : Heap} {rank : Nat → Nat}
    (hr : ∀ o k o', Dict.get? (h o).fields k = some (.obj o') → (h o').len = none → rank o' < rank o)
    (hv : ∀ o k v, Dict.get? (h o).fields k = some v → Harmless v) : ∀ f o, rank o < f → ∃ t, repr h f o = .ok t
  | 0, _, hf => by omega
  | f + 1, o, hf => by
    simp only [repr]
    obtain ⟨r, hl⟩ := loop_total (h := h) (rec := repr h f) (fs := (h o).fields)
      (fun k v hg => fieldText_total (hv o k v hg) (fun o' he hlen => by
        subst he
        exact C237_shown_partial hr hv f o' (by have := hr o k o' hg hlen; omega)))
      ((Dict.keys (h o).fields).insertionSort (· ≤ ·)) (fun k hk => (List.perm_insertionSort _ _).mem_iff.1 hk)
    simp [hl, bind, Except.bind]

/-! ## Concrete cases -/

def isOk (r : Except Err Text) (s : String) : Bool := match r with
  | .ok t => t = s.toList
  | .error _ => false

def isErr (r : Except Err Text) (e : Err) : Bool := match r with
  | .ok _ => false
  | .error e' => e' = e

/-- a container 0 with a container 1, a table 2 with rows, a table 3 without, and so on -/
def exHeap : Heap := fun o => match o with
  | 0 => ⟨"lab".toList, "m.Lab".toList, "<class 'm.Lab'>".toList, none,
      [("sub".toList, .obj 1), ("all".toList, .list none [.obj 1, .obj 2]), ("notes".toList, .dict [(.str "b".toList, "<int>".toList), (.str "a".toList, "<str>".toList)]),
       ("table".toList, .obj 2), ("empty".toList, .obj 3), ("list".toList, .list (some "[]".toList) []), ("text".toList, .sized [] (some false)),
       ("tags".toList, .set [.int 10, .int 2])]⟩
  | 1 => ⟨"dev".toList, "m.Dev".toList, "<class 'm.Dev'>".toList, none, [("x".toList, .plain "1".toList)]⟩
  | 2 => ⟨"t".toList, "m.T".toList, "<class 'm.T'>".toList, some 4, [("y".toList, .plain "2".toList)]⟩
  | _ => ⟨"e".toList, "m.T".toList, "<class 'm.T'>".toList, some 0, []⟩

/-- non-vacuity of `C235_fields_partial` and the theorems of C236 -/
example : isOk (repr exHeap 2 0) ("lab m.Lab\nFields:\n  all: (\n    dev <class 'm.Dev'>,\n    t <class 'm.T'>\n  )\n  list: []\n" ++
    "  notes: {\n    a <str>,\n    b <int>\n  }\n  sub: dev m.Dev\nFields:\n  x: 1\n\n  table: t <class 'm.T'>\n  tags: {\n    2,\n    10\n  }\n") = true := by decide +kernel

/-- non-vacuity of `C237_shown_partial` -/
example : (∀ o k o', Dict.get? (exHeap o).fields k = some (.obj o') → (exHeap o').len = none → (if o' = 0 then 1 else 0) < (if o = 0 then 1 else 0)) ∧
    ∀ o k v, Dict.get? (exHeap o).fields k = some v → Harmless v := by
  have hm : ∀ o k v, Dict.get? (exHeap o).fields k = some v → (k, v) ∈ (exHeap o).fields := fun o k v hg => Dict.mem_of_get? hg
  constructor
  · intro o k o' hg hl
    have := hm o k _ hg
    match o with
    | 0 =>
      simp [exHeap] at this
      rcases this with ⟨_, rfl⟩ | ⟨_, rfl⟩ | ⟨_, rfl⟩ <;> simp
    | 1 => simp [exHeap] at this
    | 2 => simp [exHeap] at this
    | n + 3 => simp [exHeap] at this
  · intro o k v hg
    have := hm o k _ hg
    match o with
    | 0 =>
      simp [exHeap] at this
      rcases this with ⟨_, rfl⟩ | ⟨_, rfl⟩ | ⟨_, rfl⟩ | ⟨_, rfl⟩ | ⟨_, rfl⟩ | ⟨_, rfl⟩ | ⟨_, rfl⟩ | ⟨_, rfl⟩ <;> simp [Harmless, Sortable, SortableAll, Comparable]
    | 1 => simp [exHeap] at this; obtain ⟨_, rfl⟩ := this; simp [Harmless, Sortable]
    | 2 => simp [exHeap] at this; obtain ⟨_, rfl⟩ := this; simp [Harmless, Sortable]
    | n + 3 => simp [exHeap] at this

/-- **C235 fails**: an empty table and an empty text are fields, but not shown, though an empty list is. -/
theorem C235_hidden_fails : (Dict.get? (exHeap 0).fields "empty".toList).isSome = true ∧ Hidden exHeap (.obj 3) ∧ ¬ Hidden exHeap (.list (some "[]".toList) []) ∧
    isOk (repr (fun o => match o with | 0 => ⟨['a'], ['A'], [], none, [("empty".toList, .obj 3), ("list".toList, .list (some "[]".toList) [])]⟩ | o => exHeap o) 2 0)
      "a A\nFields:\n  list: []\n" = true := by
  refine ⟨by decide +kernel, Or.inr (Or.inr (Or.inr ⟨3, rfl, rfl⟩)), by simp [Hidden], by decide +kernel⟩

/-- **C237 fails** for two containers that are fields of each other: however deep the stack, it is exhausted. -/
theorem C237_cycle_fails : ∀ f o, repr (fun o => ⟨['a'], ['A'], [], none, [(['p'], .obj (1 - o))]⟩) f o = .error .runtimeError := by
  intro f
  induction f with
  | zero => intro o; rfl
  | succ f ih =>
    intro o
    simp only [repr]
    have : (Dict.keys [(['p'], Val.obj (1 - o))]).insertionSort (· ≤ ·) = [['p']] := rfl
    rw [this]
    simp [loop, Dict.get?, fieldText, ih, bind, Except.bind]

/-- **C237 fails** for a dictionary or a set with keys of different kinds, also inside a list, and for a value that does not know whether it is empty. -/
theorem C237_keys_fails :
    isErr (repr (fun _ => ⟨['a'], ['A'], [], none, [("d".toList, .dict [(.str "x".toList, []), (.int 1, [])])]⟩) 9 0) .typeError = true ∧
    isErr (repr (fun _ => ⟨['a'], ['A'], [], none, [("d".toList, .list none [.obj 1, .set [.str "x".toList, .int 1]])]⟩) 9 0) .typeError = true ∧
    isErr (repr (fun _ => ⟨['a'], ['A'], [], none, [("d".toList, .sized [] none)]⟩) 9 0) .valueError = true := by decide +kernel

/-- and exactly then: a dictionary can be shown iff its keys can be compared -/
theorem C237_dict_iff {h : Heap} {n : Nat} {l : List (Key × Text)} : (∃ t, smart h n (.dict l) = .ok t) ↔ Comparable (l.map Prod.fst) := by
  rw [← sortKeys_iff]
  simp only [smart]
  constructor
  · rintro ⟨t, ht⟩
    cases hk : sortKeys (l.map Prod.fst) with
    | error e => simp [hk, bind, Except.bind] at ht
    | ok ks => exact ⟨ks, rfl⟩
  · rintro ⟨ks, hk⟩; simp [hk, bind, Except.bind]

example : Comparable [.str "a".toList, .str "b".toList] ∧ ¬ Comparable [.str "a".toList, .int 1] := by simp [Comparable]

end Verif.Repr

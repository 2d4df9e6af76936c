import Verif.Model.Subspec

/-! # Lemmas: the tables of types and names of a group spec -/

namespace Verif.Subspec
open Verif List

/-- what the documentation says about the specs of a type: the unnamed one if there is one, the only one, or the list -/
def doc (l : List Sub) : Option Entry :=
  match l.find? (fun x => decide (x.name = none)) with
  | some u => some (.one u)
  | none => match l with
    | [] => none
    | [x] => some (.one x)
    | l => some (.many l)

theorem doc_unnamed {l : List Sub} {u : Sub} (h : l.find? (fun x => decide (x.name = none)) = some u) : doc l = some (.one u) := by
  unfold doc; rw [h]

theorem doc_nil : doc [] = none := rfl

theorem doc_single (x : Sub) : doc [x] = some (.one x) := by
  unfold doc
  cases hx : x.name with
  | none => simp [hx]
  | some n => simp [hx]

theorem doc_many {l : List Sub} (h : ∀ x ∈ l, x.name ≠ none) (h2 : 2 ≤ l.length) : doc l = some (.many l) := by
  have hf : l.find? (fun x => decide (x.name = none)) = none := by
    rw [find?_eq_none]; intro x hx; simpa using h x hx
  unfold doc
  rw [hf]
  match l, h2 with
  | _ :: _ :: _, _ => rfl

theorem find_append (l : List Sub) (x : Sub) : (l ++ [x]).find? (fun x => decide (x.name = none)) =
    (l.find? (fun x => decide (x.name = none))).or (if x.name = none then some x else none) := by
  rw [find?_append]
  congr 1
  by_cases h : x.name = none <;> simp [h]

theorem addType_spec (t : Dict String Entry) (dt : String) (x : Sub) (l : List Sub) (h : Dict.get? t dt = doc l) :
    (∃ t', addType t dt x = .ok t' ∧ (∀ dt', Dict.get? t' dt' = if dt' = dt then doc (l ++ [x]) else Dict.get? t dt') ∧
      ¬ (x.name = none ∧ ∃ u ∈ l, u.name = none)) ∨
    (addType t dt x = .error .valueError ∧ x.name = none ∧ ∃ u ∈ l, u.name = none) := by
  have hset : ∀ e, doc (l ++ [x]) = some e → ∀ dt', Dict.get? (Dict.set t dt e) dt' = if dt' = dt then doc (l ++ [x]) else Dict.get? t dt' := by
    intro e he dt'
    rw [Dict.get?_set]
    split
    · exact he.symm
    · rfl
  unfold addType
  cases hf : l.find? (fun x => decide (x.name = none)) with
  | some u =>
    have hu := find?_some hf
    have hul := mem_of_find?_eq_some hf
    simp only [decide_eq_true_eq] at hu
    rw [h, doc_unnamed hf]
    cases hx : x.name with
    | none => right; simp only [hx, hu]; exact ⟨trivial, trivial, u, hul, hu⟩
    | some n =>
      left
      refine ⟨t, by simp only [hx, hu], fun dt' => ?_, by simp⟩
      split
      · rename_i he
        subst he
        rw [h, doc_unnamed hf, doc_unnamed (u := u)]
        rw [find_append, hf]; rfl
      · rfl
  | none =>
    have hn : ∀ y ∈ l, y.name ≠ none := by
      intro y hy
      have := find?_eq_none.1 hf y hy
      simpa using this
    have hnx : ¬ (x.name = none ∧ ∃ u ∈ l, u.name = none) := fun ⟨_, u, hu, hun⟩ => hn u hu hun
    left
    have hd : x.name = none → doc (l ++ [x]) = some (.one x) := by
      intro hx
      apply doc_unnamed
      rw [find_append, hf]; simp [hx]
    match l, h, hf, hn with
    | [], h, _, _ =>
      rw [h, doc_nil]
      exact ⟨_, rfl, hset _ (doc_single x), hnx⟩
    | [y], h, _, hn =>
      rw [h, doc_single]
      have hy : y.name ≠ none := hn y (by simp)
      cases hyn : y.name with
      | none => exact absurd hyn hy
      | some m =>
        cases hx : x.name with
        | none =>
          refine ⟨Dict.set t dt (.one x), ?_, hset _ (hd hx), hx ▸ hnx⟩
          simp only [hx, hyn]
        | some n =>
          refine ⟨Dict.set t dt (.many [y, x]), by simp only [hx, hyn], hset _ (doc_many ?_ (by simp)), hx ▸ hnx⟩
          intro z hz
          simp only [cons_append, nil_append, mem_cons, not_mem_nil, or_false] at hz
          rcases hz with rfl | rfl <;> simp [hx, hyn]
    | y :: z :: l, h, _, hn =>
      rw [h, doc_many hn (by simp)]
      cases hx : x.name with
      | none => exact ⟨_, by simp only [hx], hset _ (hd hx), hx ▸ hnx⟩
      | some n =>
        refine ⟨_, by simp only [hx], hset _ (doc_many ?_ (by simp)), hx ▸ hnx⟩
        intro w hw
        rcases mem_append.1 hw with hw | hw
        · exact hn w hw
        · rw [mem_singleton.1 hw, hx]; simp

/-- the groups and datasets of a type -/
def datas (xs : List Sub) (dt : String) : List Sub := xs.filter fun x => decide (x.kind ≠ .link ∧ x.type = some dt)

/-- the links to a type -/
def lnks (xs : List Sub) (dt : String) : List Sub := xs.filter fun x => decide (x.kind = .link ∧ x.type = some dt)

/-- those of a kind and a name -/
def named (xs : List Sub) (k : Kind) (n : String) : List Sub := xs.filter fun x => decide (x.kind = k ∧ x.name = some n)

/-- what the tables hold after specs have been added -/
structure Inv (xs : List Sub) (s : GSpec) : Prop where
  data : ∀ dt, getDataType s dt = doc (datas xs dt)
  target : ∀ dt, getTargetType s dt = doc (lnks xs dt)
  groups : ∀ n, Dict.get? s.groups n = (named xs .group n).getLast?
  datasets : ∀ n, Dict.get? s.datasets n = (named xs .dataset n).getLast?
  links : ∀ n, Dict.get? s.links n = (named xs .link n).getLast?
  uniqueD : ∀ dt, ((datas xs dt).filter fun x => decide (x.name = none)).length ≤ 1
  uniqueL : ∀ dt, ((lnks xs dt).filter fun x => decide (x.name = none)).length ≤ 1
  typed : ∀ x ∈ xs, x.type = none → x.kind ≠ .link ∧ x.name ≠ none

/-- can the spec be added -/
def Fits (xs : List Sub) (x : Sub) : Prop :=
  (x.type = none → x.kind ≠ .link ∧ x.name ≠ none) ∧
  (x.name = none → ∀ y ∈ xs, y.name = none → y.type = x.type → (y.kind = .link ↔ x.kind = .link) → False)

theorem inv_empty : Inv [] {} := by
  constructor <;> intros <;> first | rfl | simp_all [datas, lnks]

theorem get_addName (t : Dict String Sub) (xs : List Sub) (k : Kind) (x : Sub) (h : ∀ n, Dict.get? t n = (named xs k n).getLast?)
    (hk : x.kind = k) (n : String) : Dict.get? (addName t x) n = (named (xs ++ [x]) k n).getLast? := by
  unfold addName named
  rw [filter_append]
  cases hx : x.name with
  | none => simp only [hx]; rw [h n]; simp [named, hx]
  | some m =>
    simp only
    rw [Dict.get?_set]
    split
    · rename_i he; subst he
      simp [hx, hk]
    · rename_i he
      rw [h n]
      have : ¬ (m = n) := fun hc => he hc.symm
      simp [named, hx, this]

theorem named_other (xs : List Sub) (k : Kind) (x : Sub) (hk : x.kind ≠ k) (n : String) : named (xs ++ [x]) k n = named xs k n := by
  unfold named
  rw [filter_append]
  simp [hk]

theorem datas_append (xs : List Sub) (x : Sub) (dt : String) : datas (xs ++ [x]) dt =
    datas xs dt ++ if x.kind ≠ .link ∧ x.type = some dt then [x] else [] := by
  unfold datas
  rw [filter_append]
  congr 1
  by_cases h : x.kind ≠ .link ∧ x.type = some dt <;> simp [filter, h]

theorem lnks_append (xs : List Sub) (x : Sub) (dt : String) : lnks (xs ++ [x]) dt =
    lnks xs dt ++ if x.kind = .link ∧ x.type = some dt then [x] else [] := by
  unfold lnks
  rw [filter_append]
  congr 1
  by_cases h : x.kind = .link ∧ x.type = some dt <;> simp [filter, h]

theorem count_append (l m : List Sub) (h : (l.filter fun x => decide (x.name = none)).length ≤ 1) (x : Sub) (hm : m = [] ∨ m = [x])
    (hc : m = [x] → ¬ (x.name = none ∧ ∃ u ∈ l, u.name = none)) :
    ((l ++ m).filter fun x => decide (x.name = none)).length ≤ 1 := by
  rcases hm with rfl | rfl
  · simpa using h
  · rw [filter_append, length_append]
    by_cases hx : x.name = none
    · have : l.filter (fun x => decide (x.name = none)) = [] := by
        rw [filter_eq_nil_iff]
        intro u hu hn
        exact hc rfl ⟨hx, u, hu, by simpa using hn⟩
      rw [this]; simp [hx]
    · simp [hx]; exact h

theorem fits_data (xs : List Sub) (x : Sub) (dt : String) (hk : x.kind ≠ .link) (ht : x.type = some dt) :
    Fits xs x ↔ ¬ (x.name = none ∧ ∃ u ∈ datas xs dt, u.name = none) := by
  unfold Fits datas
  simp only [ht, mem_filter, decide_eq_true_eq]
  constructor
  · rintro ⟨-, h⟩ ⟨hx, u, ⟨hu, hk', ht'⟩, hun⟩
    exact h hx u hu hun ht' (by simp [hk, hk'])
  · intro h
    refine ⟨by simp, fun hx y hy hyn hyt hyk => h ⟨hx, y, ⟨hy, ?_, hyt⟩, hyn⟩⟩
    exact fun hc => hk (hyk.1 hc)

theorem fits_link (xs : List Sub) (x : Sub) (dt : String) (hk : x.kind = .link) (ht : x.type = some dt) :
    Fits xs x ↔ ¬ (x.name = none ∧ ∃ u ∈ lnks xs dt, u.name = none) := by
  unfold Fits lnks
  simp only [ht, mem_filter, decide_eq_true_eq]
  constructor
  · rintro ⟨-, h⟩ ⟨hx, u, ⟨hu, hk', ht'⟩, hun⟩
    exact h hx u hu hun ht' (by simp [hk, hk'])
  · intro h
    exact ⟨by simp, fun hx y hy hyn hyt hyk => h ⟨hx, y, ⟨hy, hyk.2 hk, hyt⟩, hyn⟩⟩

/-- the type tables of a spec that is not a link -/
theorem data_step {xs : List Sub} {s : GSpec} (i : Inv xs s) {x : Sub} {dt : String} (hk : x.kind ≠ .link) (ht : x.type = some dt) :
    (∃ t', addType s.dataTypes dt x = .ok t' ∧ (∀ dt', Dict.get? t' dt' = doc (datas (xs ++ [x]) dt')) ∧
      (∀ dt', ((datas (xs ++ [x]) dt').filter fun x => decide (x.name = none)).length ≤ 1) ∧ Fits xs x) ∨
    (addType s.dataTypes dt x = .error .valueError ∧ ¬ Fits xs x) := by
  rw [fits_data xs x dt hk ht]
  rcases addType_spec s.dataTypes dt x _ (i.data dt) with ⟨t', h1, h2, h3⟩ | ⟨h1, h2⟩
  · refine .inl ⟨t', h1, fun dt' => ?_, fun dt' => ?_, h3⟩
    · rw [h2, datas_append]
      by_cases he : dt' = dt
      · subst he; rw [if_pos rfl, if_pos ⟨hk, ht⟩]
      · rw [if_neg he, if_neg, append_nil]
        · exact i.data dt'
        · rintro ⟨-, hc⟩; rw [ht] at hc; exact he (Option.some.inj hc).symm
    · rw [datas_append]
      apply count_append _ _ (i.uniqueD dt') x
      · split
        · exact .inr rfl
        · exact .inl rfl
      · intro hm
        split at hm
        · rename_i hc
          rw [ht] at hc
          cases hc.2
          exact h3
        · cases hm
  · exact .inr ⟨h1, fun h => h h2⟩

theorem link_step {xs : List Sub} {s : GSpec} (i : Inv xs s) {x : Sub} {dt : String} (hk : x.kind = .link) (ht : x.type = some dt) :
    (∃ t', addType s.targetTypes dt x = .ok t' ∧ (∀ dt', Dict.get? t' dt' = doc (lnks (xs ++ [x]) dt')) ∧
      (∀ dt', ((lnks (xs ++ [x]) dt').filter fun x => decide (x.name = none)).length ≤ 1) ∧ Fits xs x) ∨
    (addType s.targetTypes dt x = .error .valueError ∧ ¬ Fits xs x) := by
  rw [fits_link xs x dt hk ht]
  rcases addType_spec s.targetTypes dt x _ (i.target dt) with ⟨t', h1, h2, h3⟩ | ⟨h1, h2⟩
  · refine .inl ⟨t', h1, fun dt' => ?_, fun dt' => ?_, h3⟩
    · rw [h2, lnks_append]
      by_cases he : dt' = dt
      · subst he; rw [if_pos rfl, if_pos ⟨hk, ht⟩]
      · rw [if_neg he, if_neg, append_nil]
        · exact i.target dt'
        · rintro ⟨-, hc⟩; rw [ht] at hc; exact he (Option.some.inj hc).symm
    · rw [lnks_append]
      apply count_append _ _ (i.uniqueL dt') x
      · split
        · exact .inr rfl
        · exact .inl rfl
      · intro hm
        split at hm
        · rename_i hc
          rw [ht] at hc
          cases hc.2
          exact h3
        · cases hm
  · exact .inr ⟨h1, fun h => h h2⟩

theorem datas_link (xs : List Sub) (x : Sub) (dt : String) (h : x.kind = .link ∨ x.type = none) : datas (xs ++ [x]) dt = datas xs dt := by
  rw [datas_append, if_neg, append_nil]
  rintro ⟨h1, h2⟩
  rcases h with h | h
  · exact h1 h
  · rw [h] at h2; cases h2

theorem lnks_data (xs : List Sub) (x : Sub) (dt : String) (h : x.kind ≠ .link ∨ x.type = none) : lnks (xs ++ [x]) dt = lnks xs dt := by
  rw [lnks_append, if_neg, append_nil]
  rintro ⟨h1, h2⟩
  rcases h with h | h
  · exact h h1
  · rw [h] at h2; cases h2

theorem typed_append {xs : List Sub} {x : Sub} (h : ∀ x ∈ xs, x.type = none → x.kind ≠ .link ∧ x.name ≠ none)
    (hx : x.type = none → x.kind ≠ .link ∧ x.name ≠ none) : ∀ y ∈ xs ++ [x], y.type = none → y.kind ≠ .link ∧ y.name ≠ none := by
  intro y hy
  rcases mem_append.1 hy with hy | hy
  · exact h y hy
  · rw [mem_singleton.1 hy]; exact hx

theorem add_spec {xs : List Sub} {s : GSpec} (i : Inv xs s) (x : Sub) :
    (∃ s', add s x = .ok s' ∧ Inv (xs ++ [x]) s' ∧ Fits xs x) ∨ (∃ e, add s x = .error e) ∧ ¬ Fits xs x := by
  unfold add
  cases ht : x.type with
  | none =>
    have hfit : x.kind ≠ .link → x.name ≠ none → Fits xs x := fun hk hn => ⟨fun _ => ⟨hk, hn⟩, fun h => absurd h hn⟩
    cases hk : x.kind with
    | link => exact .inr ⟨⟨_, rfl⟩, fun h => (h.1 ht).1 hk⟩
    | group =>
      cases hn : x.name with
      | none => exact .inr ⟨⟨_, rfl⟩, fun h => (h.1 ht).2 hn⟩
      | some n =>
        have hf := hfit (by simp [hk]) (by simp [hn])
        refine .inl ⟨_, rfl, ⟨?_, ?_, ?_, ?_, ?_, ?_, ?_, typed_append i.typed hf.1⟩, hf⟩
        · intro dt; rw [datas_link _ _ _ (.inr ht)]; exact i.data dt
        · intro dt; rw [lnks_data _ _ _ (.inr ht)]; exact i.target dt
        · exact get_addName _ _ _ _ i.groups hk
        · intro n; rw [named_other _ _ _ (by simp [hk])]; exact i.datasets n
        · intro n; rw [named_other _ _ _ (by simp [hk])]; exact i.links n
        · intro dt; rw [datas_link _ _ _ (.inr ht)]; exact i.uniqueD dt
        · intro dt; rw [lnks_data _ _ _ (.inr ht)]; exact i.uniqueL dt
    | dataset =>
      cases hn : x.name with
      | none => exact .inr ⟨⟨_, rfl⟩, fun h => (h.1 ht).2 hn⟩
      | some n =>
        have hf := hfit (by simp [hk]) (by simp [hn])
        refine .inl ⟨_, rfl, ⟨?_, ?_, ?_, ?_, ?_, ?_, ?_, typed_append i.typed hf.1⟩, hf⟩
        · intro dt; rw [datas_link _ _ _ (.inr ht)]; exact i.data dt
        · intro dt; rw [lnks_data _ _ _ (.inr ht)]; exact i.target dt
        · intro n; rw [named_other _ _ _ (by simp [hk])]; exact i.groups n
        · exact get_addName _ _ _ _ i.datasets hk
        · intro n; rw [named_other _ _ _ (by simp [hk])]; exact i.links n
        · intro dt; rw [datas_link _ _ _ (.inr ht)]; exact i.uniqueD dt
        · intro dt; rw [lnks_data _ _ _ (.inr ht)]; exact i.uniqueL dt
  | some dt =>
    cases hk : x.kind with
    | link =>
      rcases link_step i hk ht with ⟨t', h1, h2, h3, h4⟩ | ⟨h1, h2⟩
      · simp only [h1]
        refine .inl ⟨_, rfl, ⟨?_, h2, ?_, ?_, ?_, ?_, h3, typed_append i.typed h4.1⟩, h4⟩
        · intro dt; rw [datas_link _ _ _ (.inl hk)]; exact i.data dt
        · intro n; rw [named_other _ _ _ (by simp [hk])]; exact i.groups n
        · intro n; rw [named_other _ _ _ (by simp [hk])]; exact i.datasets n
        · exact get_addName _ _ _ _ i.links hk
        · intro dt; rw [datas_link _ _ _ (.inl hk)]; exact i.uniqueD dt
      · simp only [h1]
        exact .inr ⟨⟨_, rfl⟩, h2⟩
    | group =>
      rcases data_step i (by simp [hk]) ht with ⟨t', h1, h2, h3, h4⟩ | ⟨h1, h2⟩
      · simp only [h1]
        refine .inl ⟨_, rfl, ⟨h2, ?_, ?_, ?_, ?_, h3, ?_, typed_append i.typed h4.1⟩, h4⟩
        · intro dt; rw [lnks_data _ _ _ (.inl (by simp [hk]))]; exact i.target dt
        · exact get_addName _ _ _ _ i.groups hk
        · intro n; rw [named_other _ _ _ (by simp [hk])]; exact i.datasets n
        · intro n; rw [named_other _ _ _ (by simp [hk])]; exact i.links n
        · intro dt; rw [lnks_data _ _ _ (.inl (by simp [hk]))]; exact i.uniqueL dt
      · simp only [h1]
        exact .inr ⟨⟨_, rfl⟩, h2⟩
    | dataset =>
      rcases data_step i (by simp [hk]) ht with ⟨t', h1, h2, h3, h4⟩ | ⟨h1, h2⟩
      · simp only [h1]
        refine .inl ⟨_, rfl, ⟨h2, ?_, ?_, ?_, ?_, h3, ?_, typed_append i.typed h4.1⟩, h4⟩
        · intro dt; rw [lnks_data _ _ _ (.inl (by simp [hk]))]; exact i.target dt
        · intro n; rw [named_other _ _ _ (by simp [hk])]; exact i.groups n
        · exact get_addName _ _ _ _ i.datasets hk
        · intro n; rw [named_other _ _ _ (by simp [hk])]; exact i.links n
        · intro dt; rw [lnks_data _ _ _ (.inl (by simp [hk]))]; exact i.uniqueL dt
      · simp only [h1]
        exact .inr ⟨⟨_, rfl⟩, h2⟩

/-- every spec fits to those before it -/
def AllFit : List Sub → List Sub → Prop
  | _, [] => True
  | ys, x :: xs => Fits ys x ∧ AllFit (ys ++ [x]) xs

theorem addAll_spec (xs : List Sub) : ∀ ys s, Inv ys s →
    (∃ s', addAll s xs = .ok s' ∧ Inv (ys ++ xs) s' ∧ AllFit ys xs) ∨ (∃ e, addAll s xs = .error e) ∧ ¬ AllFit ys xs := by
  induction xs with
  | nil => intro ys s i; exact .inl ⟨s, rfl, by simpa using i, trivial⟩
  | cons x xs ih =>
    intro ys s i
    unfold addAll
    rcases add_spec i x with ⟨s', h1, h2, h3⟩ | ⟨⟨e, h1⟩, h2⟩
    · rw [h1]
      rcases ih _ _ h2 with ⟨s'', g1, g2, g3⟩ | ⟨⟨e, g1⟩, g2⟩
      · exact .inl ⟨s'', g1, by simpa using g2, h3, g3⟩
      · exact .inr ⟨⟨e, g1⟩, fun h => g2 h.2⟩
    · rw [h1]; exact .inr ⟨⟨e, rfl⟩, fun h => h2 h.1⟩

theorem addAll_inv {xs : List Sub} {s : GSpec} (h : addAll {} xs = .ok s) : Inv xs s := by
  rcases addAll_spec xs [] {} inv_empty with ⟨s', h1, h2, _⟩ | ⟨⟨e, h1⟩, _⟩
  · rw [h] at h1; cases h1; exact h2
  · rw [h] at h1; cases h1

theorem doc_none (l : List Sub) : doc l = none ↔ l = [] := by
  unfold doc
  constructor
  · intro h
    split at h
    · cases h
    · split at h
      · rfl
      · cases h
      · cases h
  · rintro rfl; rfl

theorem find_unique {l : List Sub} (h : (l.filter fun x => decide (x.name = none)).length ≤ 1) {u : Sub} (hu : u ∈ l) (hn : u.name = none) :
    l.find? (fun x => decide (x.name = none)) = some u := by
  have hm : u ∈ l.filter fun x => decide (x.name = none) := by simp [hu, hn]
  rw [← head?_filter]
  generalize l.filter (fun x => decide (x.name = none)) = m at *
  match m, hm, h with
  | [x], hm, _ => rw [mem_singleton.1 hm]; rfl
  | _ :: _ :: _, _, h => simp at h

theorem allFit_append (xs : List Sub) : ∀ ys, AllFit ys xs ↔ (∀ x ∈ xs, x.type = none → x.kind ≠ .link ∧ x.name ≠ none) ∧
    (∀ x ∈ xs, x.name = none → ∀ y ∈ ys, y.name = none → y.type = x.type → (y.kind = .link ↔ x.kind = .link) → False) ∧
    xs.Pairwise fun x y => ¬ (x.name = none ∧ y.name = none ∧ x.type = y.type ∧ (x.kind = .link ↔ y.kind = .link)) := by
  induction xs with
  | nil => intro ys; simp [AllFit]
  | cons x xs ih =>
    intro ys
    unfold AllFit Fits
    rw [ih, pairwise_cons]
    constructor
    · rintro ⟨⟨a, b⟩, c, d, e⟩
      refine ⟨?_, ?_, ?_, e⟩
      · intro z hz
        rcases mem_cons.1 hz with rfl | hz
        · exact a
        · exact c z hz
      · intro z hz hzn y hy
        rcases mem_cons.1 hz with rfl | hz
        · exact b hzn y hy
        · exact d z hz hzn y (by simp [hy])
      · rintro z hz ⟨h1, h2, h3, h4⟩
        exact d z hz h2 x (by simp) h1 h3 h4
    · rintro ⟨a, b, c, e⟩
      refine ⟨⟨a x (by simp), fun hx => b x (by simp) hx⟩, fun z hz => a z (by simp [hz]), ?_, e⟩
      intro z hz hzn y hy h1 h2 h3
      rcases mem_append.1 hy with hy | hy
      · exact b z (by simp [hz]) hzn y hy h1 h2 h3
      · rw [mem_singleton.1 hy] at h1 h2 h3
        exact c z hz ⟨h1, hzn, h2, h3⟩

theorem allFit_iff (xs : List Sub) : AllFit [] xs ↔ (∀ x ∈ xs, x.type = none → x.kind ≠ .link ∧ x.name ≠ none) ∧
    xs.Pairwise fun x y => ¬ (x.name = none ∧ y.name = none ∧ x.type = y.type ∧ (x.kind = .link ↔ y.kind = .link)) := by
  rw [allFit_append]
  exact ⟨fun ⟨a, _, b⟩ => ⟨a, b⟩, fun ⟨a, b⟩ => ⟨a, fun _ _ _ _ hy => (by cases hy), b⟩⟩

/-- the specs of an entry -/
def Entry.specs : Entry → List Sub
  | .one x => [x]
  | .many l => l

theorem doc_specs {l : List Sub} {e : Entry} (h : doc l = some e) : (∀ x ∈ e.specs, x ∈ l) ∧ e.specs ≠ [] := by
  unfold doc at h
  split at h
  · rename_i u hu
    cases h
    exact ⟨fun x hx => by rw [mem_singleton.1 hx]; exact mem_of_find?_eq_some hu, by simp [Entry.specs]⟩
  · split at h
    · cases h
    · cases h; exact ⟨fun x hx => hx, by simp [Entry.specs]⟩
    · rename_i l h1 h2
      cases h
      exact ⟨fun x hx => hx, fun hc => h1 hc⟩

theorem datas_nil (xs : List Sub) (t : String) : datas xs t = [] ∧ lnks xs t = [] ↔ ∀ x ∈ xs, x.type ≠ some t := by
  unfold datas lnks
  rw [filter_eq_nil_iff, filter_eq_nil_iff]
  simp only [decide_eq_true_eq, not_and]
  constructor
  · rintro ⟨a, b⟩ x hx
    by_cases hk : x.kind = .link
    · exact b x hx hk
    · exact a x hx hk
  · exact fun h => ⟨fun x hx _ => h x hx, fun x hx _ => h x hx⟩

theorem findType_none {xs : List Sub} {s : GSpec} (i : Inv xs s) (ts : List String) :
    findType s ts = none ↔ ∀ t ∈ ts, ∀ x ∈ xs, x.type ≠ some t := by
  induction ts with
  | nil => simp [findType]
  | cons t ts ih =>
    unfold findType
    rw [i.data, i.target]
    simp only [mem_cons, forall_eq_or_imp, ← datas_nil, ← doc_none]
    cases h1 : doc (datas xs t) with
    | some e => simp
    | none =>
      cases h2 : doc (lnks xs t) with
      | some e => simp
      | none => rw [ih]; simp [← datas_nil, ← doc_none]

theorem findType_some {xs : List Sub} {s : GSpec} (i : Inv xs s) (ts : List String) : ∀ e, findType s ts = some e →
    ∃ p t q, ts = p ++ t :: q ∧ (∀ t' ∈ p, ∀ x ∈ xs, x.type ≠ some t') ∧ (∀ x ∈ e.specs, x ∈ xs ∧ x.type = some t) ∧ e.specs ≠ [] := by
  induction ts with
  | nil => intro e h; cases h
  | cons t ts ih =>
    intro e h
    unfold findType at h
    rw [i.data, i.target] at h
    cases h1 : doc (datas xs t) with
    | some e' =>
      rw [h1] at h
      cases h
      refine ⟨[], t, ts, rfl, by simp, fun x hx => ?_, (doc_specs h1).2⟩
      have := (doc_specs h1).1 x hx
      simp only [datas, mem_filter, decide_eq_true_eq] at this
      exact ⟨this.1, this.2.2⟩
    | none =>
      cases h2 : doc (lnks xs t) with
      | some e' =>
        rw [h1, h2] at h
        cases h
        refine ⟨[], t, ts, rfl, by simp, fun x hx => ?_, (doc_specs h2).2⟩
        have := (doc_specs h2).1 x hx
        simp only [lnks, mem_filter, decide_eq_true_eq] at this
        exact ⟨this.1, this.2.2⟩
      | none =>
        rw [h1, h2] at h
        obtain ⟨p, t', q, e1, e2, e3⟩ := ih e h
        refine ⟨t :: p, t', q, by rw [e1]; rfl, ?_, e3⟩
        intro u hu
        rcases mem_cons.1 hu with rfl | hu
        · exact (datas_nil _ _).1 ⟨(doc_none _).1 h1, (doc_none _).1 h2⟩
        · exact e2 u hu

end Verif.Subspec

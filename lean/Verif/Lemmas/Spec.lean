import Verif.Model.Spec
import Verif.Base.Tac

/-!
# Lemmas about the inheritance of specifications
-/

namespace Verif.Spec
open Verif

/-! ## Attributes -/

theorem names_setAttr (l : List Attr) (a : Attr) (h : a.name ∉ l.map Attr.name) : setAttr l a = l ++ [a] := by
  induction l with
  | nil => rfl
  | cons x xs ih =>
    simp only [List.map_cons, List.mem_cons, not_or] at h
    simp only [setAttr, if_neg (Ne.symm h.1), ih h.2, List.cons_append]

theorem map_setAttr (l : List Attr) (a : Attr) :
    (setAttr l a).map Attr.name = if a.name ∈ l.map Attr.name then l.map Attr.name else l.map Attr.name ++ [a.name] := by
  induction l with
  | nil => simp [setAttr]
  | cons x xs ih =>
    simp only [setAttr]
    by_cases h : x.name = a.name
    · simp [h]
    · rw [if_neg h, List.map_cons, ih]
      by_cases h2 : a.name ∈ xs.map Attr.name
      · rw [if_pos h2, if_pos (by simp [h2])]; simp
      · rw [if_neg h2, if_neg (by simp only [List.map_cons, List.mem_cons, not_or]; exact ⟨Ne.symm h, h2⟩)]; simp

theorem nodup_setAttr (l : List Attr) (a : Attr) (h : (l.map Attr.name).Nodup) : ((setAttr l a).map Attr.name).Nodup := by
  rw [map_setAttr]
  split
  · exact h
  · rename_i h2
    exact List.nodup_append.2 ⟨h, by simp, by
      intro x hx y hy
      simp only [List.mem_singleton] at hy
      subst hy
      rintro rfl; exact h2 hx⟩

theorem nodup_mkAttrs (as : List Attr) : ((mkAttrs as).items.map Attr.name).Nodup := by
  have : ∀ (l : List Attr), (l.map Attr.name).Nodup → ((as.foldl setAttr l).map Attr.name).Nodup := by
    induction as with
    | nil => intro l h; exact h
    | cons a as ih => intro l h; exact ih _ (nodup_setAttr l a h)
  exact this [] (by simp)

theorem mem_discard {l : List String} {n m : String} : m ∈ discard l n ↔ m ∈ l ∧ m ≠ n := by
  simp [discard]

/-- everything about the attributes after `resolve_spec` -/
theorem resolveAttrs_spec (as : List Attr) : ∀ s : Attrs, (as.map Attr.name).Nodup → (s.items.map Attr.name).Nodup →
    ((resolveAttrs s as).items.map Attr.name).Nodup ∧
    (∀ n, getAttr (resolveAttrs s as) n = (getAttr s n).or (as.find? (fun a => a.name = n))) ∧
    (∀ n, n ∈ (resolveAttrs s as).items.map Attr.name ↔ n ∈ s.items.map Attr.name ∨ n ∈ as.map Attr.name) ∧
    (∀ n, n ∈ (resolveAttrs s as).new ↔ n ∈ s.new ∧ n ∉ as.map Attr.name) ∧
    (∀ n, n ∈ (resolveAttrs s as).over ↔ n ∈ s.over ∨ (n ∈ s.items.map Attr.name ∧ n ∈ as.map Attr.name)) ∧
    s.items <+: (resolveAttrs s as).items := by
  induction as with
  | nil => intro s _ h; exact ⟨h, by simp [resolveAttrs], by simp [resolveAttrs], by simp [resolveAttrs], by simp [resolveAttrs], List.prefix_refl _⟩
  | cons a as ih =>
    intro s hn hs
    simp only [List.map_cons, List.nodup_cons] at hn
    simp only [resolveAttrs]
    split
    · rename_i hin
      obtain ⟨i1, i2, i3, i4, i5, i6⟩ := ih { s with new := discard s.new a.name, over := a.name :: s.over } hn.2 hs
      refine ⟨i1, ?_, ?_, ?_, ?_, i6⟩
      · intro n
        rw [i2]
        simp only [getAttr, List.find?_cons]
        by_cases h : a.name = n
        · subst h
          obtain ⟨x, hx, hxn⟩ := List.mem_map.1 hin
          have : (s.items.find? (fun b => decide (b.name = a.name))).isSome := by
            rw [List.find?_isSome]; exact ⟨x, hx, by simp [hxn]⟩
          obtain ⟨y, hy⟩ := Option.isSome_iff_exists.1 this
          simp [hy]
        · simp [h]
      · intro n
        rw [i3]
        simp only [List.map_cons, List.mem_cons]
        constructor
        · rintro (h | h)
          · exact Or.inl h
          · exact Or.inr (Or.inr h)
        · rintro (h | rfl | h)
          · exact Or.inl h
          · exact Or.inl hin
          · exact Or.inr h
      · intro n
        rw [i4]
        simp only [mem_discard, List.map_cons, List.mem_cons, not_or]
        tauto
      · intro n
        rw [i5]
        simp only [List.map_cons, List.mem_cons]
        constructor
        · rintro ((rfl | h) | h)
          · exact Or.inr ⟨hin, Or.inl rfl⟩
          · exact Or.inl h
          · exact Or.inr ⟨h.1, Or.inr h.2⟩
        · rintro (h | ⟨h, rfl | h'⟩)
          · exact Or.inl (Or.inr h)
          · exact Or.inl (Or.inl rfl)
          · exact Or.inr ⟨h, h'⟩
    · rename_i hin
      have e : setAttr s.items a = s.items ++ [a] := names_setAttr _ _ hin
      obtain ⟨i1, i2, i3, i4, i5, i6⟩ := ih { s with new := discard s.new a.name, items := setAttr s.items a } hn.2 (nodup_setAttr _ _ hs)
      refine ⟨i1, ?_, ?_, ?_, ?_, ?_⟩
      · intro n
        rw [i2]
        simp only [getAttr, e, List.find?_append, List.find?_cons, List.find?_nil]
        by_cases h : a.name = n
        · simp [h]
        · simp [h]
      · intro n
        rw [i3]
        simp only [e, List.map_append, List.map_cons, List.map_nil, List.mem_append, List.mem_singleton, List.mem_cons]
        tauto
      · intro n
        rw [i4]
        simp only [mem_discard, List.map_cons, List.mem_cons, not_or]
        tauto
      · intro n
        rw [i5]
        simp only [e, List.map_append, List.map_cons, List.map_nil, List.mem_append, List.mem_cons, List.not_mem_nil, or_false]
        constructor
        · rintro (h | ⟨h | rfl, h'⟩)
          · exact Or.inl h
          · exact Or.inr ⟨h, Or.inr h'⟩
          · exact absurd h' hn.1
        · rintro (h | ⟨h, rfl | h'⟩)
          · exact Or.inl h
          · exact absurd h hin
          · exact Or.inr ⟨Or.inl h, h'⟩
      · exact List.IsPrefix.trans (by rw [e]; exact List.prefix_append _ _) i6

/-! ## Sub-specs -/

/-- named `n` -/
def isN {α : Type} (k : Kind α) (n : String) (x : α) : Bool := k.name x == some n

/-- unnamed, of type `dt` -/
def isU {α : Type} (k : Kind α) (dt : String) (x : α) : Bool := (k.name x).isNone && k.dt x == some dt

/-- the table knows an unnamed spec of the type -/
def hasUn (t : Tab) (dt : String) : Prop := Dict.get? t dt = some (.one none)

/-- resolving and copying keep names and types -/
structure Kind.Ok {α : Type} (k : Kind α) : Prop where
  copy_name : ∀ x, k.name (k.copy x) = k.name x
  copy_dt : ∀ x, k.dt (k.copy x) = k.dt x
  res_name : ∀ y x z, k.res y x = .ok z → k.name z = k.name y
  res_dt : ∀ y x z, k.res y x = .ok z → k.dt z = k.dt y

theorem dsKind_ok : dsKind.Ok := by
  refine ⟨fun _ => rfl, fun _ => rfl, ?_, ?_⟩
  all_goals
    intro y x z h
    simp only [dsKind, resolveDs] at h
    cases hd : resolveDtype y.dtype x.dtype with
    | error e => rw [hd] at h; simp at h
    | ok d => rw [hd] at h; simp only [Except.ok.injEq] at h; subst h; rfl

theorem lnkKind_ok : lnkKind.Ok := by
  refine ⟨fun _ => rfl, fun _ => rfl, ?_, ?_⟩
  all_goals
    intro y x z h
    simp only [lnkKind, Except.ok.injEq] at h
    subst h; rfl

theorem copy_name (g : Grp) : g.copy.name = g.name := by cases g; simp [Grp.copy]
theorem copy_dt (g : Grp) : g.copy.dt = g.dt := by cases g; simp [Grp.copy]

theorem resolve_name_dt (f : Nat) (g inc g' : Grp) (h : resolve f g inc = .ok g') : g'.name = g.name ∧ g'.dt = g.dt := by
  cases f with
  | zero => simp [resolve] at h
  | succ f =>
    simp only [resolve] at h
    repeat' (split at h; · simp at h)
    simp only [Except.ok.injEq] at h
    subst h
    exact ⟨rfl, rfl⟩

theorem grpKind_ok (f : Nat) : (grpKind (resolve f)).Ok :=
  ⟨copy_name, copy_dt, fun y x z h => (resolve_name_dt f y x z h).1, fun y x z h => (resolve_name_dt f y x z h).2⟩

theorem mem_names {α : Type} (k : Kind α) (items : List α) (n : String) : n ∈ names k items ↔ items.filter (isN k n) ≠ [] := by
  simp only [names, List.mem_filterMap, ne_eq, List.filter_eq_nil_iff, isN]
  constructor
  · rintro ⟨x, hx, h⟩ hall
    exact hall x hx (by simp [h])
  · intro h
    simp only [beq_iff_eq, not_forall, not_not] at h
    obtain ⟨x, hx, h⟩ := h
    exact ⟨x, hx, h⟩

theorem updLast_nil {α : Type} (p : α → Bool) (h : α → Except Err α) (l : List α) (hp : l.filter p = []) : updLast p h l = .ok l := by
  induction l with
  | nil => rfl
  | cons x xs ih =>
    simp only [List.filter_eq_nil_iff, List.mem_cons, forall_eq_or_imp] at hp
    simp only [updLast]
    have : p x = false := by simpa using hp.1
    rw [this, ih (by rw [List.filter_eq_nil_iff]; exact hp.2)]
    simp

theorem updLast_one {α : Type} (p : α → Bool) (h : α → Except Err α) (hp : ∀ x z, p x = true → h x = .ok z → p z = true) :
    ∀ (l : List α) (d : α) (l' : List α), l.filter p = [d] → updLast p h l = .ok l' →
      ∃ d', h d = .ok d' ∧ l'.filter p = [d'] ∧ ∀ q : α → Bool, (∀ x, p x = true → q x = false) → l'.filter q = l.filter q := by
  intro l
  induction l with
  | nil => intro d l' h1; simp at h1
  | cons x xs ih =>
    intro d l' h1 h2
    simp only [updLast] at h2
    by_cases hx : p x = true
    · rw [List.filter_cons_of_pos hx] at h1
      simp only [List.cons.injEq] at h1
      obtain ⟨rfl, h1⟩ := h1
      have hany : xs.any p = false := by
        rw [List.any_eq_false]
        rw [List.filter_eq_nil_iff] at h1
        exact fun y hy => h1 y hy
      rw [hany, hx] at h2
      simp only [Bool.not_false, Bool.and_self, if_true] at h2
      cases hh : h x with
      | error e => rw [hh] at h2; simp at h2
      | ok x' =>
        rw [hh] at h2
        simp only [Except.ok.injEq] at h2
        subst h2
        have hx' := hp x x' hx hh
        refine ⟨x', rfl, by rw [List.filter_cons_of_pos hx', h1], ?_⟩
        intro q hq
        rw [List.filter_cons_of_neg (by rw [hq x' hx']; simp), List.filter_cons_of_neg (by rw [hq x hx]; simp)]
    · rw [List.filter_cons_of_neg hx] at h1
      have hx0 : p x = false := by simpa using hx
      rw [hx0] at h2
      simp only [Bool.false_and, Bool.false_eq_true, if_false] at h2
      cases hu : updLast p h xs with
      | error e => rw [hu] at h2; simp at h2
      | ok xs' =>
        rw [hu] at h2
        simp only [Except.ok.injEq] at h2
        subst h2
        obtain ⟨d', e1, e2, e3⟩ := ih d xs' h1 hu
        refine ⟨d', e1, by rw [List.filter_cons_of_neg hx]; exact e2, ?_⟩
        intro q hq
        simp only [List.filter_cons, e3 q hq]

/-- what becomes of the specs of one name: those of the child, those of the parent, those of the result -/
def Comb {α : Type} (k : Kind α) (own inc res : List α) : Prop :=
  (∃ d x d', own = [d] ∧ inc = [x] ∧ k.res d x = .ok d' ∧ res = [d']) ∨
  (∃ d, own = [d] ∧ inc = [] ∧ res = [d]) ∨
  (∃ x, own = [] ∧ inc = [x] ∧ res = [k.copy x]) ∨
  (own = [] ∧ inc = [] ∧ res = [])

theorem addType_hasUn {t t' : Tab} {dt : String} {name : Option String} (h : addType t dt name = .ok t') (dt' : String) :
    hasUn t' dt' ↔ (hasUn t dt' ∨ (name = none ∧ dt' = dt)) := by
  simp only [addType] at h
  unfold hasUn
  cases hg : Dict.get? t dt with
  | none =>
    rw [hg] at h
    simp only [Except.ok.injEq] at h
    subst h
    rw [Dict.get?_set]
    by_cases he : dt' = dt
    · subst he
      rw [if_pos rfl, hg]
      simp
    · rw [if_neg he]; simp [he]
  | some e =>
    rw [hg] at h
    rcases name with _ | n <;> rcases e with (_ | m) | _
    all_goals simp only [reduceCtorEq, Except.ok.injEq] at h
    all_goals subst h
    all_goals try rw [Dict.get?_set]
    all_goals
      by_cases he : dt' = dt
      · subst he; simp [hg]
      · simp [he]

theorem addType_ok {t : Tab} {dt : String} {name : Option String} (h : name ≠ none ∨ ¬ hasUn t dt) : ∃ t', addType t dt name = .ok t' := by
  simp only [addType]
  unfold hasUn at h
  cases hg : Dict.get? t dt with
  | none => exact ⟨_, rfl⟩
  | some e =>
    rw [hg] at h
    rcases name with _ | n <;> rcases e with (_ | m) | _
    · simp at h
    all_goals exact ⟨_, rfl⟩

theorem addItem_ok {α : Type} {k : Kind α} {items items' : List α} {t t' : Tab} {x : α} (h : addItem k items t x = .ok (items', t')) :
    items' = items ++ [x] ∧ ∀ dt, hasUn t' dt ↔ (hasUn t dt ∨ isU k dt x = true) := by
  simp only [addItem] at h
  cases hd : k.dt x with
  | none =>
    rw [hd] at h
    cases hn : k.name x with
    | none => rw [hn] at h; simp at h
    | some n =>
      rw [hn] at h
      simp only [Except.ok.injEq, Prod.mk.injEq] at h
      obtain ⟨rfl, rfl⟩ := h
      exact ⟨rfl, fun dt => by simp [isU, hd]⟩
  | some d =>
    rw [hd] at h
    simp only at h
    cases ha : addType t d (k.name x) with
    | error e => rw [ha] at h; simp at h
    | ok t1 =>
      rw [ha] at h
      simp only [Except.ok.injEq, Prod.mk.injEq] at h
      obtain ⟨rfl, rfl⟩ := h
      refine ⟨rfl, fun dt => ?_⟩
      rw [addType_hasUn ha]
      simp only [isU, hd, Bool.and_eq_true, Option.isNone_iff_eq_none, beq_iff_eq, Option.some.injEq]
      constructor
      · rintro (h | ⟨h1, h2⟩)
        · exact Or.inl h
        · exact Or.inr ⟨h1, h2.symm⟩
      · rintro (h | ⟨h1, h2⟩)
        · exact Or.inl h
        · exact Or.inr ⟨h1, h2.symm⟩

theorem isU_named {α : Type} {k : Kind α} {x : α} {n dt : String} (h : k.name x = some n) : isU k dt x = false := by simp [isU, h]

theorem isN_of_ne {α : Type} {k : Kind α} {x : α} {n m : String} (h : k.name x = some n) (hm : m ≠ n) : isN k m x = false := by
  simp only [isN, h]
  simpa using hm.symm

theorem names_append {α : Type} (k : Kind α) (l l' : List α) : names k (l ++ l') = names k l ++ names k l' := by simp [names]

theorem resNamed_spec {α : Type} {k : Kind α} (hk : k.Ok) : ∀ (xs : List α) (s : Sub α) (t : Tab) (s' : Sub α) (t' : Tab),
    (∀ n, (xs.filter (isN k n)).length ≤ 1) → (∀ n, (s.items.filter (isN k n)).length ≤ 1) →
    resNamed k s t xs = .ok (s', t') →
    (∀ n, Comb k (s.items.filter (isN k n)) (xs.filter (isN k n)) (s'.items.filter (isN k n))) ∧
    (∀ dt, s'.items.filter (isU k dt) = s.items.filter (isU k dt)) ∧
    (∀ dt, hasUn t' dt ↔ hasUn t dt) ∧
    (∀ n, n ∈ s'.new ↔ n ∈ s.new ∧ n ∉ names k xs) ∧
    (∀ n, n ∈ s'.over ↔ n ∈ s.over ∨ (n ∈ names k s.items ∧ n ∈ names k xs)) := by
  intro xs
  induction xs with
  | nil =>
    intro s t s' t' _ h2 h
    simp only [resNamed, Except.ok.injEq, Prod.mk.injEq] at h
    obtain ⟨rfl, rfl⟩ := h
    refine ⟨?_, fun _ => rfl, fun _ => Iff.rfl, by simp [names], by simp [names]⟩
    intro n
    have := h2 n
    match hf : s.items.filter (isN k n), this with
    | [], _ => exact Or.inr (Or.inr (Or.inr ⟨rfl, rfl, rfl⟩))
    | [d], _ => exact Or.inr (Or.inl ⟨d, rfl, rfl, rfl⟩)
    | _ :: _ :: _, h => simp at h
  | cons x xs ih =>
    intro s t s' t' h1 h2 h
    simp only [resNamed] at h
    cases hn : k.name x with
    | none =>
      rw [hn] at h
      have hx : ∀ n, isN k n x = false := by intro n; simp [isN, hn]
      have e : ∀ n, (x :: xs).filter (isN k n) = xs.filter (isN k n) := fun n => List.filter_cons_of_neg (by simp [hx n])
      have en : names k (x :: xs) = names k xs := by simp [names, hn]
      simp only [e, en] at h1 ⊢
      exact ih s t s' t' h1 h2 h
    | some m =>
      rw [hn] at h
      simp only at h
      have hxm : isN k m x = true := by simp [isN, hn]
      have hrest : xs.filter (isN k m) = [] := by
        have := h1 m
        rw [List.filter_cons_of_pos hxm] at this
        simpa using this
      have hrest' : m ∉ names k xs := by rw [mem_names]; simp [hrest]
      have h1' : ∀ n, (xs.filter (isN k n)).length ≤ 1 := by
        intro n
        refine Nat.le_trans ?_ (h1 n)
        rw [List.filter_cons]
        split
        · simp
        · exact Nat.le_refl _
      have en : names k (x :: xs) = m :: names k xs := by simp [names, hn]
      split at h
      · rename_i hin
        rw [mem_names] at hin
        cases hu : updLast (fun y => k.name y == some m) (fun y => k.res y x) s.items with
        | error e => rw [hu] at h; simp at h
        | ok items =>
          rw [hu] at h
          simp only at h
          have hsingle : ∃ d, s.items.filter (isN k m) = [d] := by
            have := h2 m
            match hf : s.items.filter (isN k m), this, hin with
            | [], _, h => exact absurd rfl h
            | [d], _, _ => exact ⟨d, rfl⟩
            | _ :: _ :: _, h, _ => simp at h
          obtain ⟨d, hd⟩ := hsingle
          obtain ⟨d', e1, e2, e3⟩ := updLast_one (isN k m) (fun y => k.res y x)
            (by
              intro y z hy hz
              simp only [isN, beq_iff_eq] at hy ⊢
              rw [hk.res_name y x z hz]; exact hy) s.items d items hd hu
          have eN : ∀ n, n ≠ m → items.filter (isN k n) = s.items.filter (isN k n) := by
            intro n hnm
            refine e3 _ ?_
            intro y hy
            simp only [isN, beq_iff_eq] at hy
            exact isN_of_ne hy hnm
          have eU : ∀ dt, items.filter (isU k dt) = s.items.filter (isU k dt) := by
            intro dt
            refine e3 _ ?_
            intro y hy
            simp only [isN, beq_iff_eq] at hy
            exact isU_named hy
          have h2' : ∀ n, (items.filter (isN k n)).length ≤ 1 := by
            intro n
            by_cases hnm : n = m
            · subst hnm; rw [e2]; simp
            · rw [eN n hnm]; exact h2 n
          obtain ⟨i1, i2, i3, i4, i5⟩ := ih _ t s' t' h1' h2' h
          simp only at i1 i2 i3 i4 i5
          refine ⟨?_, fun dt => (i2 dt).trans (eU dt), i3, ?_, ?_⟩
          · intro n
            have := i1 n
            by_cases hnm : n = m
            · subst hnm
              rw [hrest, e2] at this
              rw [hd, List.filter_cons_of_pos hxm, hrest]
              left
              refine ⟨d, x, d', rfl, rfl, e1, ?_⟩
              rcases this with ⟨_, _, _, _, h, _⟩ | ⟨d2, h, _, h'⟩ | ⟨_, h, _⟩ | ⟨h, _⟩
              · simp at h
              · simp only [List.cons.injEq, and_true] at h; rw [h', h]
              · simp at h
              · simp at h
            · rw [eN n hnm] at this
              rw [List.filter_cons_of_neg (by simp [isN_of_ne hn hnm])]
              exact this
          · intro n
            rw [i4, mem_discard, en]
            simp only [List.mem_cons, not_or]
            tauto
          · intro n
            rw [i5, en]
            simp only [List.mem_cons]
            have hnames : ∀ n, n ∈ names k items ↔ n ∈ names k s.items := by
              intro n
              rw [mem_names, mem_names]
              by_cases hnm : n = m
              · subst hnm; rw [e2, hd]; simp
              · rw [eN n hnm]
            rw [hnames]
            constructor
            · rintro ((rfl | h) | ⟨h, h'⟩)
              · exact Or.inr ⟨(mem_names k _ _).2 hin, Or.inl rfl⟩
              · exact Or.inl h
              · exact Or.inr ⟨h, Or.inr h'⟩
            · rintro (h | ⟨h, rfl | h'⟩)
              · exact Or.inl (Or.inr h)
              · exact Or.inl (Or.inl rfl)
              · exact Or.inr ⟨h, h'⟩
      · rename_i hin
        cases ha : addItem k s.items t (k.copy x) with
        | error e => rw [ha] at h; simp at h
        | ok r =>
          obtain ⟨items, t1⟩ := r
          rw [ha] at h
          simp only at h
          obtain ⟨rfl, hT⟩ := addItem_ok ha
          have hcn : k.name (k.copy x) = some m := by rw [hk.copy_name, hn]
          have hnil : s.items.filter (isN k m) = [] := by
            by_contra hne
            exact hin ((mem_names k _ _).2 hne)
          have eN : ∀ n, (s.items ++ [k.copy x]).filter (isN k n) = if n = m then [k.copy x] else s.items.filter (isN k n) := by
            intro n
            rw [List.filter_append]
            split
            · rename_i hnm
              subst hnm
              rw [hnil, List.filter_cons_of_pos (by simp [isN, hcn])]; simp
            · rename_i hnm
              rw [List.filter_cons_of_neg (by simp [isN_of_ne hcn hnm])]; simp
          have h2' : ∀ n, ((s.items ++ [k.copy x]).filter (isN k n)).length ≤ 1 := by
            intro n
            rw [eN]
            split
            · simp
            · exact h2 n
          obtain ⟨i1, i2, i3, i4, i5⟩ := ih _ t1 s' t' h1' h2' h
          simp only at i1 i2 i3 i4 i5
          refine ⟨?_, ?_, ?_, ?_, ?_⟩
          · intro n
            have := i1 n
            rw [eN] at this
            by_cases hnm : n = m
            · subst hnm
              rw [if_pos rfl, hrest] at this
              rw [hnil, List.filter_cons_of_pos hxm, hrest]
              right; right; left
              refine ⟨x, rfl, rfl, ?_⟩
              rcases this with ⟨_, _, _, _, h, _⟩ | ⟨d2, h, _, h'⟩ | ⟨_, h, _⟩ | ⟨h, _⟩
              · simp at h
              · simp only [List.cons.injEq, and_true] at h; rw [h', h]
              · simp at h
              · simp at h
            · rw [if_neg hnm] at this
              rw [List.filter_cons_of_neg (by simp [isN_of_ne hn hnm])]
              exact this
          · intro dt
            rw [i2, List.filter_append, List.filter_cons_of_neg (by simp [isU_named hcn])]
            simp
          · intro dt
            rw [i3, hT, isU_named hcn]
            simp
          · intro n
            rw [i4, mem_discard, en]
            simp only [List.mem_cons, not_or]
            tauto
          · intro n
            rw [i5, en, names_append]
            have : names k [k.copy x] = [m] := by simp [names, hcn]
            rw [this]
            simp only [List.mem_append, List.mem_cons, List.not_mem_nil, or_false]
            constructor
            · rintro (h | ⟨h | rfl, h'⟩)
              · exact Or.inl h
              · exact Or.inr ⟨h, Or.inr h'⟩
              · exact absurd h' hrest'
            · rintro (hh | ⟨hh, rfl | h'⟩)
              · exact Or.inl hh
              · exact absurd hh hin
              · exact Or.inr ⟨Or.inl hh, h'⟩

theorem isN_unnamed {α : Type} {k : Kind α} {x : α} {n : String} (h : k.name x = none) : isN k n x = false := by simp [isN, h]

theorem resTyped_spec {α : Type} {k : Kind α} (hk : k.Ok) : ∀ (xs items : List α) (t : Tab) (nt : List String) (items' : List α) (t' : Tab) (nt' : List String),
    (∀ dt, (xs.filter (isU k dt)).length ≤ 1) →
    resTyped k items t nt xs = .ok (items', t', nt') →
    (∀ n, items'.filter (isN k n) = items.filter (isN k n)) ∧
    (∀ dt, (hasUn t dt → items'.filter (isU k dt) = items.filter (isU k dt)) ∧
      (¬ hasUn t dt → items'.filter (isU k dt) = items.filter (isU k dt) ++ (xs.filter (isU k dt)).map k.copy)) ∧
    (∀ dt, hasUn t' dt ↔ (hasUn t dt ∨ xs.filter (isU k dt) ≠ [])) ∧
    (∀ dt, dt ∈ nt' ↔ dt ∈ nt ∧ xs.filter (isU k dt) = []) := by
  intro xs
  induction xs with
  | nil =>
    intro items t nt items' t' nt' _ h
    simp only [resTyped, Except.ok.injEq, Prod.mk.injEq] at h
    obtain ⟨rfl, rfl, rfl⟩ := h
    simp
  | cons x xs ih =>
    intro items t nt items' t' nt' h1 h
    simp only [resTyped] at h
    have h1' : ∀ dt, (xs.filter (isU k dt)).length ≤ 1 := by
      intro n
      refine Nat.le_trans ?_ (h1 n)
      rw [List.filter_cons]
      split
      · simp
      · exact Nat.le_refl _
    cases hn : k.name x with
    | some m =>
      rw [hn] at h
      have e : ∀ dt, (x :: xs).filter (isU k dt) = xs.filter (isU k dt) := fun dt => List.filter_cons_of_neg (by simp [isU_named hn])
      simp only [e]
      exact ih items t nt items' t' nt' h1' h
    | none =>
      rw [hn] at h
      cases hd : k.dt x with
      | none => rw [hd] at h; simp at h
      | some d =>
        rw [hd] at h
        simp only at h
        have hxd : isU k d x = true := by simp [isU, hn, hd]
        have hxo : ∀ dt, dt ≠ d → isU k dt x = false := by
          intro dt hne
          simp only [isU, hn, hd, Option.isNone_none, Bool.true_and]
          simpa using hne.symm
        have hrest : xs.filter (isU k d) = [] := by
          have := h1 d
          rw [List.filter_cons_of_pos hxd] at this
          simpa using this
        have e : ∀ dt, dt ≠ d → (x :: xs).filter (isU k dt) = xs.filter (isU k dt) :=
          fun dt hne => List.filter_cons_of_neg (by simp [hxo dt hne])
        have ed : (x :: xs).filter (isU k d) = [x] := by rw [List.filter_cons_of_pos hxd, hrest]
        split at h
        · rename_i hun
          obtain ⟨i1, i2, i3, i4⟩ := ih items t _ items' t' nt' h1' h
          refine ⟨i1, ?_, ?_, ?_⟩
          · intro dt
            by_cases hne : dt = d
            · subst hne
              exact ⟨(i2 dt).1, fun hc => absurd hun hc⟩
            · rw [e dt hne]; exact i2 dt
          · intro dt
            rw [i3]
            by_cases hne : dt = d
            · subst hne
              have : hasUn t dt := hun
              simp [this]
            · rw [e dt hne]
          · intro dt
            rw [i4, mem_discard]
            by_cases hne : dt = d
            · subst hne; rw [ed]; simp
            · rw [e dt hne]; simp [hne]
        · rename_i hun
          cases ha : addItem k items t (k.copy x) with
          | error e => rw [ha] at h; simp at h
          | ok r =>
            obtain ⟨items1, t1⟩ := r
            rw [ha] at h
            simp only at h
            obtain ⟨rfl, hT⟩ := addItem_ok ha
            have hcu : ∀ dt, isU k dt (k.copy x) = isU k dt x := by
              intro dt; simp only [isU, hk.copy_name, hk.copy_dt]
            obtain ⟨i1, i2, i3, i4⟩ := ih _ t1 _ items' t' nt' h1' h
            refine ⟨?_, ?_, ?_, ?_⟩
            · intro n
              rw [i1, List.filter_append, List.filter_cons_of_neg (by simp [isN, hk.copy_name, hn])]
              simp
            · intro dt
              by_cases hne : dt = d
              · subst hne
                refine ⟨fun hc => absurd hc hun, fun _ => ?_⟩
                have h3 : hasUn t1 dt := (hT dt).2 (Or.inr (by rw [hcu]; exact hxd))
                rw [(i2 dt).1 h3, ed, List.filter_append, List.filter_cons_of_pos (by rw [hcu]; exact hxd)]
                simp
              · have h3 : hasUn t1 dt ↔ hasUn t dt := by rw [hT, hcu, hxo dt hne]; simp
                have h4 : (items ++ [k.copy x]).filter (isU k dt) = items.filter (isU k dt) := by
                  rw [List.filter_append, List.filter_cons_of_neg (by rw [hcu, hxo dt hne]; simp)]; simp
                rw [e dt hne]
                have := i2 dt
                rw [h4, h3] at this
                exact this
            · intro dt
              rw [i3, hT, hcu]
              by_cases hne : dt = d
              · subst hne; rw [ed]; simp [hxd]
              · rw [e dt hne, hxo dt hne]; simp
            · intro dt
              rw [i4, mem_discard]
              by_cases hne : dt = d
              · subst hne; rw [ed]; simp
              · rw [e dt hne]; simp [hne]

theorem addItems_ok {α : Type} {k : Kind α} : ∀ (xs items : List α) (t : Tab) (items' : List α) (t' : Tab),
    addItems k items t xs = .ok (items', t') →
    items' = items ++ xs ∧ (∀ dt, hasUn t' dt ↔ (hasUn t dt ∨ xs.filter (isU k dt) ≠ [])) ∧
    (∀ dt, (xs.filter (isU k dt)).length ≤ 1 ∧ (hasUn t dt → xs.filter (isU k dt) = [])) := by
  intro xs
  induction xs with
  | nil =>
    intro items t items' t' h
    simp only [addItems, Except.ok.injEq, Prod.mk.injEq] at h
    obtain ⟨rfl, rfl⟩ := h
    simp
  | cons x xs ih =>
    intro items t items' t' h
    simp only [addItems] at h
    cases ha : addItem k items t x with
    | error e => rw [ha] at h; simp at h
    | ok r =>
      obtain ⟨i1, t1⟩ := r
      rw [ha] at h
      simp only at h
      obtain ⟨rfl, hT⟩ := addItem_ok ha
      obtain ⟨j1, j2, j3⟩ := ih _ _ _ _ h
      refine ⟨by rw [j1]; simp, ?_, ?_⟩
      · intro dt
        rw [j2, hT, List.filter_cons]
        split <;> simp_all
      · intro dt
        rw [List.filter_cons]
        split
        · rename_i hu
          have h3 : hasUn t1 dt := (hT dt).2 (Or.inr hu)
          refine ⟨by simp [(j3 dt).2 h3], ?_⟩
          intro h4
          exfalso
          simp only [isU, Bool.and_eq_true, Option.isNone_iff_eq_none, beq_iff_eq] at hu
          simp only [addItem, hu.2, hu.1, addType] at ha
          unfold hasUn at h4
          rw [h4] at ha
          simp at ha
        · exact ⟨(j3 dt).1, fun h4 => (j3 dt).2 ((hT dt).2 (Or.inl h4))⟩

end Verif.Spec

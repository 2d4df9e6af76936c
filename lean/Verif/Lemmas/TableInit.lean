import Verif.Model.TableInit

/-!
# Lemmas about the constructor of a table
-/

namespace Verif.TableInit
open Verif

/-! ## Chains of indices -/

theorem mem_chain_self {c : Obj} (h : c.isIndex = true) : c ∈ c.chain := by
  cases c with
  | index => simp [Obj.chain]
  | data => cases h
  | enum => cases h

theorem chain_nil {c : Obj} (h : c.isIndex = false) : c.chain = [] := by
  cases c with
  | index => cases h
  | data => rfl
  | enum => rfl

theorem base_self {c : Obj} (h : c.isIndex = false) : c.base = c := by
  cases c with
  | index => cases h
  | data => rfl
  | enum => rfl

theorem base_not_index : ∀ (c : Obj), c.base.isIndex = false
  | .index _ _ _ t => base_not_index t
  | .data _ _ _ => rfl
  | .enum _ _ _ _ => rfl

theorem chain_isIndex : ∀ {a c : Obj}, c ∈ a.chain → c.isIndex = true
  | .index i n l t, c, h => by
    rcases List.mem_cons.1 h with rfl | h
    · rfl
    · exact chain_isIndex h
  | .data _ _ _, _, h => by cases h
  | .enum _ _ _ _, _, h => by cases h

theorem chain_base : ∀ {a c : Obj}, c ∈ a.chain → c.base = a.base
  | .index i n l t, c, h => by
    rcases List.mem_cons.1 h with rfl | h
    · rfl
    · exact (chain_base h : c.base = t.base)
  | .data _ _ _, _, h => by cases h
  | .enum _ _ _ _, _, h => by cases h

theorem chain_trans : ∀ {a b c : Obj}, b ∈ a.chain → c ∈ b.chain → c ∈ a.chain
  | .index i n l t, b, c, h, h' => by
    rcases List.mem_cons.1 h with rfl | h
    · exact h'
    · exact List.mem_cons_of_mem _ (chain_trans h h')
  | .data _ _ _, _, _, h, _ => by cases h
  | .enum _ _ _ _, _, _, h, _ => by cases h

theorem chain_length : ∀ {a b : Obj}, b ∈ a.chain → b = a ∨ b.chain.length < a.chain.length
  | .index i n l t, b, h => by
    rcases List.mem_cons.1 h with rfl | h
    · exact .inl rfl
    · right
      rcases chain_length h with rfl | h'
      · simp [Obj.chain]
      · simp only [Obj.chain, List.length_cons]
        omega
  | .data _ _ _, _, h => by cases h
  | .enum _ _ _ _, _, h => by cases h

theorem chain_antisymm {a b : Obj} (h : b ∈ a.chain) (h' : a ∈ b.chain) : a = b := by
  rcases chain_length h with rfl | h1
  · rfl
  · rcases chain_length h' with rfl | h2
    · rfl
    · omega

theorem chain_up : ∀ {b t : Obj}, t ∈ b.chain → t = b ∨ ∃ i n l, Obj.index i n l t ∈ b.chain
  | .index i n l u, t, h => by
    rcases List.mem_cons.1 h with rfl | h
    · exact .inl rfl
    · rcases chain_up h with rfl | ⟨i', n', l', h'⟩
      · exact .inr ⟨i, n, l, by simp [Obj.chain]⟩
      · exact .inr ⟨i', n', l', List.mem_cons_of_mem _ h'⟩
  | .data _ _ _, _, h => by cases h
  | .enum _ _ _ _, _, h => by cases h

theorem chain_last : ∀ {b : Obj}, b.isIndex = true → ∃ i n l, Obj.index i n l b.base ∈ b.chain
  | .index i n l u, _ => by
    cases hu : u.isIndex with
    | false => exact ⟨i, n, l, by simp [Obj.chain, Obj.base, base_self hu]⟩
    | true =>
      obtain ⟨i', n', l', h⟩ := chain_last hu
      exact ⟨i', n', l', List.mem_cons_of_mem _ h⟩
  | .data _ _ _, h => by cases h
  | .enum _ _ _ _, h => by cases h

/-! ## Well-formed columns -/

/-- names and targets determine the columns, and the targets of the indices are among the columns -/
structure WF (L : List Obj) : Prop where
  names : ∀ a ∈ L, ∀ b ∈ L, a.name = b.name → a = b
  targs : ∀ i n l t i' n' l' t', Obj.index i n l t ∈ L → Obj.index i' n' l' t' ∈ L → t.name = t'.name → Obj.index i n l t = .index i' n' l' t'
  closed : ∀ i n l t, Obj.index i n l t ∈ L → t ∈ L

theorem WF.chain {L : List Obj} (w : WF L) : ∀ {a c : Obj}, a ∈ L → c ∈ a.chain → c ∈ L
  | .index i n l t, c, ha, h => by
    rcases List.mem_cons.1 h with rfl | h
    · exact ha
    · exact w.chain (w.closed i n l t ha) h
  | .data _ _ _, _, _, h => by cases h
  | .enum _ _ _ _, _, _, h => by cases h

theorem WF.base {L : List Obj} (w : WF L) : ∀ {a : Obj}, a ∈ L → a.base ∈ L
  | .index i n l t, ha => (w.base (w.closed i n l t ha) : t.base ∈ L)
  | .data _ _ _, ha => ha
  | .enum _ _ _ _, ha => ha

theorem WF.linear {L : List Obj} (w : WF L) : ∀ {a b : Obj}, a ∈ L → b ∈ L → a.isIndex = true → b.isIndex = true → a.base = b.base →
    a ∈ b.chain ∨ b ∈ a.chain
  | .index i n l t, b, ha, hb, _, hbi, e => by
    cases ht : t.isIndex with
    | true =>
      rcases w.linear (w.closed i n l t ha) hb ht hbi e with h | h
      · rcases chain_up h with rfl | ⟨i', n', l', h'⟩
        · exact .inr (List.mem_cons_of_mem _ (mem_chain_self ht))
        · rw [w.targs _ _ _ _ _ _ _ _ ha (w.chain hb h') rfl]
          exact .inl h'
      · exact .inr (List.mem_cons_of_mem _ h)
    | false =>
      obtain ⟨i', n', l', h'⟩ := chain_last hbi
      have e : t = b.base := by
        rw [← e]
        exact (base_self ht).symm
      rw [w.targs _ _ _ _ _ _ _ _ ha (w.chain hb h') (by rw [e])]
      exact .inl h'
  | .data _ _ _, _, _, _, h, _, _ => by cases h
  | .enum _ _ _ _, _, _, _, h, _, _ => by cases h

/-- the column through which `b` is read: `b` itself, or the index around all other indices of `b` -/
def Top (L : List Obj) (b t : Obj) : Prop := t ∈ L ∧ t.base = b ∧ ∀ c ∈ L, c.isIndex = true → c.base = b → c ∈ t.chain

theorem top_unique {L : List Obj} {b t t' : Obj} (h : Top L b t) (h' : Top L b t') : t = t' := by
  cases ht : t.isIndex with
  | true =>
    cases ht' : t'.isIndex with
    | true => exact chain_antisymm (h.2.2 t' h'.1 ht' h'.2.1) (h'.2.2 t h.1 ht h.2.1)
    | false =>
      have := h'.2.2 t h.1 ht h.2.1
      rw [chain_nil ht'] at this
      cases this
  | false =>
    cases ht' : t'.isIndex with
    | true =>
      have := h.2.2 t' h'.1 ht' h'.2.1
      rw [chain_nil ht] at this
      cases this
    | false => rw [← base_self ht, ← base_self ht', h.2.1, h'.2.1]

theorem top_congr {L L' : List Obj} (h : ∀ c, c ∈ L ↔ c ∈ L') (b t : Obj) : Top L b t ↔ Top L' b t := by
  unfold Top
  simp only [h]

theorem WF.congr {L L' : List Obj} (w : WF L) (h : ∀ c ∈ L', c ∈ L) (hc : ∀ i n l t, Obj.index i n l t ∈ L' → t ∈ L') : WF L' :=
  ⟨fun a ha b hb => w.names a (h a ha) b (h b hb), fun i n l t i' n' l' t' h1 h2 => w.targs i n l t i' n' l' t' (h _ h1) (h _ h2), hc⟩

/-- extending what is known by one index -/
theorem top_step {L P : List Obj} (w : WF L) (hP : ∀ c ∈ P, c ∈ L) {b t c : Obj} (hc : c ∈ L) (hci : c.isIndex = true) (hcb : c.base = b)
    (ht : Top P b t) : (c ∈ t.chain → Top (c :: P) b t) ∧ (c ∉ t.chain → Top (c :: P) b c) := by
  constructor
  · intro h
    refine ⟨List.mem_cons_of_mem _ ht.1, ht.2.1, ?_⟩
    intro x hx hxi hxb
    rcases List.mem_cons.1 hx with rfl | hx
    · exact h
    · exact ht.2.2 x hx hxi hxb
  · intro h
    refine ⟨by simp, hcb, ?_⟩
    intro x hx hxi hxb
    rcases List.mem_cons.1 hx with rfl | hx
    · exact mem_chain_self hxi
    · have h1 := ht.2.2 x hx hxi hxb
      have hti : t.isIndex = true := by
        cases hti : t.isIndex with
        | true => rfl
        | false => rw [chain_nil hti] at h1; cases h1
      rcases w.linear hc (hP t ht.1) hci hti (by rw [hcb, ht.2.1]) with h2 | h2
      · exact (h h2).elim
      · exact chain_trans h2 h1

theorem top_other {P : List Obj} {b t c : Obj} (ht : Top P b t) (h : c.isIndex = true → c.base ≠ b) : Top (c :: P) b t := by
  refine ⟨List.mem_cons_of_mem _ ht.1, ht.2.1, ?_⟩
  intro x hx hxi hxb
  rcases List.mem_cons.1 hx with rfl | hx
  · exact (h hxi hxb).elim
  · exact ht.2.2 x hx hxi hxb

theorem top_new {P : List Obj} {c : Obj} (h : ∀ x ∈ P, x.base ≠ c.base) : Top (c :: P) c.base c := by
  refine ⟨by simp, rfl, ?_⟩
  intro x hx hxi hxb
  rcases List.mem_cons.1 hx with rfl | hx
  · exact mem_chain_self hxi
  · exact (h x hx hxb).elim

/-! ## Dicts -/

theorem has_set {K V : Type} [DecidableEq K] {d : Dict K V} {k k' : K} {v : V} : Dict.has (Dict.set d k v) k' = true ↔ k' = k ∨ Dict.has d k' = true := by
  rw [Dict.has_iff, Dict.has_iff, Dict.mem_keys_set]

theorem has_of_get? {K V : Type} [DecidableEq K] {d : Dict K V} {k : K} {v : V} (h : Dict.get? d k = some v) : Dict.has d k = true := by
  rw [Dict.has_iff]
  exact Dict.mem_keys_of_mem (Dict.mem_of_get? h)

theorem get?_of_has {K V : Type} [DecidableEq K] {d : Dict K V} {k : K} (h : Dict.has d k = true) : ∃ v, Dict.get? d k = some v := by
  cases hd : Dict.get? d k with
  | none => exact (Dict.get?_eq_none_iff.1 hd (Dict.has_iff.1 h)).elim
  | some v => exact ⟨v, rfl⟩

/-! ## Attributes and indices -/

theorem setAttr_cols (r : List String) (s : Attached) (c : Obj) : (setAttr r s c).cols = s.cols := by
  unfold setAttr
  split <;> rfl

theorem setAttr_indices (r : List String) (s : Attached) (c : Obj) : (setAttr r s c).indices = s.indices := by
  unfold setAttr
  split <;> rfl

theorem setAttr_has (r : List String) (s : Attached) (c : Obj) (k : String) :
    Dict.has (setAttr r s c).attrs k = true ↔ Dict.has s.attrs k = true ∨ (k = c.name ∧ c.name ∉ r) := by
  unfold setAttr Attached.hasAttr
  by_cases hr : c.name ∈ r
  · simp [hr]
  · by_cases ha : Dict.has s.attrs c.name = true
    · simp only [hr, ha, decide_false, Bool.or_true, if_true, not_false_iff, and_true]
      constructor
      · exact .inl
      · rintro (h | rfl)
        · exact h
        · exact ha
    · simp only [hr, ha, decide_false, Bool.or_false, not_false_iff, and_true]
      rw [if_neg (by simp), has_set]
      exact Or.comm

theorem setAttr_get {r : List String} {s : Attached} {c : Obj} {k : String} {o : Obj} (h : Dict.get? (setAttr r s c).attrs k = some o) :
    Dict.get? s.attrs k = some o ∨ (o = c ∧ k = c.name) := by
  unfold setAttr at h
  split at h
  · exact .inl h
  · by_cases hk : k = c.name
    · subst hk
      rw [Dict.get?_set_self] at h
      exact .inr ⟨(Option.some.inj h).symm, rfl⟩
    · rw [show (_ : Attached).attrs = _ from rfl, Dict.get?_set_ne hk] at h
      exact .inl h

theorem nested_cols (r : List String) (col : Obj) : ∀ (cs : List Obj) (s : Attached), (nested r col cs s).cols = s.cols
  | [], _ => rfl
  | c :: cs, s => by
    unfold nested
    rw [nested_cols r col cs]
    split
    · rfl
    · exact setAttr_cols r s c

theorem nested_get (r : List String) (col : Obj) : ∀ (cs : List Obj) (s : Attached) (k : String) (v : Obj),
    Dict.get? (nested r col cs s).indices k = some v → Dict.get? s.indices k = some v ∨ (v = col ∧ ∃ c ∈ cs, c.name = k)
  | [], _, _, _, h => .inl h
  | c :: cs, s, k, v, h => by
    unfold nested at h
    rcases nested_get r col cs _ k v h with h | ⟨rfl, c', hc', e⟩
    · split at h
      · exact .inl h
      · rw [show (_ : Attached).indices = _ from rfl, setAttr_indices] at h
        by_cases hk : k = c.name
        · subst hk
          rw [Dict.get?_set_self] at h
          exact .inr ⟨(Option.some.inj h).symm, c, by simp, rfl⟩
        · rw [Dict.get?_set_ne hk] at h
          exact .inl h
    · exact .inr ⟨rfl, c', List.mem_cons_of_mem _ hc', e⟩

theorem nested_attrs (r : List String) (col : Obj) : ∀ (cs : List Obj) (s : Attached) (k : String) (o : Obj),
    Dict.get? (nested r col cs s).attrs k = some o → Dict.get? s.attrs k = some o ∨ (o ∈ cs ∧ o.name = k)
  | [], _, _, _, h => .inl h
  | c :: cs, s, k, v, h => by
    unfold nested at h
    rcases nested_attrs r col cs _ k v h with h | ⟨hc', e⟩
    · split at h
      · exact .inl h
      · rcases setAttr_get h with h | ⟨rfl, rfl⟩
        · exact .inl h
        · exact .inr ⟨by simp, rfl⟩
    · exact .inr ⟨List.mem_cons_of_mem _ hc', e⟩

/-- the names of indices that are attributes are those in `__indices` -/
def Same (L : List Obj) (s : Attached) : Prop := ∀ x ∈ L, x.isIndex = true → (Dict.has s.indices x.name = true ↔ Dict.has s.attrs x.name = true)

theorem nested_same {L : List Obj} (w : WF L) {r : List String} (hr : ∀ x ∈ L, x.isIndex = true → x.name ∉ r) (col : Obj) :
    ∀ (cs : List Obj) (s : Attached), (∀ c ∈ cs, c ∈ L ∧ c.isIndex = true) → Same L s →
      Same L (nested r col cs s) ∧
      (∀ x ∈ L, x.isIndex = true → (Dict.has (nested r col cs s).indices x.name = true ↔ Dict.has s.indices x.name = true ∨ x ∈ cs)) ∧
      ∀ k, Dict.has s.attrs k = true → Dict.has (nested r col cs s).attrs k = true
  | [], s, _, hs => ⟨hs, by simp [nested], fun _ h => h⟩
  | c :: cs, s, hcs, hs => by
    obtain ⟨hcL, hci⟩ := hcs c (by simp)
    have hcr := hr c hcL hci
    unfold nested
    by_cases ha : Dict.has s.attrs c.name = true
    · rw [if_pos (by simp [Attached.hasAttr, ha])]
      obtain ⟨h1, h2, h3⟩ := nested_same w hr col cs s (fun x hx => hcs x (List.mem_cons_of_mem _ hx)) hs
      refine ⟨h1, ?_, h3⟩
      intro x hx hxi
      rw [h2 x hx hxi, List.mem_cons]
      constructor
      · rintro (h | h)
        · exact .inl h
        · exact .inr (.inr h)
      · rintro (h | rfl | h)
        · exact .inl h
        · exact .inl ((hs x hx hxi).2 ha)
        · exact .inr h
    · rw [if_neg (by simp [Attached.hasAttr, ha, hcr])]
      have hs' : Same L { setAttr r s c with indices := Dict.set (setAttr r s c).indices c.name col } := by
        intro x hx hxi
        show Dict.has (Dict.set (setAttr r s c).indices c.name col) x.name = true ↔ Dict.has (setAttr r s c).attrs x.name = true
        rw [has_set, setAttr_has, setAttr_indices, hs x hx hxi]
        constructor
        · rintro (h | h)
          · exact .inr ⟨h, hcr⟩
          · exact .inl h
        · rintro (h | h)
          · exact .inr h
          · exact .inl h.1
      obtain ⟨h1, h2, h3⟩ := nested_same w hr col cs _ (fun x hx => hcs x (List.mem_cons_of_mem _ hx)) hs'
      refine ⟨h1, ?_, ?_⟩
      · intro x hx hxi
        rw [h2 x hx hxi, List.mem_cons]
        show (Dict.has (Dict.set (setAttr r s c).indices c.name col) x.name = true ∨ _) ↔ _
        rw [has_set, setAttr_indices]
        constructor
        · rintro ((h | h) | h)
          · exact .inr (.inl (w.names x hx c hcL h))
          · exact .inl h
          · exact .inr (.inr h)
        · rintro (h | rfl | h)
          · exact .inl (.inr h)
          · exact .inl (.inl rfl)
          · exact .inr h
      · intro k hk
        apply h3
        show Dict.has (setAttr r s c).attrs k = true
        rw [setAttr_has]
        exact .inl hk

/-- what is known after the columns `P` -/
structure Inv (L : List Obj) (r : List String) (P : List Obj) (s : Attached) : Prop where
  same : Same L s
  index : ∀ x ∈ L, x.isIndex = true → (Dict.has s.indices x.name = true ↔ ∃ c ∈ P, x ∈ c.chain)
  value : ∀ k v, Dict.get? s.indices k = some v → v ∈ P ∧ ∃ x ∈ v.chain, x.name = k
  attr : ∀ k o, Dict.get? s.attrs k = some o → o.name = k ∧ o ∈ L
  has : ∀ c ∈ P, ∀ o, o = c ∨ o = c.base → o.name ∈ r ∨ Dict.has s.attrs o.name = true
  some : ∀ b ∈ L, b.isIndex = false → (∃ c ∈ P, c.base = b) → ∃ t, Dict.get? s.cols b.name = some t ∧ Top P b t
  none : ∀ b ∈ L, b.isIndex = false → (∀ c ∈ P, c.base ≠ b) → Dict.get? s.cols b.name = none

theorem inv_step {L : List Obj} (w : WF L) {r : List String} (hr : ∀ x ∈ L, x.isIndex = true → x.name ∉ r) {P : List Obj} (hP : ∀ c ∈ P, c ∈ L)
    {s : Attached} (h : Inv L r P s) {c : Obj} (hc : c ∈ L) : Inv L r (c :: P) (attachOne r s c) := by
  have hdata : c.isIndex = false → attachOne r s c = if Dict.has s.cols c.name then s else setAttr r { s with cols := Dict.set s.cols c.name c } c := by
    intro hci
    cases c with
    | index => cases hci
    | data => rfl
    | enum => rfl
  cases hci : c.isIndex with
  | false =>
    rw [hdata hci]
    have hcb := base_self hci
    have hidx : ∀ x ∈ L, x.isIndex = true → ((∃ c' ∈ P, x ∈ c'.chain) ↔ ∃ c' ∈ c :: P, x ∈ c'.chain) := by
      intro x _ _
      constructor
      · rintro ⟨c', h1, h2⟩
        exact ⟨c', List.mem_cons_of_mem _ h1, h2⟩
      · rintro ⟨c', h1, h2⟩
        rcases List.mem_cons.1 h1 with rfl | h1
        · rw [chain_nil hci] at h2
          cases h2
        · exact ⟨c', h1, h2⟩
    by_cases hcol : Dict.has s.cols c.name = true
    · rw [if_pos hcol]
      have hex : ∃ c' ∈ P, c'.base = c := by
        apply Classical.byContradiction
        intro hne
        have := h.none c hc hci (fun c' h1 h2 => hne ⟨c', h1, h2⟩)
        rw [Dict.get?_eq_none_iff] at this
        exact this (Dict.has_iff.1 hcol)
      refine ⟨h.same, fun x hx hxi => (h.index x hx hxi).trans (hidx x hx hxi), ?_, h.attr, ?_, ?_, ?_⟩
      · intro k v hv
        obtain ⟨h1, h2⟩ := h.value k v hv
        exact ⟨List.mem_cons_of_mem _ h1, h2⟩
      · intro x hx o ho
        rcases List.mem_cons.1 hx with rfl | hx
        · obtain ⟨c', h1, h2⟩ := hex
          have ho : o = x := by
            rcases ho with rfl | rfl
            · rfl
            · exact hcb
          exact h.has c' h1 o (.inr (by rw [ho, h2]))
        · exact h.has x hx o ho
      · intro b hb hbi hex'
        by_cases hbc : b = c
        · subst hbc
          obtain ⟨t, h1, h2⟩ := h.some b hb hbi hex
          exact ⟨t, h1, top_other h2 (fun h => by rw [hci] at h; cases h)⟩
        · obtain ⟨c', h1, h2⟩ := hex'
          rcases List.mem_cons.1 h1 with rfl | h1
          · rw [hcb] at h2
            exact (hbc h2.symm).elim
          · obtain ⟨t, h3, h4⟩ := h.some b hb hbi ⟨c', h1, h2⟩
            exact ⟨t, h3, top_other h4 (fun h => by rw [hci] at h; cases h)⟩
      · intro b hb hbi hne
        exact h.none b hb hbi (fun c' h1 => hne c' (List.mem_cons_of_mem _ h1))
    · rw [if_neg hcol]
      have hne : ∀ c' ∈ P, c'.base ≠ c := by
        intro c' h1 h2
        obtain ⟨t, h3, -⟩ := h.some c hc hci ⟨c', h1, h2⟩
        exact hcol (has_of_get? h3)
      refine ⟨?_, ?_, ?_, ?_, ?_, ?_, ?_⟩
      · intro x hx hxi
        rw [setAttr_has, setAttr_indices]
        show Dict.has s.indices x.name = true ↔ Dict.has s.attrs x.name = true ∨ _
        rw [h.same x hx hxi]
        constructor
        · exact .inl
        · rintro (h1 | ⟨h1, -⟩)
          · exact h1
          · rw [w.names x hx c hc h1, hci] at hxi
            cases hxi
      · intro x hx hxi
        rw [setAttr_indices]
        exact (h.index x hx hxi).trans (hidx x hx hxi)
      · intro k v hv
        rw [setAttr_indices] at hv
        obtain ⟨h1, h2⟩ := h.value k v hv
        exact ⟨List.mem_cons_of_mem _ h1, h2⟩
      · intro k o ho
        rcases setAttr_get ho with h1 | ⟨rfl, rfl⟩
        · exact h.attr k o h1
        · exact ⟨rfl, hc⟩
      · intro x hx o ho
        rw [setAttr_has]
        show _ ∨ (Dict.has s.attrs o.name = true ∨ _)
        rcases List.mem_cons.1 hx with rfl | hx
        · have ho : o = x := by
            rcases ho with rfl | rfl
            · rfl
            · exact hcb
          rw [ho]
          by_cases hr : x.name ∈ r
          · exact .inl hr
          · exact .inr (.inr ⟨rfl, hr⟩)
        · rcases h.has x hx o ho with h1 | h1
          · exact .inl h1
          · exact .inr (.inl h1)
      · intro b hb hbi hex'
        rw [setAttr_cols]
        by_cases hbc : b = c
        · subst hbc
          exact ⟨b, Dict.get?_set_self, by
            have := top_new (P := P) (c := b) (fun x hx => by rw [hcb]; exact hne x hx)
            rw [hcb] at this
            exact this⟩
        · obtain ⟨c', h1, h2⟩ := hex'
          rcases List.mem_cons.1 h1 with rfl | h1
          · rw [hcb] at h2
            exact (hbc h2.symm).elim
          · obtain ⟨t, h3, h4⟩ := h.some b hb hbi ⟨c', h1, h2⟩
            refine ⟨t, ?_, top_other h4 (fun h => by rw [hci] at h; cases h)⟩
            show Dict.get? (Dict.set s.cols c.name c) b.name = some t
            rw [Dict.get?_set_ne (fun e => hbc (w.names b hb c hc e))]
            exact h3
      · intro b hb hbi hn
        rw [setAttr_cols]
        show Dict.get? (Dict.set s.cols c.name c) b.name = none
        rw [Dict.get?_set_ne (fun e => hn c (by simp) (by rw [hcb, w.names b hb c hc e]))]
        exact h.none b hb hbi (fun c' h1 => hn c' (List.mem_cons_of_mem _ h1))
  | true =>
    cases c with
    | data => cases hci
    | enum => cases hci
    | index i n l t =>
    have htL := w.closed i n l t hc
    have hbL := w.base htL
    have hbi := base_not_index t
    have hcr := hr _ hc hci
    have hchain : ∀ x, x ∈ (Obj.index i n l t).chain ↔ x = .index i n l t ∨ x ∈ t.chain := fun x => List.mem_cons
    by_cases hidx : Dict.has s.indices n = true
    · have e : attachOne r s (.index i n l t) = s := if_pos hidx
      rw [e]
      obtain ⟨c0, hc0, hin⟩ := (h.index _ hc hci).1 hidx
      refine ⟨h.same, ?_, ?_, h.attr, ?_, ?_, ?_⟩
      · intro x hx hxi
        rw [h.index x hx hxi]
        constructor
        · rintro ⟨c', h1, h2⟩
          exact ⟨c', List.mem_cons_of_mem _ h1, h2⟩
        · rintro ⟨c', h1, h2⟩
          rcases List.mem_cons.1 h1 with rfl | h1
          · exact ⟨c0, hc0, chain_trans hin h2⟩
          · exact ⟨c', h1, h2⟩
      · intro k v hv
        obtain ⟨h1, h2⟩ := h.value k v hv
        exact ⟨List.mem_cons_of_mem _ h1, h2⟩
      · intro x hx o ho
        rcases List.mem_cons.1 hx with rfl | hx
        · rcases ho with rfl | rfl
          · exact .inr ((h.same _ hc hci).1 hidx)
          · exact h.has c0 hc0 _ (.inr (chain_base hin))
        · exact h.has x hx o ho
      · intro b hb hbi' hex
        have hex' : ∃ c' ∈ P, c'.base = b := by
          obtain ⟨c', h1, h2⟩ := hex
          rcases List.mem_cons.1 h1 with rfl | h1
          · exact ⟨c0, hc0, by rw [← chain_base hin]; exact h2⟩
          · exact ⟨c', h1, h2⟩
        obtain ⟨u, h3, h4⟩ := h.some b hb hbi' hex'
        refine ⟨u, h3, ?_⟩
        by_cases hb' : (Obj.index i n l t).base = b
        · refine (top_step w hP hc hci hb' h4).1 ?_
          have hc0i : c0.isIndex = true := by
            cases hc0i : c0.isIndex with
            | true => rfl
            | false => rw [chain_nil hc0i] at hin; cases hin
          exact chain_trans (h4.2.2 c0 hc0 hc0i (by rw [← chain_base hin]; exact hb')) hin
        · exact top_other h4 (fun _ => hb')
      · intro b hb hbi' hne
        exact h.none b hb hbi' (fun c' h1 => hne c' (List.mem_cons_of_mem _ h1))
    · have hsame0 : Same L (setAttr r { s with indices := Dict.set s.indices n (.index i n l t) } (.index i n l t)) := by
        intro x hx hxi
        rw [setAttr_has, setAttr_indices]
        show Dict.has (Dict.set s.indices n (.index i n l t)) x.name = true ↔ Dict.has s.attrs x.name = true ∨ _
        rw [has_set, h.same x hx hxi]
        constructor
        · rintro (h1 | h1)
          · exact .inr ⟨h1, hcr⟩
          · exact .inl h1
        · rintro (h1 | h1)
          · exact .inr h1
          · exact .inl h1.1
      obtain ⟨n1, n2, n3⟩ := nested_same w hr (.index i n l t) t.chain _
        (fun x hx => ⟨w.chain htL hx, chain_isIndex hx⟩) hsame0
      have n4 := nested_get r (.index i n l t) t.chain (setAttr r { s with indices := Dict.set s.indices n (.index i n l t) } (.index i n l t))
      have n5 := nested_attrs r (.index i n l t) t.chain (setAttr r { s with indices := Dict.set s.indices n (.index i n l t) } (.index i n l t))
      have n6 := nested_cols r (.index i n l t) t.chain (setAttr r { s with indices := Dict.set s.indices n (.index i n l t) } (.index i n l t))
      rw [setAttr_cols] at n6
      have e : attachOne r s (.index i n l t) = setAttr r { nested r (.index i n l t) t.chain
          (setAttr r { s with indices := Dict.set s.indices n (.index i n l t) } (.index i n l t)) with
            cols := Dict.set (nested r (.index i n l t) t.chain
              (setAttr r { s with indices := Dict.set s.indices n (.index i n l t) } (.index i n l t))).cols t.base.name (.index i n l t) } t.base :=
        if_neg hidx
      rw [e]
      generalize nested r (.index i n l t) t.chain
        (setAttr r { s with indices := Dict.set s.indices n (.index i n l t) } (.index i n l t)) = s1 at *
      have n6 : s1.cols = s.cols := n6
      rw [n6]
      have hnot : ∀ c' ∈ P, Obj.index i n l t ∉ c'.chain := by
        intro c' h1 h2
        exact hidx ((h.index _ hc hci).2 ⟨c', h1, h2⟩)
      have hmono : ∀ k, Dict.has s.attrs k = true → Dict.has s1.attrs k = true := by
        intro k hk
        apply n3
        rw [setAttr_has]
        exact .inl hk
      refine ⟨?_, ?_, ?_, ?_, ?_, ?_, ?_⟩
      · intro x hx hxi
        rw [setAttr_has, setAttr_indices]
        show Dict.has s1.indices x.name = true ↔ Dict.has s1.attrs x.name = true ∨ _
        rw [n1 x hx hxi]
        constructor
        · exact .inl
        · rintro (h1 | ⟨h1, -⟩)
          · exact h1
          · rw [w.names x hx _ hbL h1, hbi] at hxi
            cases hxi
      · intro x hx hxi
        rw [setAttr_indices]
        show Dict.has s1.indices x.name = true ↔ _
        rw [n2 x hx hxi, setAttr_indices]
        show (Dict.has (Dict.set s.indices n (.index i n l t)) x.name = true ∨ _) ↔ _
        rw [has_set, h.index x hx hxi]
        constructor
        · rintro ((h1 | ⟨c', h1, h2⟩) | h1)
          · have : x = .index i n l t := w.names x hx _ hc h1
            exact ⟨.index i n l t, by simp, (hchain x).2 (.inl this)⟩
          · exact ⟨c', List.mem_cons_of_mem _ h1, h2⟩
          · exact ⟨.index i n l t, by simp, (hchain x).2 (.inr h1)⟩
        · rintro ⟨c', h1, h2⟩
          rcases List.mem_cons.1 h1 with rfl | h1
          · rcases (hchain x).1 h2 with rfl | h2
            · exact .inl (.inl rfl)
            · exact .inr h2
          · exact .inl (.inr ⟨c', h1, h2⟩)
      · intro k v hv
        rw [setAttr_indices] at hv
        rcases n4 k v hv with h1 | ⟨rfl, x, h1, h2⟩
        · rw [setAttr_indices] at h1
          by_cases hk : k = n
          · subst hk
            have h1 : Dict.get? (Dict.set s.indices k (.index i k l t)) k = some v := h1
            rw [Dict.get?_set_self] at h1
            cases h1
            exact ⟨by simp, _, (hchain _).2 (.inl rfl), rfl⟩
          · have h1 : Dict.get? (Dict.set s.indices n (.index i n l t)) k = some v := h1
            rw [Dict.get?_set_ne hk] at h1
            obtain ⟨h2, h3⟩ := h.value k v h1
            exact ⟨List.mem_cons_of_mem _ h2, h3⟩
        · exact ⟨by simp, x, (hchain x).2 (.inr h1), h2⟩
      · intro k o ho
        rcases setAttr_get ho with h1 | ⟨rfl, rfl⟩
        · rcases n5 k o h1 with h1 | ⟨h1, h2⟩
          · rcases setAttr_get h1 with h1 | ⟨rfl, rfl⟩
            · exact h.attr k o h1
            · exact ⟨rfl, hc⟩
          · exact ⟨h2, w.chain htL h1⟩
        · exact ⟨rfl, hbL⟩
      · intro x hx o ho
        rw [setAttr_has]
        show _ ∨ (Dict.has s1.attrs o.name = true ∨ _)
        rcases List.mem_cons.1 hx with rfl | hx
        · rcases ho with rfl | rfl
          · right
            left
            apply n3
            rw [setAttr_has]
            exact .inr ⟨rfl, hcr⟩
          · by_cases hr' : t.base.name ∈ r
            · exact .inl hr'
            · exact .inr (.inr ⟨rfl, hr'⟩)
        · rcases h.has x hx o ho with h1 | h1
          · exact .inl h1
          · exact .inr (.inl (hmono _ h1))
      · intro b hb hbi' hex
        rw [setAttr_cols]
        show ∃ u, Dict.get? (Dict.set s.cols t.base.name (.index i n l t)) b.name = some u ∧ _
        by_cases hb' : t.base = b
        · subst hb'
          refine ⟨.index i n l t, Dict.get?_set_self, ?_⟩
          by_cases hex' : ∃ c' ∈ P, c'.base = t.base
          · obtain ⟨u, h3, h4⟩ := h.some _ hb hbi' hex'
            refine (top_step w hP hc hci rfl h4).2 (hnot u h4.1)
          · exact top_new (P := P) (c := .index i n l t) (fun x hx h2 => hex' ⟨x, hx, h2⟩)
        · obtain ⟨c', h1, h2⟩ := hex
          rcases List.mem_cons.1 h1 with rfl | h1
          · exact (hb' h2).elim
          · obtain ⟨u, h3, h4⟩ := h.some b hb hbi' ⟨c', h1, h2⟩
            refine ⟨u, ?_, top_other h4 (fun _ => hb')⟩
            rw [Dict.get?_set_ne (fun e => hb' (w.names b hb _ hbL e).symm)]
            exact h3
      · intro b hb hbi' hne
        rw [setAttr_cols]
        show Dict.get? (Dict.set s.cols t.base.name (.index i n l t)) b.name = none
        rw [Dict.get?_set_ne (fun e => hne (.index i n l t) (by simp) (w.names b hb _ hbL e).symm)]
        exact h.none b hb hbi' (fun c' h1 => hne c' (List.mem_cons_of_mem _ h1))

theorem inv_fold {L : List Obj} (w : WF L) {r : List String} (hr : ∀ x ∈ L, x.isIndex = true → x.name ∉ r) :
    ∀ (cs P : List Obj) (s : Attached), (∀ c ∈ P, c ∈ L) → (∀ c ∈ cs, c ∈ L) → Inv L r P s →
      ∃ Q, (∀ c, c ∈ Q ↔ c ∈ P ∨ c ∈ cs) ∧ Inv L r Q (cs.foldl (attachOne r) s)
  | [], P, s, _, _, h => ⟨P, by simp, h⟩
  | c :: cs, P, s, hP, hcs, h => by
    have hc := hcs c (by simp)
    obtain ⟨Q, h1, h2⟩ := inv_fold w hr cs (c :: P) (attachOne r s c) (by
      intro x hx
      rcases List.mem_cons.1 hx with rfl | hx
      · exact hc
      · exact hP x hx) (fun x hx => hcs x (List.mem_cons_of_mem _ hx)) (inv_step w hr hP h hc)
    refine ⟨Q, ?_, h2⟩
    intro x
    rw [h1 x, List.mem_cons, List.mem_cons]
    constructor
    · rintro ((h | h) | h)
      · exact .inr (.inl h)
      · exact .inl h
      · exact .inr (.inr h)
    · rintro (h | h | h)
      · exact .inl (.inr h)
      · exact .inl (.inl h)
      · exact .inr h

/-- what the constructor finds for the columns of the table -/
theorem attach_spec {L : List Obj} (w : WF L) {r : List String} (hr : ∀ x ∈ L, x.isIndex = true → x.name ∉ r) :
    (∀ b ∈ L, b.isIndex = false → ∃ t, Dict.get? (attach r L).cols b.name = some t ∧ Top L b t) ∧
    (∀ x ∈ L, x.isIndex = true → ∃ v, Dict.get? (attach r L).indices x.name = some v ∧ v ∈ L ∧ x ∈ v.chain) ∧
    (∀ c ∈ L, c.name ∉ r → Dict.get? (attach r L).attrs c.name = some c) := by
  obtain ⟨Q, hQ, h⟩ := inv_fold w hr L [] ⟨[], [], []⟩ (by simp) (fun c hc => hc) (by
    refine ⟨?_, ?_, ?_, ?_, ?_, ?_, ?_⟩
    · intro x _ _; simp [Dict.has]
    · intro x _ _; simp [Dict.has, Dict.keys]
    · intro k v hv; cases hv
    · intro k v hv; cases hv
    · intro c hc; cases hc
    · rintro b - - ⟨c, hc, -⟩; cases hc
    · intro b _ _ _; rfl)
  have hQ : ∀ c, c ∈ Q ↔ c ∈ L := by
    intro c
    rw [hQ c]
    simp
  refine ⟨?_, ?_, ?_⟩
  · intro b hb hbi
    obtain ⟨t, h1, h2⟩ := h.some b hb hbi ⟨b, (hQ b).2 hb, base_self hbi⟩
    exact ⟨t, h1, (top_congr hQ b t).1 h2⟩
  · intro x hx hxi
    obtain ⟨v, hv⟩ := get?_of_has ((h.index x hx hxi).2 ⟨x, (hQ x).2 hx, mem_chain_self hxi⟩)
    obtain ⟨h1, y, h2, h3⟩ := h.value _ _ hv
    have hvL := (hQ v).1 h1
    exact ⟨v, hv, hvL, by rw [← w.names y (w.chain hvL h2) x hx h3]; exact h2⟩
  · intro c hc hcr
    rcases h.has c ((hQ c).2 hc) c (.inl rfl) with h1 | h1
    · exact (hcr h1).elim
    · obtain ⟨o, ho⟩ := get?_of_has h1
      obtain ⟨h2, h3⟩ := h.attr _ _ ho
      have ho' : Dict.get? (attach r L).attrs c.name = some o := ho
      rw [ho', w.names o h3 c hc h2]

theorem attach_indices_sub {L : List Obj} (w : WF L) {r : List String} (hr : ∀ x ∈ L, x.isIndex = true → x.name ∉ r) {k : String} {v : Obj}
    (hv : Dict.get? (attach r L).indices k = some v) : ∃ x ∈ L, x.name = k := by
  obtain ⟨Q, hQ, h⟩ := inv_fold w hr L [] ⟨[], [], []⟩ (by simp) (fun c hc => hc) (by
    refine ⟨?_, ?_, ?_, ?_, ?_, ?_, ?_⟩
    · intro x _ _; simp [Dict.has]
    · intro x _ _; simp [Dict.has, Dict.keys]
    · intro k v hv; cases hv
    · intro k v hv; cases hv
    · intro c hc; cases hc
    · rintro b - - ⟨c, hc, -⟩; cases hc
    · intro b _ _ _; rfl)
  obtain ⟨h1, x, h2, h3⟩ := h.value k v hv
  rcases (hQ v).1 h1 with h4 | h4
  · cases h4
  · exact ⟨x, w.chain h4 h2, h3⟩

end Verif.TableInit

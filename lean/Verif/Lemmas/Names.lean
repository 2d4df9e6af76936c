import Verif.Model.Names

/-!
# Lemmas on names
-/

namespace Verif.Names
open Verif

/-! ## Characters -/

theorem not_lower_of_upper {c : Char} (h : c.isUpper = true) : c.isLower = false := by
  simp only [Char.isUpper, Char.isLower, Bool.and_eq_true, decide_eq_true_eq, Bool.and_eq_false_iff, decide_eq_false_iff_not, ge_iff_le] at *
  obtain ⟨h1, h2⟩ := h
  have h1 := UInt32.le_iff_toNat_le.1 h1
  have h2 := UInt32.le_iff_toNat_le.1 h2
  left
  intro h3
  have h3 := UInt32.le_iff_toNat_le.1 h3
  simp at *
  omega

theorem lower_ne_underscore {c : Char} (h : c.isLower = true) : c ≠ '_' := by
  rintro rfl
  revert h
  decide

theorem upper_ne_underscore {c : Char} (h : c.isUpper = true) : c ≠ '_' := by
  rintro rfl
  revert h
  decide

theorem toLower_eq_underscore {c : Char} : c.toLower = '_' ↔ c = '_' := by
  constructor
  · intro h
    unfold Char.toLower at h
    split at h
    · rename_i hc
      have h' := congrArg Char.val h
      have hc1 := UInt32.le_iff_toNat_le.1 hc.1
      have hc2 := UInt32.le_iff_toNat_le.1 hc.2
      have h'' := congrArg UInt32.toNat h'
      simp at hc1 hc2 h''
      omega
    · exact h
  · rintro rfl
    decide

theorem toLower_not_upper (c : Char) : c.toLower.isUpper = false := by
  unfold Char.toLower
  split
  · rename_i hc
    have hc1 := UInt32.le_iff_toNat_le.1 hc.1
    have hc2 := UInt32.le_iff_toNat_le.1 hc.2
    simp only [Char.isUpper, decide_eq_false_iff_not, ge_iff_le]
    rintro ⟨-, h⟩
    have h := UInt32.le_iff_toNat_le.1 h
    simp at hc1 hc2 h
    omega
  · rename_i hc
    cases h : c.isUpper with
    | false => rfl
    | true =>
      simp only [Char.isUpper, decide_eq_true_eq, ge_iff_le] at h
      exact (hc h).elim

theorem toLower_of_not_upper {c : Char} (h : c.isUpper = false) : c.toLower = c := by
  unfold Char.toLower
  split
  · rename_i hc
    simp only [Char.isUpper, decide_eq_false_iff_not, ge_iff_le] at h
    exact (h hc).elim
  · rfl

theorem not_upper_of_lower {c : Char} (h : c.isLower = true) : c.isUpper = false := by
  cases hu : c.isUpper with
  | false => rfl
  | true => rw [not_lower_of_upper hu] at h; cases h

theorem toLower_of_lower {c : Char} (h : c.isLower = true) : c.toLower = c := toLower_of_not_upper (not_upper_of_lower h)

/-! ## The letters are kept -/

/-- the letters other than the underscore -/
def letters (s : Name) : Name := s.filter (fun c => decide (c ≠ '_'))

theorem letters_append (a b : Name) : letters (a ++ b) = letters a ++ letters b := List.filter_append ..

theorem letters_cons_ne {c : Char} (s : Name) (h : c ≠ '_') : letters (c :: s) = c :: letters s := by
  simp [letters, h]

theorem letters_underscore (s : Name) : letters ('_' :: s) = letters s := by
  simp [letters]

theorem letters_cons_congr {c : Char} {a b : Name} (h : letters a = letters b) : letters (c :: a) = letters (c :: b) := by
  by_cases hc : c = '_'
  · subst hc
    rw [letters_underscore, letters_underscore, h]
  · rw [letters_cons_ne _ hc, letters_cons_ne _ hc, h]

theorem sub1_letters : ∀ (f : Nat) (s : Name), letters (sub1 f s) = letters s
  | 0, _ => rfl
  | _ + 1, [] => rfl
  | _ + 1, [_] => rfl
  | f + 1, c :: u :: s => by
    unfold sub1
    split
    · refine letters_cons_congr ?_
      rw [letters_underscore]
      refine letters_cons_congr ?_
      rw [letters_append, sub1_letters f, ← letters_append, List.takeWhile_append_dropWhile]
    · exact letters_cons_congr (sub1_letters f (u :: s))

theorem sub2_letters : ∀ (f : Nat) (s : Name), letters (sub2 f s) = letters s
  | 0, _ => rfl
  | _ + 1, [] => rfl
  | _ + 1, [_] => rfl
  | f + 1, c :: u :: s => by
    unfold sub2
    split
    · refine letters_cons_congr ?_
      rw [letters_underscore]
      exact letters_cons_congr (sub2_letters f s)
    · exact letters_cons_congr (sub2_letters f (u :: s))

theorem letters_map_lower (s : Name) : letters (s.map Char.toLower) = (letters s).map Char.toLower := by
  unfold letters
  rw [List.filter_map]
  congr 1
  apply List.filter_congr
  intro c _
  simp only [Function.comp_apply, ne_eq, toLower_eq_underscore]

theorem snake_letters (t : Name) : letters (snake t) = (letters t).map Char.toLower := by
  unfold snake
  rw [letters_map_lower, sub2_letters, sub1_letters]

/-! ## Without capitals -/

theorem sub1_plain : ∀ (f : Nat) (s : Name), (∀ c ∈ s, c.isUpper = false) → sub1 f s = s
  | 0, _, _ => rfl
  | _ + 1, [], _ => rfl
  | _ + 1, [_], _ => rfl
  | f + 1, c :: u :: s, h => by
    unfold sub1
    rw [if_neg (by simp [h u (by simp)]), sub1_plain f (u :: s) (fun x hx => h x (List.mem_cons_of_mem _ hx))]

theorem sub2_plain : ∀ (f : Nat) (s : Name), (∀ c ∈ s, c.isUpper = false) → sub2 f s = s
  | 0, _, _ => rfl
  | _ + 1, [], _ => rfl
  | _ + 1, [_], _ => rfl
  | f + 1, c :: u :: s, h => by
    unfold sub2
    rw [if_neg (by simp [h u (by simp)]), sub2_plain f (u :: s) (fun x hx => h x (List.mem_cons_of_mem _ hx))]

theorem snake_plain {t : Name} (h : ∀ c ∈ t, c.isUpper = false) : snake t = t := by
  unfold snake
  rw [sub1_plain _ _ h, sub2_plain _ _ h]
  exact (List.map_congr_left (fun c hc => toLower_of_not_upper (h c hc))).trans (List.map_id t)

theorem sub1_skip (f : Nat) (c u : Char) (s : Name) (h : u.isUpper = false) : sub1 (f + 1) (c :: u :: s) = c :: sub1 f (u :: s) := by
  show (if _ then _ else _) = _
  rw [if_neg (by rw [h]; simp)]

theorem sub2_skip (f : Nat) (c u : Char) (s : Name) (h : u.isUpper = false ∨ c = '_') : sub2 (f + 1) (c :: u :: s) = c :: sub2 f (u :: s) := by
  show (if _ then _ else _) = _
  rcases h with h | rfl
  · rw [if_neg (by rw [h]; simp)]
  · rw [if_neg (by
      have : ('_' : Char).isLower = false ∧ ('_' : Char).isDigit = false := by decide
      rw [this.1, this.2]
      simp)]

/-! ## Words -/

/-- a word: a capital, followed by at least one small letter -/
structure Word where
  cap : Char
  low : List Char
  hcap : cap.isUpper = true
  hlow : ∀ c ∈ low, c.isLower = true
  hne : low ≠ []

def Word.text (w : Word) : Name := w.cap :: w.low

/-- the words one after the other, before each an underscore or not -/
def render : List (Bool × Word) → Name
  | [] => []
  | (b, w) :: ws => (if b then ['_'] else []) ++ w.text ++ render ws

/-- before every second word -/
def alternate : List Word → List (Bool × Word)
  | [] => []
  | [w] => [(true, w)]
  | w :: v :: ws => (true, w) :: (false, v) :: alternate ws

def camel (ws : List Word) : Name := render (ws.map (fun w => (false, w)))

theorem camel_cons (w : Word) (ws : List Word) : camel (w :: ws) = w.cap :: (w.low ++ camel ws) := by
  simp [camel, render, Word.text]

theorem camel_head (ws : List Word) : ws = [] ∨ ∃ c s, camel ws = c :: s ∧ c.isUpper = true := by
  cases ws with
  | nil => exact .inl rfl
  | cons w ws => exact .inr ⟨w.cap, w.low ++ camel ws, camel_cons w ws, w.hcap⟩

theorem takeWhile_camel (l : List Char) (h : ∀ c ∈ l, c.isLower = true) (ws : List Word) :
    (l ++ camel ws).takeWhile Char.isLower = l ∧ (l ++ camel ws).dropWhile Char.isLower = camel ws := by
  have h0 : (camel ws).takeWhile Char.isLower = [] ∧ (camel ws).dropWhile Char.isLower = camel ws := by
    rcases camel_head ws with rfl | ⟨c, s, e, hc⟩
    · exact ⟨rfl, rfl⟩
    · rw [e, List.takeWhile_cons, List.dropWhile_cons, not_lower_of_upper hc]
      exact ⟨rfl, rfl⟩
  induction l with
  | nil => exact h0
  | cons x xs ih =>
    have hx := h x (List.mem_cons_self ..)
    obtain ⟨i1, i2⟩ := ih (fun c hc => h c (List.mem_cons_of_mem _ hc))
    rw [List.cons_append, List.takeWhile_cons, List.dropWhile_cons, if_pos hx, if_pos hx]
    exact ⟨congrArg _ i1, i2⟩

/-- the first substitution, within a word -/
theorem sub1_words : ∀ (f : Nat) (l : List Char) (ws : List Word), l ≠ [] → (∀ c ∈ l, c.isLower = true) → (l ++ camel ws).length ≤ f →
    sub1 f (l ++ camel ws) = l ++ render (alternate ws)
  | 0, l, ws, hne, _, hf => by
    cases l with
    | nil => exact (hne rfl).elim
    | cons x xs => simp at hf
  | f + 1, [], _, hne, _, _ => (hne rfl).elim
  | f + 1, [x], [], _, _, _ => rfl
  | f + 1, x :: y :: l, ws, _, hl, hf => by
    have hy := hl y (by simp)
    simp only [List.cons_append]
    unfold sub1
    rw [if_neg (by rw [not_upper_of_lower hy]; simp)]
    have := sub1_words f (y :: l) ws (by simp) (fun c hc => hl c (List.mem_cons_of_mem _ hc)) (by
      simp only [List.cons_append, List.length_cons] at hf ⊢
      omega)
    rw [List.cons_append] at this
    rw [this]
    rfl
  | f + 1, [x], w :: ws, _, _, hf => by
    obtain ⟨t1, t2⟩ := takeWhile_camel w.low w.hlow ws
    have hcons : [x] ++ camel (w :: ws) = x :: w.cap :: (w.low ++ camel ws) := by rw [camel_cons]; rfl
    rw [hcons] at hf ⊢
    unfold sub1
    rw [t1, t2, if_pos (by
      rw [w.hcap]
      cases hw : w.low with
      | nil => exact (w.hne hw).elim
      | cons a b => rfl)]
    cases ws with
    | nil =>
      have : sub1 f (camel []) = [] := by
        cases f <;> rfl
      rw [this]
      simp [alternate, render, Word.text]
    | cons v ws =>
      have hlen : (v.low ++ camel ws).length + 1 ≤ f := by
        simp only [List.length_cons, List.length_append, camel_cons] at hf ⊢
        omega
      cases hv : v.low with
      | nil => exact (v.hne hv).elim
      | cons a b =>
        cases f with
        | zero => omega
        | succ f =>
          have ha : a.isUpper = false := not_upper_of_lower (v.hlow a (by rw [hv]; simp))
          have ih := sub1_words f v.low ws v.hne v.hlow (by omega)
          have e : sub1 (f + 1) (camel (v :: ws)) = v.cap :: sub1 f (v.low ++ camel ws) := by
            rw [camel_cons, hv, List.cons_append]
            exact sub1_skip _ _ _ _ ha
          rw [e, ih]
          simp [alternate, render, Word.text]

theorem render_head (ws : List (Bool × Word)) : ws = [] ∨ (∃ w vs, ws = (true, w) :: vs) ∨ ∃ w vs, ws = (false, w) :: vs := by
  match ws with
  | [] => exact .inl rfl
  | (true, w) :: vs => exact .inr (.inl ⟨w, vs, rfl⟩)
  | (false, w) :: vs => exact .inr (.inr ⟨w, vs, rfl⟩)

/-- the second substitution, within a word -/
theorem sub2_words : ∀ (f : Nat) (l : List Char) (ws : List (Bool × Word)), l ≠ [] → (∀ c ∈ l, c.isLower = true) →
    (l ++ render ws).length ≤ f → sub2 f (l ++ render ws) = l ++ render (ws.map (fun p => (true, p.2)))
  | 0, l, ws, hne, _, hf => by
    cases l with
    | nil => exact (hne rfl).elim
    | cons x xs => simp at hf
  | f + 1, [], _, hne, _, _ => (hne rfl).elim
  | f + 1, [x], [], _, _, _ => rfl
  | f + 1, x :: y :: l, ws, _, hl, hf => by
    have hy := hl y (by simp)
    simp only [List.cons_append]
    unfold sub2
    rw [if_neg (by rw [not_upper_of_lower hy]; simp)]
    have := sub2_words f (y :: l) ws (by simp) (fun c hc => hl c (List.mem_cons_of_mem _ hc)) (by
      simp only [List.cons_append, List.length_cons] at hf ⊢
      omega)
    rw [List.cons_append] at this
    rw [this]
    rfl
  | f + 1, [x], (false, w) :: ws, _, hl, hf => by
    have hx := hl x (by simp)
    have hcons : [x] ++ render ((false, w) :: ws) = x :: w.cap :: (w.low ++ render ws) := by simp [render, Word.text]
    rw [hcons] at hf ⊢
    unfold sub2
    rw [if_pos (by rw [hx, w.hcap]; rfl), sub2_words f w.low ws w.hne w.hlow (by simp only [List.length_cons] at hf; omega)]
    simp [render, Word.text]
  | f + 1, [x], (true, w) :: ws, _, hl, hf => by
    have hcons : [x] ++ render ((true, w) :: ws) = x :: '_' :: w.cap :: (w.low ++ render ws) := by simp [render, Word.text]
    rw [hcons] at hf ⊢
    simp only [List.length_cons] at hf
    obtain ⟨f, rfl⟩ : ∃ k, f = k + 2 := ⟨f - 2, by omega⟩
    cases hv : w.low with
    | nil => exact (w.hne hv).elim
    | cons a b =>
      have ha : a.isUpper = false := not_upper_of_lower (w.hlow a (by rw [hv]; simp))
      have ih := sub2_words f w.low ws w.hne w.hlow (by omega)
      have e1 : sub2 (f + 1) (w.cap :: (w.low ++ render ws)) = w.cap :: sub2 f (w.low ++ render ws) := by
        rw [hv, List.cons_append]
        exact sub2_skip _ _ _ _ (.inl ha)
      have e2 : sub2 (f + 2) ('_' :: w.cap :: (w.low ++ render ws)) = '_' :: sub2 (f + 1) (w.cap :: (w.low ++ render ws)) := sub2_skip _ _ _ _ (.inr rfl)
      have e3 : sub2 (f + 2 + 1) (x :: '_' :: w.cap :: (w.low ++ render ws)) = x :: sub2 (f + 2) ('_' :: w.cap :: (w.low ++ render ws)) :=
        sub2_skip _ _ _ _ (.inl (by decide))
      rw [← hv, e3, e2, e1, ih]
      simp [render, Word.text]

theorem alternate_words (ws : List Word) : (alternate ws).map (fun p => (true, p.2)) = ws.map (fun w => (true, w)) := by
  match ws with
  | [] => rfl
  | [w] => rfl
  | w :: v :: ws =>
    simp only [alternate, List.map_cons, alternate_words ws]

theorem map_lower_render (ws : List Word) : (render (ws.map (fun w => (true, w)))).map Char.toLower =
    (ws.map (fun w => '_' :: w.text.map Char.toLower)).flatten := by
  induction ws with
  | nil => rfl
  | cons w ws ih =>
    simp only [List.map_cons, render, List.flatten_cons, if_true, List.map_append, ih]
    rfl

theorem snake_camel (w : Word) (ws : List Word) :
    snake (camel (w :: ws)) = w.text.map Char.toLower ++ (ws.map (fun v => '_' :: v.text.map Char.toLower)).flatten := by
  have hf : ∀ (f : Nat), (w.low ++ camel ws).length ≤ f → sub1 (f + 1) (camel (w :: ws)) = w.cap :: (w.low ++ render (alternate ws)) := by
    intro f hf
    rw [camel_cons]
    cases hv : w.low with
    | nil => exact (w.hne hv).elim
    | cons a b =>
      have ha : a.isUpper = false := not_upper_of_lower (w.hlow a (by rw [hv]; simp))
      have ih := sub1_words f w.low ws w.hne w.hlow hf
      have e : sub1 (f + 1) (w.cap :: (a :: b ++ camel ws)) = w.cap :: sub1 f (w.low ++ camel ws) := by
        rw [hv, List.cons_append]
        exact sub1_skip _ _ _ _ ha
      rw [e, ih, hv]
  have hs : ∀ (f : Nat) (vs : List (Bool × Word)), (w.low ++ render vs).length ≤ f →
      sub2 (f + 1) (w.cap :: (w.low ++ render vs)) = w.cap :: (w.low ++ render (vs.map (fun p => (true, p.2)))) := by
    intro f vs hf
    cases hv : w.low with
    | nil => exact (w.hne hv).elim
    | cons a b =>
      have ha : a.isUpper = false := not_upper_of_lower (w.hlow a (by rw [hv]; simp))
      have ih := sub2_words f w.low vs w.hne w.hlow hf
      have e : sub2 (f + 1) (w.cap :: (a :: b ++ render vs)) = w.cap :: sub2 f (w.low ++ render vs) := by
        rw [hv, List.cons_append]
        exact sub2_skip _ _ _ _ (.inl ha)
      rw [e, ih, hv]
  have e1 : sub1 (camel (w :: ws)).length (camel (w :: ws)) = w.cap :: (w.low ++ render (alternate ws)) := by
    have hl : (camel (w :: ws)).length = (w.low ++ camel ws).length + 1 := by rw [camel_cons]; rfl
    rw [hl]
    exact hf _ (Nat.le_refl _)
  unfold snake
  rw [e1, List.length_cons, hs _ _ (Nat.le_refl _), alternate_words]
  have := map_lower_render ws
  simp only [List.map_cons, List.map_append, this, Word.text, List.cons_append]

/-! ## Joined names -/

/-- no underscore at the end, no two underscores in a row -/
def Plain (n : Name) : Prop := n.getLast? ≠ some '_' ∧ ¬ ['_', '_'] <:+: n

theorem plain_split {n m X Y : Name} (hn : Plain n) (hm : Plain m) (h : n ++ '_' :: '_' :: X = m ++ '_' :: '_' :: Y) : n = m ∧ X = Y := by
  have key : ∀ (n m X Y : Name), Plain m → n ++ '_' :: '_' :: X = m ++ '_' :: '_' :: Y → n.length ≤ m.length → n = m ∧ X = Y := by
    intro n m X Y hm h hl
    obtain ⟨k, hk⟩ : ∃ k, m = n ++ k := by
      have := congrArg (List.take n.length) h
      rw [List.take_left, List.take_append_of_le_length hl] at this
      refine ⟨m.drop n.length, ?_⟩
      have e := List.take_append_drop n.length m
      rw [← this] at e
      exact e.symm
    subst hk
    rw [List.append_assoc, List.append_cancel_left_eq] at h
    match k, h with
    | [], h =>
      simp only [List.nil_append, List.cons.injEq, true_and] at h
      exact ⟨by simp, h⟩
    | [c], h =>
      simp only [List.cons_append, List.nil_append, List.cons.injEq] at h
      obtain ⟨h1, -⟩ := h
      subst h1
      exact (hm.1 (by simp)).elim
    | c :: d :: k, h =>
      simp only [List.cons_append, List.cons.injEq] at h
      obtain ⟨h1, h2, -⟩ := h
      subst h1 h2
      exact (hm.2 ⟨n, k, by simp⟩).elim
  by_cases hl : n.length ≤ m.length
  · exact key n m X Y hm h hl
  · obtain ⟨a, b⟩ := key m n Y X hn h.symm (by omega)
    exact ⟨a.symm, b.symm⟩

theorem join_inj : ∀ (p q : List Name), p ≠ [] → q ≠ [] → (∀ n ∈ p, Plain n) → (∀ n ∈ q, Plain n) → join p = join q → p = q
  | [], _, h, _, _, _, _ => (h rfl).elim
  | _ :: _, [], _, h, _, _, _ => (h rfl).elim
  | [n], [m], _, _, _, _, h => by rw [show n = m from h]
  | [n], m :: m' :: q, _, _, hp, _, h => by
    have h : n = m ++ '_' :: '_' :: join (m' :: q) := h
    exact ((hp n (by simp)).2 ⟨m, join (m' :: q), by rw [h]; simp⟩).elim
  | n :: n' :: p, [m], _, _, _, hq, h => by
    have h : n ++ '_' :: '_' :: join (n' :: p) = m := h
    exact ((hq m (by simp)).2 ⟨n, join (n' :: p), by rw [← h]; simp⟩).elim
  | n :: n' :: p, m :: m' :: q, _, _, hp, hq, h => by
    have h : n ++ '_' :: '_' :: join (n' :: p) = m ++ '_' :: '_' :: join (m' :: q) := h
    obtain ⟨a, b⟩ := plain_split (hp n (by simp)) (hq m (by simp)) h
    rw [a, join_inj (n' :: p) (m' :: q) (by simp) (by simp) (fun x hx => hp x (List.mem_cons_of_mem _ hx))
      (fun x hx => hq x (List.mem_cons_of_mem _ hx)) b]

/-! ## Paths -/

/-- the path of names from a spec, itself included, down to a spec below it; not beyond a group or dataset with a type -/
inductive AtS : Node → List Name → Nat → Prop
  | self (m : Node) : AtS m [m.own] m.id
  | sub {m c : Node} {p : List Name} {i : Nat} (ht : m.typed = false) (hc : c ∈ m.subs) (h : AtS c p i) : AtS m (m.own :: p) i

/-- the spec `i` is below `n`, reached by the names `p` -/
def At (n : Node) (p : List Name) (i : Nat) : Prop := ∃ c ∈ n.subs, AtS c p i

theorem atS_iff (m : Node) (p : List Name) (i : Nat) :
    AtS m p i ↔ (p = [m.own] ∧ i = m.id) ∨ (m.typed = false ∧ ∃ q c, c ∈ m.subs ∧ AtS c q i ∧ p = m.own :: q) := by
  constructor
  · intro h
    cases h with
    | self => exact .inl ⟨rfl, rfl⟩
    | sub ht hc h => exact .inr ⟨ht, _, _, hc, h, rfl⟩
  · rintro (⟨rfl, rfl⟩ | ⟨ht, q, c, hc, h, rfl⟩)
    · exact .self m
    · exact .sub ht hc h

mutual
theorem fields_iff : ∀ (m : Node) (st : List Name) (k : Name) (i : Nat), (k, i) ∈ fields st m ↔ ∃ p, AtS m p i ∧ k = join (st ++ p)
  | .mk id name type many typed as ds gs ls, st, k, i => by
    have h1 := fieldsL_iff as
    have h2 := fieldsL_iff ds
    have h3 := fieldsL_iff gs
    have h4 := fieldsL_iff ls
    have e : ∀ st', ((k, i) ∈ fieldsL st' as ++ fieldsL st' ds ++ fieldsL st' gs ++ fieldsL st' ls) ↔
        ∃ c ∈ Node.subs (.mk id name type many typed as ds gs ls), ∃ p, AtS c p i ∧ k = join (st' ++ p) := by
      intro st'
      simp only [List.mem_append, h1, h2, h3, h4, Node.subs]
      constructor
      · rintro (((⟨c, hc, x⟩ | ⟨c, hc, x⟩) | ⟨c, hc, x⟩) | ⟨c, hc, x⟩)
        · exact ⟨c, .inl (.inl (.inl hc)), x⟩
        · exact ⟨c, .inl (.inl (.inr hc)), x⟩
        · exact ⟨c, .inl (.inr hc), x⟩
        · exact ⟨c, .inr hc, x⟩
      · rintro ⟨c, ((hc | hc) | hc) | hc, x⟩
        · exact .inl (.inl (.inl ⟨c, hc, x⟩))
        · exact .inl (.inl (.inr ⟨c, hc, x⟩))
        · exact .inl (.inr ⟨c, hc, x⟩)
        · exact .inr ⟨c, hc, x⟩
    unfold fields
    rw [List.mem_cons, Prod.mk.injEq]
    constructor
    · rintro (⟨rfl, rfl⟩ | h)
      · exact ⟨_, .self _, rfl⟩
      · cases typed with
        | true => cases h
        | false =>
          obtain ⟨c, hc, p, hp, rfl⟩ := (e _).1 h
          exact ⟨_, .sub rfl hc hp, by simp⟩
    · rintro ⟨p, hp, rfl⟩
      rcases (atS_iff _ _ _).1 hp with ⟨rfl, rfl⟩ | ⟨ht, q, c, hc, h, rfl⟩
      · exact .inl ⟨rfl, rfl⟩
      · right
        have ht' : typed = false := ht
        rw [ht', if_neg (by simp), ← ht']
        exact (e _).2 ⟨c, hc, q, h, by simp⟩
theorem fieldsL_iff : ∀ (ns : List Node) (st : List Name) (k : Name) (i : Nat),
    (k, i) ∈ fieldsL st ns ↔ ∃ m ∈ ns, ∃ p, AtS m p i ∧ k = join (st ++ p)
  | [], st, k, i => by simp [fieldsL]
  | n :: ns, st, k, i => by
    unfold fieldsL
    rw [List.mem_append, fields_iff n, fieldsL_iff ns]
    simp
end

theorem assignments_iff (n : Node) (k : Name) (i : Nat) : (k, i) ∈ assignments n ↔ ∃ p, At n p i ∧ join p = k := by
  obtain ⟨id, name, type, many, typed, as, ds, gs, ls⟩ := n
  unfold assignments At
  simp only [List.mem_append, fieldsL_iff, Node.subs, List.nil_append]
  constructor
  · rintro (((⟨c, hc, p, x, rfl⟩ | ⟨c, hc, p, x, rfl⟩) | ⟨c, hc, p, x, rfl⟩) | ⟨c, hc, p, x, rfl⟩)
    · exact ⟨p, ⟨c, .inl (.inl (.inl hc)), x⟩, rfl⟩
    · exact ⟨p, ⟨c, .inl (.inr hc), x⟩, rfl⟩
    · exact ⟨p, ⟨c, .inl (.inl (.inr hc)), x⟩, rfl⟩
    · exact ⟨p, ⟨c, .inr hc, x⟩, rfl⟩
  · rintro ⟨p, ⟨c, ((hc | hc) | hc) | hc, x⟩, rfl⟩
    · exact .inl (.inl (.inl ⟨c, hc, p, x, rfl⟩))
    · exact .inl (.inr ⟨c, hc, p, x, rfl⟩)
    · exact .inl (.inl (.inr ⟨c, hc, p, x, rfl⟩))
    · exact .inr ⟨c, hc, p, x, rfl⟩

/-! ## Assignments -/

theorem assign_append {K V : Type} [DecidableEq K] (d : Dict K V) (a b : List (K × V)) : assign d (a ++ b) = assign (assign d a) b :=
  List.foldl_append ..

theorem assign_other {K V : Type} [DecidableEq K] : ∀ (l : List (K × V)) (d : Dict K V) (k : K), (∀ v, (k, v) ∉ l) →
    Dict.get? (assign d l) k = Dict.get? d k
  | [], _, _, _ => rfl
  | (a, v) :: l, d, k, h => by
    have ha : k ≠ a := fun e => h v (by rw [e]; simp)
    have := assign_other l (Dict.set d a v) k (fun w hw => h w (List.mem_cons_of_mem _ hw))
    rw [show assign d ((a, v) :: l) = assign (Dict.set d a v) l from rfl, this, Dict.get?_set_ne ha]

theorem assign_last {K V : Type} [DecidableEq K] (l1 l2 : List (K × V)) (d : Dict K V) (k : K) (v : V) (h : ∀ w, (k, w) ∉ l2) :
    Dict.get? (assign d (l1 ++ (k, v) :: l2)) k = some v := by
  rw [assign_append, show assign (assign d l1) ((k, v) :: l2) = assign (Dict.set (assign d l1) k v) l2 from rfl, assign_other _ _ _ h,
    Dict.get?_set_self]

theorem last_split {K V : Type} [DecidableEq K] : ∀ (l : List (K × V)) (k : K) (v : V), (k, v) ∈ l →
    ∃ l1 w l2, l = l1 ++ (k, w) :: l2 ∧ ∀ x, (k, x) ∉ l2
  | [], _, _, h => by cases h
  | (a, x) :: l, k, v, h => by
    by_cases hk : ∃ w, (k, w) ∈ l
    · obtain ⟨w, hw⟩ := hk
      obtain ⟨l1, w', l2, e, h'⟩ := last_split l k w hw
      exact ⟨(a, x) :: l1, w', l2, by rw [e]; rfl, h'⟩
    · rcases List.mem_cons.1 h with h | h
      · cases h
        exact ⟨[], _, l, rfl, fun x hx => hk ⟨x, hx⟩⟩
      · exact (hk ⟨v, h⟩).elim

theorem assign_mem {K V : Type} [DecidableEq K] {l : List (K × V)} {k : K} {v : V} (h : Dict.get? (assign [] l) k = some v) : (k, v) ∈ l := by
  by_cases hk : ∃ w, (k, w) ∈ l
  · obtain ⟨w, hw⟩ := hk
    obtain ⟨l1, w', l2, e, h'⟩ := last_split l k w hw
    rw [e, assign_last _ _ _ _ _ h'] at h
    cases h
    rw [e]
    simp
  · rw [assign_other _ _ _ (fun w hw => hk ⟨w, hw⟩)] at h
    cases h

theorem assign_some {K V : Type} [DecidableEq K] {l : List (K × V)} {k : K} {v : V} (h : (k, v) ∈ l) :
    ∃ w, Dict.get? (assign [] l) k = some w := by
  obtain ⟨l1, w', l2, e, h'⟩ := last_split l k v h
  exact ⟨w', by rw [e, assign_last _ _ _ _ _ h']⟩

theorem assign_nodup {K V : Type} [DecidableEq K] : ∀ (l : List (K × V)) (d : Dict K V), (Dict.keys d).Nodup → (Dict.keys (assign d l)).Nodup
  | [], _, h => h
  | (a, v) :: l, d, h => assign_nodup l (Dict.set d a v) (Dict.set_nodup h)

theorem assign_iff {K V : Type} [DecidableEq K] {l : List (K × V)} (hu : ∀ k v w, (k, v) ∈ l → (k, w) ∈ l → v = w) (k : K) (v : V) :
    Dict.get? (assign [] l) k = some v ↔ (k, v) ∈ l := by
  constructor
  · exact assign_mem
  · intro h
    obtain ⟨w, hw⟩ := assign_some h
    rw [hw, hu k w v (assign_mem hw) h]

end Verif.Names

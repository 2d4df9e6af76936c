import Verif.Lemmas.Convert

/-!
# C48, C49, C86–C88: what is written for a spec's dtype, and the labels of its dimensions
-/

namespace Verif.Convert

/-! ## C48 -/

/-- **C48** (pairs of dtypes).  Whenever a dtype is chosen at all, it is of the kind of the spec and at least as wide as
both the given one and that of the spec. -/
theorem C48_resolve {g s r : DT} {w : Bool} (h : resolve g s = .ok (r, w)) :
    r.kind = s.kind ∧ g.size ≤ r.size ∧ s.size ≤ r.size := resolve_spec h

example : resolve ⟨.int, 8⟩ ⟨.uint, 4⟩ = .ok (⟨.uint, 8⟩, true) := by decide
example : resolve ⟨.bool, 1⟩ ⟨.float, 4⟩ = .ok (⟨.float, 4⟩, true) := by decide

/-- The numpy types of up to 64 bits: what Python and numpy numbers have. -/
def Ordinary (d : DT) : Prop :=
  match d.kind with
  | .int => d.size ∈ [1, 2, 4, 8]
  | .uint => d.size ∈ [1, 2, 4, 8]
  | .float => d.size ∈ [2, 4, 8]
  | .bool => d.size = 1
  | _ => False

/-- **C48** (refusals).  For ordinary dtypes conversion is refused exactly if the spec asks for a bool and the value is
wider than one byte. -/
theorem C48_refused_iff {g s : DT} (hg : Ordinary g) (hs : Ordinary s) :
    (∃ e, resolve g s = .error e) ↔ s.kind = .bool ∧ 1 < g.size := by
  obtain ⟨gk, gn⟩ := g
  obtain ⟨sk, sn⟩ := s
  cases gk <;> cases sk <;> simp only [Ordinary, List.mem_cons, List.not_mem_nil, or_false] at hg hs
  all_goals
    first
    | exact hg.elim
    | exact hs.elim
    | (rcases hg with rfl | rfl | rfl | rfl <;> rcases hs with rfl | rfl | rfl | rfl <;>
        simp +decide [resolve, mkDT, Except.map])

example : resolve ⟨.int, 8⟩ ⟨.bool, 1⟩ = .error .valueError := by decide

mutual
/-- The dtypes of the converted pieces of a value: arrays and scalars, at any depth of nested lists.  Chunk iterators
and `DataIO` are passed on unconverted, so they do not count. -/
def leaves : Val → List DT
  | .arr d _ => [d]
  | .py d _ => [d]
  | .str _ => [strDT]
  | .bytes _ => [bytesDT]
  | .seq l => leavesL l
  | _ => []
/-- see `leaves` -/
def leavesL : List Val → List DT
  | [] => []
  | v :: l => leaves v ++ leavesL l
end

mutual
/-- The nesting of a value, lengths included. -/
def nest : Val → List Nat
  | .seq l => 2 :: nestL l ++ [3]
  | _ => [1]
/-- see `nest` -/
def nestL : List Val → List Nat
  | [] => []
  | v :: l => nest v ++ nestL l
end

/-- `r` is at least as wide as `g` and `s` and of the kind of `s`. -/
def Wide (s g r : DT) : Prop := r.kind = s.kind ∧ g.size ≤ r.size ∧ s.size ≤ r.size

theorem convertScalar_num {s g : DT} {got : DT → Option Nat} {u a : Except Err Val} {v' : Val} {r : Ret} {w : List DT}
    (h : convertScalar (.num s) g got u a = .ok (v', r, w)) :
    ∃ d x, resolve g s = .ok (d, !w.isEmpty) ∧ v' = .arr d x ∧ r = .dt d := by
  unfold convertScalar at h
  simp only at h
  split at h
  · cases h
  · rename_i d b hr
    split at h
    · rename_i x hx
      cases h
      refine ⟨d, x, ?_, rfl, rfl⟩
      rw [hr]; cases b <;> rfl
    · cases h

theorem convertArr_num {env : Env} {s g : DT} {x : Nat} {v' : Val} {r : Ret} {w : List DT}
    (h : convertArr env (.num s) g x = .ok (v', r, w)) :
    ∃ d x', resolve g s = .ok (d, !w.isEmpty) ∧ v' = .arr d x' ∧ r = .dt d ∧ (d = g → x' = x) := by
  unfold convertArr at h
  simp only at h
  split at h
  · cases h
  · rename_i d b hr
    split at h
    · rename_i hd
      cases h
      subst hd
      refine ⟨g, x, ?_, rfl, rfl, fun _ => rfl⟩
      rw [hr]; cases b <;> rfl
    · rename_i hd
      split at h
      · rename_i x' hx
        cases h
        refine ⟨d, x', ?_, rfl, rfl, fun h => absurd h.symm hd⟩
        rw [hr]; cases b <;> rfl
      · cases h

mutual
theorem convert_wide {env : Env} {s : DT} : (v : Val) → {v' : Val} → {r : Ret} → {w : List DT} →
    convert env (.num s) v = .ok (v', r, w) →
    List.Forall₂ (Wide s) (leaves v) (leaves v') ∧ nest v' = nest v
  | .missing, _, _, _, h => by cases h; exact ⟨.nil, rfl⟩
  | .ioEmpty _, _, _, _, h => by cases h; exact ⟨.nil, rfl⟩
  | .io v, _, _, _, h => by
    unfold convert at h
    split at h
    · cases h
    · cases h; exact ⟨.nil, rfl⟩
  | .arr d x, _, _, _, h => by
    unfold convert at h
    obtain ⟨d', x', h1, rfl, _⟩ := convertArr_num h
    exact ⟨.cons (resolve_spec h1) .nil, rfl⟩
  | .chunks d x, _, _, _, h => by
    unfold convert convertChunks at h
    simp only at h
    split at h
    · cases h
    · cases h; exact ⟨.nil, rfl⟩
  | .py d x, _, _, _, h => by
    unfold convert at h
    obtain ⟨d', x', h1, rfl, _⟩ := convertScalar_num h
    exact ⟨.cons (resolve_spec h1) .nil, rfl⟩
  | .str d, _, _, _, h => by
    unfold convert at h
    obtain ⟨d', x', h1, rfl, _⟩ := convertScalar_num h
    exact ⟨.cons (resolve_spec h1) .nil, rfl⟩
  | .bytes d, _, _, _, h => by
    unfold convert at h
    obtain ⟨d', x', h1, rfl, _⟩ := convertScalar_num h
    exact ⟨.cons (resolve_spec h1) .nil, rfl⟩
  | .seq l, _, _, _, h => by
    unfold convert at h
    split at h
    · cases h
    · rename_i l' r' w' hl
      cases h
      obtain ⟨h1, h2⟩ := convertL_wide l hl
      refine ⟨by simpa only [leaves] using h1, ?_⟩
      simp only [nest, h2]

theorem convertL_wide {env : Env} {s : DT} : (l : List Val) → {l' : List Val} → {r : Option Ret} → {w : List DT} →
    convertL env (.num s) l = .ok (l', r, w) →
    List.Forall₂ (Wide s) (leavesL l) (leavesL l') ∧ nestL l' = nestL l
  | [], _, _, _, h => by cases h; exact ⟨.nil, rfl⟩
  | v :: l, _, _, _, h => by
    unfold convertL at h
    split at h
    · cases h
    · rename_i v' r1 w1 hv
      split at h
      · cases h
      · rename_i l' r2 w2 hl
        cases h
        obtain ⟨h1, h2⟩ := convert_wide v hv
        obtain ⟨h3, h4⟩ := convertL_wide l hl
        refine ⟨?_, by simp only [nestL, h2, h4]⟩
        simp only [leavesL]
        exact List.rel_append h1 h3
end

/-- **C48** (nested values).  Converting keeps the nesting of lists and their lengths, and every array and scalar in
them ends up, at its place, with a dtype of the kind of the spec at least as wide as the one it had and as that of the
spec. -/
theorem C48_nested {env : Env} {name : String} {s : DT} {v v' : Val} {r : Ret} {w : List DT}
    (hn : dtypes name = some (.num s)) (h : convertSpec env (.name name) v = .ok (v', r, w)) :
    nest v' = nest v ∧ List.Forall₂ (Wide s) (leaves v) (leaves v') := by
  unfold convertSpec at h
  simp only [hn] at h
  exact (convert_wide v h).symm

/-- An environment in which every cast works and keeps the contents. -/
def env0 : Env :=
  ⟨fun _ x _ => some x, fun d x _ => some (d.size, x), fun b => some (b.map Char.ofNat), fun _ _ => some 0,
    fun _ _ => some 0⟩

/-- Decidable test on results. -/
def onOk {α : Type} (x : Except Err α) (p : α → Bool) : Bool :=
  match x with
  | .ok a => p a
  | .error _ => false

example : onOk (convertSpec env0 (.name "float32")
    (.seq [.seq [.py ⟨.float, 8⟩ 1, .py ⟨.int, 8⟩ 2], .arr ⟨.int, 2⟩ 3]))
    (fun p => decide (leaves p.1 = [⟨.float, 8⟩, ⟨.float, 8⟩, ⟨.float, 4⟩])) = true := by decide +kernel

/-- **C48** fails for the dtype reported for the whole: it is that of the last element only.  A list of a 64-bit and a
32-bit float under a `float32` spec is reported — and written — as `float32`. -/
theorem C48_reported_dtype_fails :
    ¬ ∀ (env : Env) (name : String) (s d : DT) (v v' : Val) (w : List DT), dtypes name = some (.num s) →
      convertSpec env (.name name) v = .ok (v', .dt d, w) → ∀ g ∈ leaves v, g.size ≤ d.size := by
  intro h
  have := h env0 "float32" ⟨.float, 4⟩ ⟨.float, 4⟩ (.seq [.py ⟨.float, 8⟩ 1, .arr ⟨.float, 4⟩ 2])
    (.seq [.arr ⟨.float, 8⟩ 1, .arr ⟨.float, 4⟩ 2]) [] rfl rfl ⟨.float, 8⟩ (by simp [leaves, leavesL])
  exact absurd this (by decide)

/-- The same without mixing dtypes: a trailing empty list makes the reported dtype that of the spec. -/
theorem C48_trailing_empty_fails :
    ¬ ∀ (env : Env) (name : String) (s d g : DT) (v v' : Val) (w : List DT), dtypes name = some (.num s) →
      convertSpec env (.name name) v = .ok (v', .dt d, w) → (∀ g' ∈ leaves v, g' = g) → ∀ g' ∈ leaves v,
      g'.size ≤ d.size := by
  intro h
  have := h env0 "int" ⟨.int, 4⟩ ⟨.int, 4⟩ ⟨.int, 8⟩ (.seq [.seq [.py ⟨.int, 8⟩ 1], .seq []])
    (.seq [.seq [.arr ⟨.int, 8⟩ 1], .seq []]) [] rfl rfl (by simp [leaves, leavesL]) ⟨.int, 8⟩
    (by simp [leaves, leavesL])
  exact absurd this (by decide)

mutual
/-- Every piece of the value has dtype `g`, no list in it is empty and nothing is missing. -/
def Homog (g : DT) : Val → Prop
  | .missing => False
  | .ioEmpty _ => False
  | .io v => Homog g v
  | .arr d _ => d = g
  | .chunks d _ => d = g
  | .py d _ => d = g
  | .str _ => strDT = g
  | .bytes _ => bytesDT = g
  | .seq l => l ≠ [] ∧ HomogL g l
/-- see `Homog` -/
def HomogL (g : DT) : List Val → Prop
  | [] => True
  | v :: l => Homog g v ∧ HomogL g l
end

mutual
theorem convert_homog {env : Env} {s g : DT} : (v : Val) → {v' : Val} → {r : Ret} → {w : List DT} →
    convert env (.num s) v = .ok (v', r, w) → Homog g v → ∃ d b, r = .dt d ∧ resolve g s = .ok (d, b)
  | .missing, _, _, _, _, hv => hv.elim
  | .ioEmpty _, _, _, _, _, hv => hv.elim
  | .io v, _, _, _, h, hv => by
    unfold convert at h
    split at h
    · cases h
    · rename_i v'' r' w' h'
      cases h
      exact convert_homog v h' (by simpa only [Homog] using hv)
  | .arr d x, _, _, _, h, hv => by
    unfold convert at h
    simp only [Homog] at hv
    subst hv
    obtain ⟨d', x', h1, _, rfl, _⟩ := convertArr_num h
    exact ⟨d', _, rfl, h1⟩
  | .chunks d x, _, _, _, h, hv => by
    simp only [Homog] at hv
    subst hv
    unfold convert convertChunks at h
    simp only at h
    split at h
    · cases h
    · rename_i r b hr
      cases h
      exact ⟨r, b, rfl, hr⟩
  | .py d x, _, _, _, h, hv => by
    unfold convert at h
    simp only [Homog] at hv
    subst hv
    obtain ⟨d', x', h1, _, rfl⟩ := convertScalar_num h
    exact ⟨d', _, rfl, h1⟩
  | .str d, _, _, _, h, hv => by
    unfold convert at h
    simp only [Homog] at hv
    subst hv
    obtain ⟨d', x', h1, _, rfl⟩ := convertScalar_num h
    exact ⟨d', _, rfl, h1⟩
  | .bytes d, _, _, _, h, hv => by
    unfold convert at h
    simp only [Homog] at hv
    subst hv
    obtain ⟨d', x', h1, _, rfl⟩ := convertScalar_num h
    exact ⟨d', _, rfl, h1⟩
  | .seq l, _, _, _, h, hv => by
    unfold convert at h
    simp only [Homog] at hv
    split at h
    · cases h
    · rename_i l' r' w' hl
      cases h
      rcases convertL_homog l hl hv.2 with ⟨h1, _⟩ | ⟨d, b, h1, h2⟩
      · exact absurd h1 hv.1
      · exact ⟨d, b, by rw [h1]; rfl, h2⟩

theorem convertL_homog {env : Env} {s g : DT} : (l : List Val) → {l' : List Val} → {r : Option Ret} → {w : List DT} →
    convertL env (.num s) l = .ok (l', r, w) → HomogL g l →
    (l = [] ∧ r = none) ∨ ∃ d b, r = some (.dt d) ∧ resolve g s = .ok (d, b)
  | [], _, _, _, h, _ => by cases h; exact .inl ⟨rfl, rfl⟩
  | v :: l, _, _, _, h, hv => by
    unfold convertL at h
    simp only [HomogL] at hv
    split at h
    · cases h
    · rename_i v' r1 w1 h1
      split at h
      · cases h
      · rename_i l' r2 w2 hl
        cases h
        right
        rcases convertL_homog l hl hv.2 with ⟨_, h3⟩ | ⟨d, b, h3, h4⟩
        · obtain ⟨d, b, h5, h6⟩ := convert_homog v h1 hv.1
          exact ⟨d, b, by rw [h3, h5]; rfl, h6⟩
        · exact ⟨d, b, by rw [h3]; rfl, h4⟩
end

/-- **C48** (reported dtype, partial).  If all pieces have the same dtype, no list is empty and nothing is missing — at
any depth, in arrays, scalars, chunk iterators and `DataIO` — the dtype reported is of the spec's kind and at least as
wide as the pieces and the spec.  Missing for the full claim: mixed dtypes, empty lists and `None` elements
(`C48_reported_dtype_fails`, `C48_trailing_empty_fails`). -/
theorem C48_reported_dtype_partial {env : Env} {name : String} {s g : DT} {v v' : Val} {r : Ret} {w : List DT}
    (hn : dtypes name = some (.num s)) (h : convertSpec env (.name name) v = .ok (v', r, w)) (hv : Homog g v) :
    ∃ d, r = .dt d ∧ Wide s g d := by
  unfold convertSpec at h
  simp only [hn] at h
  obtain ⟨d, b, h1, h2⟩ := convert_homog v h hv
  exact ⟨d, h1, resolve_spec h2⟩

example : Homog ⟨.int, 8⟩ (.io (.seq [.seq [.py ⟨.int, 8⟩ 1], .arr ⟨.int, 8⟩ 4])) := by
  simp [Homog, HomogL]

/-- **C48** (names).  Every numeric name of the spec language stands for an ordinary dtype, so the theorems above cover
all of them. -/
theorem C48_names {name : String} {s : DT} (h : dtypes name = some (.num s)) :
    Ordinary s ∧ s.kind ≠ .complex := by
  unfold dtypes at h
  split at h <;> first | (cases h; simp [Ordinary]) | cases h

example : dtypes "uint16" = some (.num ⟨.uint, 2⟩) := rfl

/-! ## C86: silent conversions change nothing -/

mutual
theorem convert_silent {env : Env} {s : DT} : (v : Val) → {v' : Val} → {r : Ret} →
    convert env (.num s) v = .ok (v', r, []) → leaves v' = leaves v
  | .missing, _, _, h => by cases h; rfl
  | .ioEmpty _, _, _, h => by cases h; rfl
  | .io v, _, _, h => by
    unfold convert at h
    split at h
    · cases h
    · cases h; rfl
  | .arr d x, _, _, h => by
    unfold convert at h
    obtain ⟨d', x', h1, rfl, _⟩ := convertArr_num h
    simp only [leaves, resolve_silent h1]
  | .chunks d x, _, _, h => by
    unfold convert convertChunks at h
    simp only at h
    split at h
    · cases h
    · simp only [Except.ok.injEq, Prod.mk.injEq] at h
      rw [← h.1]
  | .py d x, _, _, h => by
    unfold convert at h
    obtain ⟨d', x', h1, rfl, _⟩ := convertScalar_num h
    simp only [leaves, resolve_silent h1]
  | .str d, _, _, h => by
    unfold convert at h
    obtain ⟨d', x', h1, rfl, _⟩ := convertScalar_num h
    simp only [leaves, resolve_silent h1]
  | .bytes d, _, _, h => by
    unfold convert at h
    obtain ⟨d', x', h1, rfl, _⟩ := convertScalar_num h
    simp only [leaves, resolve_silent h1]
  | .seq l, _, _, h => by
    unfold convert at h
    split at h
    · cases h
    · rename_i l' r' w' hl
      cases h
      simp only [leaves, convertL_silent l hl]

theorem convertL_silent {env : Env} {s : DT} : (l : List Val) → {l' : List Val} → {r : Option Ret} →
    convertL env (.num s) l = .ok (l', r, []) → leavesL l' = leavesL l
  | [], _, _, h => by cases h; rfl
  | v :: l, l'', r, h => by
    unfold convertL at h
    split at h
    · cases h
    · rename_i v' r1 w1 h1
      split at h
      · cases h
      · rename_i l' r2 w2 hl
        simp only [Except.ok.injEq, Prod.mk.injEq, List.append_eq_nil_iff] at h
        obtain ⟨rfl, _, rfl, rfl⟩ := h
        simp only [leavesL, convert_silent v h1, convertL_silent l hl]
end

/-- **C86**.  If a numeric conversion gives no warning, every array and scalar has kept its dtype, at any depth. -/
theorem C86_silent_keeps_dtypes {env : Env} {name : String} {s : DT} {v v' : Val} {r : Ret}
    (hn : dtypes name = some (.num s)) (h : convertSpec env (.name name) v = .ok (v', r, [])) :
    leaves v' = leaves v := by
  unfold convertSpec at h
  simp only [hn] at h
  exact convert_silent v h

/-- **C86** (arrays).  An array converted without a warning is the array that was given. -/
theorem C86_silent_array_untouched {env : Env} {name : String} {s d : DT} {x : Nat} {v' : Val} {r : Ret}
    (hn : dtypes name = some (.num s)) (h : convertSpec env (.name name) (.arr d x) = .ok (v', r, [])) :
    v' = .arr d x ∧ r = .dt d := by
  unfold convertSpec at h
  simp only [hn] at h
  unfold convert at h
  obtain ⟨d', x', h1, rfl, rfl, h2⟩ := convertArr_num h
  have := resolve_silent h1
  subst this
  exact ⟨by rw [h2 rfl], rfl⟩

example : onOk (convertSpec env0 (.name "int") (.arr ⟨.int, 8⟩ 5))
    (fun p => p.2.2.isEmpty && decide (leaves p.1 = [⟨.int, 8⟩])) = true := by decide +kernel

/-- The integers a dtype can hold. -/
def Holds (d : DT) (n : Int) : Prop :=
  match d.kind with
  | .int => -(2 ^ (8 * d.size - 1) : Int) ≤ n ∧ n < 2 ^ (8 * d.size - 1)
  | .uint => 0 ≤ n ∧ n < 2 ^ (8 * d.size)
  | .bool => n = 0 ∨ n = 1
  | _ => False

/-- **C86** fails with a warning: the dtype chosen need not hold the values of the given one.  `int16` goes to `uint16`
and `-1` with it. -/
theorem C86_values_kept_fails :
    ¬ ∀ (g s r : DT) (w : Bool), resolve g s = .ok (r, w) → ∀ n, Holds g n → Holds r n := by
  intro h
  have := h ⟨.int, 2⟩ ⟨.uint, 2⟩ ⟨.uint, 2⟩ true (by decide) (-1) (by simp [Holds])
  simp [Holds] at this

theorem pow_mono {a b : Nat} (h : a ≤ b) : (2 ^ a : Int) ≤ 2 ^ b := by
  have : (2 : Nat) ^ a ≤ 2 ^ b := Nat.pow_le_pow_right (by decide) h
  exact_mod_cast this

/-- **C86** (values, partial).  The dtype chosen holds every integer the given one holds if the kinds agree, if the
given one is unsigned and the spec asks for a wider signed one, or if the given one is a bool (and the spec an integer
or a bool).  Missing: signed to unsigned and unsigned to signed of the same width, where values are lost. -/
theorem C86_values_kept_partial {g s r : DT} {w : Bool} (h : resolve g s = .ok (r, w)) (hg : 0 < g.size)
    (hk : g.kind = s.kind ∨ (g.kind = .uint ∧ s.kind = .int ∧ g.size < s.size) ∨
      (g.kind = .bool ∧ (s.kind = .int ∨ s.kind = .uint))) {n : Int} (hn : Holds g n) : Holds r n := by
  obtain ⟨h1, h2, h3⟩ := resolve_spec h
  obtain ⟨gk, gn⟩ := g
  obtain ⟨sk, sn⟩ := s
  obtain ⟨rk, rn⟩ := r
  simp only at h1 h2 h3 hg
  subst h1
  rcases hk with hk | ⟨hk1, hk2, hk3⟩ | ⟨hk1, hk2⟩
  · simp only at hk
    subst hk
    cases gk <;> simp only [Holds] at hn ⊢
    · have := pow_mono (a := 8 * gn - 1) (b := 8 * rn - 1) (by omega)
      omega
    · have := pow_mono (a := 8 * gn) (b := 8 * rn) (by omega)
      omega
    · exact hn
  · simp only at hk1 hk2 hk3
    subst hk1 hk2
    simp only [Holds] at hn ⊢
    have := pow_mono (a := 8 * gn) (b := 8 * rn - 1) (by omega)
    have : (0 : Int) ≤ 2 ^ (8 * rn - 1) := Int.le_of_lt (Int.pow_pos (by decide))
    omega
  · simp only at hk1 hk2
    subst hk1
    have e1 : (1 : Int) < 2 ^ (8 * rn - 1) := by
      have := pow_mono (a := 1) (b := 8 * rn - 1) (by omega)
      omega
    have e2 : (1 : Int) < 2 ^ (8 * rn) := by
      have := pow_mono (a := 1) (b := 8 * rn) (by omega)
      omega
    rcases hk2 with hk2 | hk2 <;> subst hk2 <;> simp only [Holds] at hn ⊢ <;> omega

example : resolve ⟨.uint, 2⟩ ⟨.int, 4⟩ = .ok (⟨.int, 4⟩, true) ∧ Holds ⟨.uint, 2⟩ 65535 := by
  refine ⟨by decide, ?_⟩
  simp [Holds]

/-! ## C87: text -/

/-- **C87**.  Under a text spec a `str` is written unchanged and `bytes` are decoded; under an ascii spec what is
written is ASCII. -/
theorem C87_ascii_is_ascii {env : Env} {name : String} {s : List Char} {v' : Val} {r : Ret} {w : List DT}
    (hn : dtypes name = some .ascii) (h : convertSpec env (.name name) (.str s) = .ok (v', r, w)) :
    ∃ b, v' = .bytes b ∧ r = .ascii ∧ ∀ x ∈ b, x < 128 := by
  unfold convertSpec at h
  simp only [hn] at h
  unfold convert convertScalar at h
  cases h
  refine ⟨_, rfl, rfl, ?_⟩
  have hd : ∀ n, n < 16 → hexDigit n < 128 := by
    intro n hn
    unfold hexDigit
    split <;> omega
  have hh : ∀ k n, ∀ x ∈ hex k n, x < 128 := by
    intro k
    induction k with
    | zero => intro n x hx; cases hx
    | succ k ih =>
      intro n x hx
      simp only [hex, List.mem_append, List.mem_cons, List.not_mem_nil, or_false] at hx
      rcases hx with hx | rfl
      · exact ih _ x hx
      · exact hd _ (Nat.mod_lt _ (by decide))
  induction s with
  | nil => intro x hx; cases hx
  | cons c s ih =>
    intro x hx
    simp only [asciiEnc, List.mem_append] at hx
    rcases hx with hx | hx
    · unfold asciiChar at hx
      split at hx
      · rename_i hc; simp only [List.mem_cons, List.not_mem_nil, or_false] at hx; omega
      · split at hx
        · simp only [List.mem_append, List.mem_cons, List.not_mem_nil, or_false] at hx
          rcases hx with (rfl | rfl) | hx
          · decide
          · decide
          · exact hh _ _ x hx
        · split at hx
          · simp only [List.mem_append, List.mem_cons, List.not_mem_nil, or_false] at hx
            rcases hx with (rfl | rfl) | hx
            · decide
            · decide
            · exact hh _ _ x hx
          · simp only [List.mem_append, List.mem_cons, List.not_mem_nil, or_false] at hx
            rcases hx with (rfl | rfl) | hx
            · decide
            · decide
            · exact hh _ _ x hx
    · exact ih x hx

example : asciiEnc ['a', 'é'] = [97, 92, 120, 101, 57] := by decide

/-- **C87** fails: under an ascii spec different strings are written as the same bytes, without a warning. -/
theorem C87_ascii_injective_fails :
    ¬ ∀ (env : Env) (s t : List Char) (v : Val),
      convertSpec env (.name "ascii") (.str s) = .ok (v, .ascii, []) →
      convertSpec env (.name "ascii") (.str t) = .ok (v, .ascii, []) → s = t := by
  intro h
  have := h env0 ['é'] ['\\', 'x', 'e', '9'] (.bytes [92, 120, 101, 57]) rfl rfl
  exact absurd this (by decide)

/-- **C87** (partial).  Strings of ASCII characters are written as their characters, so different ones stay different.
Missing: all other strings (`C87_ascii_injective_fails`). -/
theorem C87_ascii_faithful_partial {env : Env} {name : String} {s : List Char}
    (hn : dtypes name = some .ascii) (hs : ∀ c ∈ s, c.toNat < 128) :
    convertSpec env (.name name) (.str s) = .ok (.bytes (s.map Char.toNat), .ascii, []) := by
  unfold convertSpec
  simp only [hn]
  unfold convert convertScalar
  have : asciiEnc s = s.map Char.toNat := by
    induction s with
    | nil => rfl
    | cons c s ih =>
      simp only [asciiEnc, asciiChar, if_pos (hs c (by simp)), List.map_cons,
        ih (fun x hx => hs x (List.mem_cons_of_mem _ hx))]
      rfl
  rw [this]

example : ∀ c ∈ ['2', '0', '2', '6', '-', '1', '1'], c.toNat < 128 := by decide

/-- **C87** (numbers as text).  A Python number is refused under a text spec, also inside lists … -/
theorem C87_number_refused {env : Env} {name : String} {d : DT} {x : Nat} {l l' : List Val}
    (hn : dtypes name = some .utf8 ∨ dtypes name = some .ascii) :
    ∃ e, convertSpec env (.name name) (.seq (l ++ .py d x :: l')) = .error e := by
  have key : ∀ t, t = .utf8 ∨ t = .ascii → ∃ e, convertL env t (l ++ .py d x :: l') = .error e := by
    intro t ht
    induction l with
    | nil =>
      rcases ht with rfl | rfl <;> exact ⟨.valueError, rfl⟩
    | cons v l ih =>
      obtain ⟨e, he⟩ := ih
      simp only [List.cons_append]
      unfold convertL
      split
      · exact ⟨_, rfl⟩
      · rw [he]; exact ⟨_, rfl⟩
  unfold convertSpec
  rcases hn with hn | hn <;> simp only [hn]
  · obtain ⟨e, he⟩ := key .utf8 (.inl rfl)
    exact ⟨e, by unfold convert; rw [he]⟩
  · obtain ⟨e, he⟩ := key .ascii (.inr rfl)
    exact ⟨e, by unfold convert; rw [he]⟩

/-- … but an array of numbers is turned into text without complaint. -/
theorem C87_number_array_refused_fails :
    ¬ ∀ (env : Env) (d : DT) (x : Nat), d.kind = .int → ∃ e, convertSpec env (.name "text") (.arr d x) = .error e := by
  intro h
  obtain ⟨e, he⟩ := h env0 ⟨.int, 8⟩ 5 rfl
  cases he

/-! ## C88: specs that leave the dtype open -/

/-- **C88**.  With no dtype in the spec, or `'numeric'`, the value is written exactly as given. -/
theorem C88_open_dtype_untouched {env : Env} {sd : SpecDT} {v v' : Val} {r : Ret} {w : List DT}
    (hs : sd = .none ∨ sd = .numeric) (h : convertSpec env sd v = .ok (v', r, w)) : v' = v ∧ w = [] := by
  rcases hs with rfl | rfl <;>
  · unfold convertSpec at h
    simp only at h
    split at h
    · cases h; exact ⟨rfl, rfl⟩
    · cases h

/-- **C88** fails for lists: `'numeric'` looks at the first element only, so a list with a string in it is accepted. -/
theorem C88_numeric_refuses_fails :
    ¬ ∀ (env : Env) (v v' : Val) (r : Ret) (w : List DT), convertSpec env .numeric v = .ok (v', r, w) →
      ∀ d ∈ leaves v, d.kind = .int ∨ d.kind = .uint ∨ d.kind = .float := by
  intro h
  have := h env0 (.seq [.py ⟨.int, 8⟩ 1, .str ['a']]) _ _ _ rfl strDT (by simp [leaves, leavesL])
  exact absurd this (by decide)

mutual
/-- All pieces of `v` share the dtype `g`; lists are not empty (`Homog`), and strings count as their own dtype. -/
theorem infer_homog {b : Bool} {g : DT} : (v : Val) → Homog g v → {r : Ret} → infer b v = .ok r →
    b = true → g.kind = .int ∨ g.kind = .uint ∨ g.kind = .float
  | .missing, hv, _, _ => hv.elim
  | .ioEmpty _, hv, _, _ => hv.elim
  | .io v, hv, _, h => infer_homog v (by simpa only [Homog] using hv) (by simpa only [infer] using h)
  | .arr d x, hv, _, h => by
    simp only [Homog] at hv
    subst hv
    intro hb
    subst hb
    obtain ⟨k, n⟩ := d
    cases k <;> simp [infer, inferDT, numericOk] at h ⊢
  | .chunks d x, hv, _, h => by
    simp only [Homog] at hv
    subst hv
    intro hb
    subst hb
    obtain ⟨k, n⟩ := d
    cases k <;> simp [infer, inferDT, numericOk] at h ⊢
  | .py d x, hv, _, h => by
    simp only [Homog] at hv
    subst hv
    intro hb
    subst hb
    obtain ⟨k, n⟩ := d
    cases k <;> simp [infer, numericOk] at h ⊢
  | .str s, hv, _, h => by
    intro hb
    subst hb
    simp [infer] at h
  | .bytes s, hv, _, h => by
    intro hb
    subst hb
    simp [infer] at h
  | .seq l, hv, _, h => by
    simp only [Homog] at hv
    exact inferL_homog l hv.1 hv.2 h
theorem inferL_homog {b : Bool} {g : DT} : (l : List Val) → l ≠ [] → HomogL g l → {r : Ret} →
    infer b (.seq l) = .ok r → b = true → g.kind = .int ∨ g.kind = .uint ∨ g.kind = .float
  | [], hl, _, _, _ => absurd rfl hl
  | v :: l, _, hv, _, h => by
    simp only [HomogL] at hv
    exact infer_homog v hv.1 (by simpa only [infer] using h)
end

/-- **C88** (partial).  If all pieces have the same dtype, `'numeric'` accepts only integers, unsigned integers and
floats.  Missing: mixed lists (`C88_numeric_refuses_fails`). -/
theorem C88_numeric_refuses_partial {env : Env} {v v' : Val} {r : Ret} {w : List DT} {g : DT}
    (h : convertSpec env .numeric v = .ok (v', r, w)) (hv : Homog g v) :
    g.kind = .int ∨ g.kind = .uint ∨ g.kind = .float := by
  unfold convertSpec at h
  simp only at h
  split at h
  · rename_i r' hr
    exact infer_homog v hv hr rfl
  · cases h

example : onOk (convertSpec env0 .numeric (.seq [.py ⟨.int, 8⟩ 1])) (fun _ => true) = true := by decide +kernel

/-! ## C49 -/

/-- The data shape `d` (lengths, `none` = unknown) fits the spec shape `s` (`none` = any length). -/
def Matches (s d : List (Option Nat)) : Prop :=
  s.length = d.length ∧ ∀ j : Nat, ∀ n, s[j]? = some (some n) → d[j]? = some (some n)

/-- The number of open dimensions. -/
def open_ (s : List (Option Nat)) : Nat := s.count none

theorem shapeOk_iff {s d : List (Option Nat)} : shapeOk s d = true ↔ Matches s d := by
  unfold shapeOk Matches
  by_cases hl : s.length = d.length
  · simp only [hl, ne_eq, not_true_eq_false, if_false, true_and]
    exact dimsOk_iff hl
  · simp [hl]

theorem countNones_eq (s : List (Option Nat)) : countNones s = open_ s := by
  unfold countNones open_
  rw [List.count, List.countP_eq_length_filter]
  congr 1
  apply List.filter_congr
  intro x _
  cases x <;> rfl

/-- **C49** (alternatives).  With a label list for every alternative, labelling never raises for data that has a shape;
no labels are given exactly if no alternative fits; otherwise the labels are those of a fitting alternative with the
fewest open dimensions, the first such. -/
theorem C49_alternatives {d : List (Option Nat)} {l : List (List (Option Nat))} {dl : List (List String)}
    (hl : l ≠ []) (hd : dl.length = l.length) :
    ∃ o, labels (some d) (some (.alts l)) (some (.alts dl)) = .ok o ∧
      (o = none ↔ ∀ s ∈ l, ¬ Matches s d) ∧
      ∀ x, o = some x → ∃ k s, l[k]? = some s ∧ dl[k]? = some x ∧ Matches s d ∧
        (∀ t ∈ l, Matches t d → open_ s ≤ open_ t) ∧
        ∀ (j : Nat) t, j < k → l[j]? = some t → Matches t d → open_ s < open_ t := by
  have mem : ∀ k, k ∈ matchInds d 0 l ↔ ∃ s, l[k]? = some s ∧ Matches s d := by
    intro k
    rw [mem_matchInds]
    constructor
    · rintro ⟨j, s, h1, h2, h3⟩
      obtain rfl : k = j := by omega
      exact ⟨s, h2, shapeOk_iff.1 h3⟩
    · rintro ⟨s, h1, h2⟩
      exact ⟨k, s, by omega, h1, shapeOk_iff.2 h2⟩
  have sorted := @matchInds_sorted d l 0
  have pick : ∀ b, b ∈ matchInds d 0 l → ∃ s x, l[b]? = some s ∧ Matches s d ∧ dl[b]? = some x ∧
      dimsAt (.alts dl) b = .ok x := by
    intro b hb
    obtain ⟨s, h1, h2⟩ := (mem b).1 hb
    have hlt : b < dl.length := by
      rw [hd]
      exact (List.getElem?_eq_some_iff.1 h1).1
    refine ⟨s, dl[b], h1, h2, List.getElem?_eq_getElem hlt, ?_⟩
    simp only [dimsAt, List.getElem?_eq_getElem hlt]
  have fin : ∀ b, b ∈ matchInds d 0 l →
      (∀ i ∈ matchInds d 0 l, countNones (l[b]?.getD []) ≤ countNones (l[i]?.getD [])) →
      (∀ i ∈ matchInds d 0 l, i < b → countNones (l[b]?.getD []) < countNones (l[i]?.getD [])) →
      ∃ o, (dimsAt (.alts dl) b).map some = .ok o ∧ (o = none ↔ ∀ s ∈ l, ¬ Matches s d) ∧
      ∀ x, o = some x → ∃ k s, l[k]? = some s ∧ dl[k]? = some x ∧ Matches s d ∧
        (∀ t ∈ l, Matches t d → open_ s ≤ open_ t) ∧
        ∀ (j : Nat) t, j < k → l[j]? = some t → Matches t d → open_ s < open_ t := by
    intro b hb hmin hfirst
    obtain ⟨s, x, h1, h2, h3, h4⟩ := pick b hb
    refine ⟨some x, by rw [h4]; rfl, ?_, ?_⟩
    · constructor
      · intro h; cases h
      · intro h; exact absurd h2 (h s (List.mem_of_getElem? h1))
    · rintro x' hx
      cases hx
      refine ⟨b, s, h1, h3, h2, ?_, ?_⟩
      · intro t ht hm
        obtain ⟨i, hi⟩ := List.mem_iff_getElem?.1 ht
        have := hmin i ((mem i).2 ⟨t, hi, hm⟩)
        rw [h1, hi] at this
        simpa only [Option.getD_some, countNones_eq] using this
      · intro j t hj ht hm
        have := hfirst j ((mem j).2 ⟨t, ht, hm⟩) hj
        rw [h1, ht] at this
        simpa only [Option.getD_some, countNones_eq] using this
  obtain ⟨a, l', rfl⟩ : ∃ a l', l = a :: l' := by
    cases l with
    | nil => exact absurd rfl hl
    | cons a l' => exact ⟨a, l', rfl⟩
  unfold labels
  simp only
  split
  · rename_i hm
    refine ⟨none, rfl, ?_, by intro x hx; cases hx⟩
    refine ⟨fun _ s hs hms => ?_, fun _ => rfl⟩
    obtain ⟨i, hi⟩ := List.mem_iff_getElem?.1 hs
    have := (mem i).2 ⟨s, hi, hms⟩
    rw [hm] at this
    cases this
  · rename_i k hm
    refine fin k (by rw [hm]; simp) ?_ ?_
    · intro i hi
      rw [hm] at hi
      simp only [List.mem_cons, List.not_mem_nil, or_false] at hi
      subst hi
      exact Nat.le_refl _
    · intro i hi hlt
      rw [hm] at hi
      simp only [List.mem_cons, List.not_mem_nil, or_false] at hi
      omega
  · rename_i k ks _ hm
    obtain ⟨b, h1, h2, h3⟩ := @best_spec (fun i => countNones ((a :: l')[i]?.getD [])) k ks
    rw [h1]
    simp only [Option.getD_some]
    refine fin b (by rw [hm]; exact List.mem_of_getElem? h1) (by rw [hm]; exact h2) ?_
    intro i hi hlt
    rw [hm] at hi sorted
    obtain ⟨j, hj⟩ := List.mem_iff_getElem?.1 hi
    refine h3 j ?_ i hj
    obtain ⟨hj1, hj2⟩ := List.getElem?_eq_some_iff.1 hj
    obtain ⟨hp1, hp2⟩ := List.getElem?_eq_some_iff.1 h1
    rcases Nat.lt_trichotomy j (indexOf
      (minOf (((k :: ks).map (fun i => countNones ((a :: l')[i]?.getD []))).headD 0)
        ((k :: ks).map (fun i => countNones ((a :: l')[i]?.getD []))).tail)
      ((k :: ks).map (fun i => countNones ((a :: l')[i]?.getD [])))) with h | h | h
    · exact h
    · exfalso
      rw [← h, hj] at h1
      cases h1
      omega
    · exfalso
      have := List.pairwise_iff_getElem.1 sorted _ _ hp1 hj1 h
      rw [hp2, hj2] at this
      omega

example : labels (some [some 5, some 3]) (some (.alts [[none, none], [none, some 3], [some 5, none], [none]]))
    (some (.alts [["a", "b"], ["c", "d"], ["e", "f"], ["g"]])) = .ok (some ["c", "d"]) := by decide +kernel

/-- **C49** (one shape).  The labels of the spec are given exactly if the data fits its shape, else none. -/
theorem C49_single {d s : List (Option Nat)} {dl : List String} (hs : s ≠ []) :
    (Matches s d → labels (some d) (some (.one s)) (some (.one dl)) = .ok (some dl)) ∧
    (¬ Matches s d → labels (some d) (some (.one s)) (some (.one dl)) = .ok none) := by
  obtain ⟨a, s', rfl⟩ : ∃ a s', s = a :: s' := by
    cases s with
    | nil => exact absurd rfl hs
    | cons a l' => exact ⟨a, l', rfl⟩
  unfold labels
  simp only
  constructor
  · intro h
    rw [if_neg (by simpa using h.1.symm)]
    have := (dimsOk_iff h.1).2 h.2
    simp [this]
  · intro h
    by_cases hl : (a :: s').length = d.length
    · rw [if_neg (by simpa using hl.symm)]
      have : dimsOk (a :: s') d = false := by
        rw [Bool.eq_false_iff]
        intro h'
        exact h ⟨hl, (dimsOk_iff hl).1 h'⟩
      simp [this]
    · rw [if_pos (by simpa using fun h => hl h.symm)]

example : labels (some [some 5]) (some (.one [none])) (some (.one ["time"])) = .ok (some ["time"]) := by decide +kernel

/-- **C49** fails for data without a shape (a number or a string where the spec wants an array): instead of a warning
and no labels, TypeError. -/
theorem C49_scalar_fails :
    ¬ ∀ (data : Option (List (Option Nat))) (s : List (Option Nat)) (dl : List String), s ≠ [] →
      ∃ o, labels data (some (.one s)) (some (.one dl)) = .ok o := by
  intro h
  obtain ⟨o, ho⟩ := h none [none] ["time"] (by simp)
  cases ho

/-- **C49** (refinement).  The shape and the labels used always come from the same spec: those of the refining spec if
it gives a shape, else those of the original. -/
theorem C49_refinement (orig : DsSpec) (ext : Option DsSpec) :
    let r := checkDsetSpec orig ext
    (r.shape = orig.shape ∧ r.dims = orig.dims ∧ ∀ e, ext = some e → e.shape = none) ∨
    ∃ e, ext = some e ∧ e.shape ≠ none ∧ r.shape = e.shape ∧ r.dims = e.dims := by
  intro r
  cases ext with
  | none => exact .inl ⟨rfl, rfl, by intro e he; cases he⟩
  | some e =>
    by_cases he : e.shape.isSome
    · refine .inr ⟨e, rfl, ?_, ?_, ?_⟩
      · intro h; rw [h] at he; cases he
      · simp [r, checkDsetSpec, he]
      · simp [r, checkDsetSpec, he]
    · refine .inl ⟨?_, ?_, ?_⟩
      · simp [r, checkDsetSpec, he]
      · simp [r, checkDsetSpec, he]
      · intro e' h; cases h
        simpa using he

/-- A refinement of the shape that does not repeat the labels drops them. -/
theorem C49_refined_shape_keeps_labels_fails :
    ¬ ∀ (orig : DsSpec) (e : DsSpec), orig.dims.isSome → (checkDsetSpec orig (some e)).dims.isSome := by
  intro h
  have := h ⟨none, some (.one [none]), some (.one ["t"])⟩ ⟨none, some (.one [some 3]), none⟩ rfl
  cases this

end Verif.Convert

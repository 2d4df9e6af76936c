/-!
# Shared vocabulary

Python exceptions as values, and Python's insertion-ordered `dict` as an association list.
Nothing here models hdmf code; it models the parts of the Python language the code relies on.
-/

namespace Verif

/-- The Python exception classes raised by the modelled code. -/
inductive Err where
  | typeError | valueError | keyError | indexError | attributeError | syntaxError | runtimeError
  | unsupported | stopIteration
  deriving DecidableEq, Repr, Inhabited

deriving instance DecidableEq for Except

/-- Python `dict` with insertion order: a list of key/value pairs.  All operations below keep the keys unique if they
were unique before (`Dict.set_nodup`, `Dict.del_nodup`). -/
abbrev Dict (κ : Type u) (α : Type v) := List (κ × α)

namespace Dict

variable {κ : Type u} {α : Type v} {β : Type w}

/-- `list(d.keys())` -/
def keys (d : Dict κ α) : List κ := d.map Prod.fst

/-- `list(d.values())` -/
def values (d : Dict κ α) : List α := d.map Prod.snd

section
variable [DecidableEq κ]

/-- `d.get(k)` -/
def get? : Dict κ α → κ → Option α
  | [], _ => none
  | (k', v) :: d, k => if k' = k then some v else get? d k

/-- `k in d` -/
def has (d : Dict κ α) (k : κ) : Bool := (get? d k).isSome

/-- `d[k] = v`: in place if the key exists, else appended. -/
def set : Dict κ α → κ → α → Dict κ α
  | [], k, v => [(k, v)]
  | (k', v') :: d, k, v => if k' = k then (k', v) :: d else (k', v') :: set d k v

/-- `del d[k]` (no-op if absent; callers check presence). -/
def del (d : Dict κ α) (k : κ) : Dict κ α := d.filter (fun p => decide (p.1 ≠ k))

/-- `d.setdefault(k, v)` without the returned value. -/
def setDefault (d : Dict κ α) (k : κ) (v : α) : Dict κ α := if d.has k then d else d.set k v

theorem get?_eq_none_iff {d : Dict κ α} {k : κ} : get? d k = none ↔ k ∉ keys d := by
  induction d with
  | nil => simp [get?, keys]
  | cons p d ih =>
    obtain ⟨k', v⟩ := p
    by_cases h : k' = k
    · simp [get?, keys, h]
    · have h' : k ≠ k' := fun e => h e.symm
      simp only [get?, h, if_false, ih]; simp [keys, h']

theorem has_iff {d : Dict κ α} {k : κ} : d.has k = true ↔ k ∈ keys d := by
  unfold has
  cases h : get? d k with
  | none => have := get?_eq_none_iff.1 h; simp [this]
  | some v =>
    simp only [Option.isSome_some, true_iff]
    apply Classical.byContradiction
    intro hn
    rw [← get?_eq_none_iff, h] at hn
    exact absurd hn (by simp)

theorem has_false_iff {d : Dict κ α} {k : κ} : d.has k = false ↔ k ∉ keys d := by
  rw [← has_iff]; simp

theorem mem_of_get? {d : Dict κ α} {k : κ} {v : α} (h : get? d k = some v) : (k, v) ∈ d := by
  induction d with
  | nil => simp [get?] at h
  | cons p d ih =>
    obtain ⟨k', v'⟩ := p
    by_cases hk : k' = k
    · simp [get?, hk] at h; simp [hk, h]
    · simp [get?, hk] at h; exact List.mem_cons_of_mem _ (ih h)

omit [DecidableEq κ] in
theorem mem_keys_of_mem {d : Dict κ α} {k : κ} {v : α} (h : (k, v) ∈ d) : k ∈ keys d :=
  List.mem_map_of_mem (f := Prod.fst) h

theorem get?_of_mem {d : Dict κ α} {k : κ} {v : α} (hn : (keys d).Nodup) (h : (k, v) ∈ d) :
    get? d k = some v := by
  induction d with
  | nil => simp at h
  | cons p d ih =>
    obtain ⟨k', v'⟩ := p
    simp only [keys, List.map_cons, List.nodup_cons] at hn
    rcases List.mem_cons.1 h with h | h
    · cases h; simp [get?]
    · have : k ∈ keys d := mem_keys_of_mem h
      have hne : k' ≠ k := fun e => hn.1 (e ▸ this)
      simp [get?, hne, ih hn.2 h]

theorem get?_eq_some_iff {d : Dict κ α} {k : κ} {v : α} (hn : (keys d).Nodup) :
    get? d k = some v ↔ (k, v) ∈ d := ⟨mem_of_get?, get?_of_mem hn⟩

@[simp] theorem get?_nil {k : κ} : get? ([] : Dict κ α) k = none := rfl

@[simp] theorem get?_set_self {d : Dict κ α} {k : κ} {v : α} : get? (set d k v) k = some v := by
  induction d with
  | nil => simp [set, get?]
  | cons p d ih =>
    obtain ⟨k', v'⟩ := p
    by_cases h : k' = k <;> simp [set, get?, h, ih]

theorem get?_set_ne {d : Dict κ α} {k k' : κ} {v : α} (h : k' ≠ k) : get? (set d k v) k' = get? d k' := by
  induction d with
  | nil => simp [set, get?, Ne.symm h]
  | cons p d ih =>
    obtain ⟨k'', v'⟩ := p
    by_cases h1 : k'' = k
    · subst h1; simp [set, get?, Ne.symm h]
    · by_cases h2 : k'' = k'
      · subst h2; simp [set, get?, h1]
      · simp [set, get?, h1, h2, ih]

theorem get?_set {d : Dict κ α} {k k' : κ} {v : α} :
    get? (set d k v) k' = if k' = k then some v else get? d k' := by
  by_cases h : k' = k
  · subst h; simp
  · simp [h, get?_set_ne h]

theorem keys_set {d : Dict κ α} {k : κ} {v : α} :
    keys (set d k v) = if k ∈ keys d then keys d else keys d ++ [k] := by
  induction d with
  | nil => simp [set, keys]
  | cons p d ih =>
    obtain ⟨k', v'⟩ := p
    by_cases h : k' = k
    · simp [set, keys, h]
    · have h' : k ≠ k' := fun e => h e.symm
      simp only [set, h, if_false]
      simp only [keys, List.map_cons] at ih ⊢
      rw [ih]
      simp only [List.mem_cons, h', false_or]
      split <;> simp_all

theorem mem_keys_set {d : Dict κ α} {k k' : κ} {v : α} : k' ∈ keys (set d k v) ↔ k' = k ∨ k' ∈ keys d := by
  rw [keys_set]; split
  · constructor
    · exact Or.inr
    · rintro (rfl | h) <;> assumption
  · simp [or_comm]

theorem set_nodup {d : Dict κ α} {k : κ} {v : α} (h : (keys d).Nodup) : (keys (set d k v)).Nodup := by
  rw [keys_set]; split
  · exact h
  · rename_i hk
    rw [List.nodup_append]
    refine ⟨h, by simp, ?_⟩
    intro a ha b hb
    simp at hb; subst hb; exact fun e => hk (e ▸ ha)

theorem set_of_not_mem {d : Dict κ α} {k : κ} {v : α} (h : k ∉ keys d) : set d k v = d ++ [(k, v)] := by
  induction d with
  | nil => rfl
  | cons p d ih =>
    obtain ⟨k', v'⟩ := p
    simp only [keys, List.map_cons, List.mem_cons, not_or] at h
    have h1 : k' ≠ k := fun e => h.1 e.symm
    simp [set, h1, ih (by simpa [keys] using h.2)]

theorem set_mem {d : Dict κ α} {k : κ} {v : α} {p : κ × α} (h : p ∈ set d k v) : p = (k, v) ∨ p ∈ d := by
  induction d with
  | nil => simp [set] at h; exact Or.inl h
  | cons q d ih =>
    obtain ⟨k', v'⟩ := q
    by_cases hk : k' = k
    · simp only [set, hk, if_true, List.mem_cons] at h
      rcases h with h | h
      · exact Or.inl h
      · exact Or.inr (List.mem_cons_of_mem _ h)
    · simp only [set, hk, if_false, List.mem_cons] at h
      rcases h with h | h
      · exact Or.inr (h ▸ List.mem_cons_self)
      · rcases ih h with h | h
        · exact Or.inl h
        · exact Or.inr (List.mem_cons_of_mem _ h)

theorem mem_del {d : Dict κ α} {k : κ} {p : κ × α} : p ∈ del d k ↔ p ∈ d ∧ p.1 ≠ k := by
  simp [del, List.mem_filter]

theorem keys_del {d : Dict κ α} {k : κ} : keys (del d k) = (keys d).filter (fun x => decide (x ≠ k)) := by
  induction d with
  | nil => rfl
  | cons p d ih =>
    unfold del keys at ih ⊢
    by_cases h : p.1 = k <;> simp_all

theorem mem_keys_del {d : Dict κ α} {k k' : κ} : k' ∈ keys (del d k) ↔ k' ∈ keys d ∧ k' ≠ k := by
  rw [keys_del]; simp [List.mem_filter]

theorem del_nodup {d : Dict κ α} {k : κ} (h : (keys d).Nodup) : (keys (del d k)).Nodup := by
  rw [keys_del]; exact h.filter _

@[simp] theorem get?_del_self {d : Dict κ α} {k : κ} : get? (del d k) k = none := by
  rw [get?_eq_none_iff, mem_keys_del]; simp

theorem get?_del_ne {d : Dict κ α} {k k' : κ} (h : k' ≠ k) : get? (del d k) k' = get? d k' := by
  induction d with
  | nil => rfl
  | cons p d ih =>
    obtain ⟨k'', v⟩ := p
    by_cases h1 : k'' = k
    · subst h1
      have : del ((k'', v) :: d) k'' = del d k'' := by simp [del]
      rw [this, ih]; simp [get?, Ne.symm h]
    · have : del ((k'', v) :: d) k = (k'', v) :: del d k := by simp [del, h1]
      rw [this]; by_cases h2 : k'' = k' <;> simp [get?, h2, ih]

theorem get?_append {d e : Dict κ α} {k : κ} : get? (d ++ e) k = (get? d k).or (get? e k) := by
  induction d with
  | nil => simp
  | cons p d ih =>
    obtain ⟨k', v⟩ := p
    by_cases h : k' = k <;> simp [get?, h, ih]

end

end Dict

end Verif

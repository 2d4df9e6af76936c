import Verif.Model.StoreType

/-!
# The types in which data are stored (C253–C255)
-/

namespace Verif.StoreType
open Verif Convert

/-- `s` and `t` are names of the same dtype in the specification language. -/
def Same (s t : String) : Prop := ∃ p ∈ synonyms, s ∈ p.1 :: p.2 ∧ t ∈ p.1 :: p.2

/-- what an entry of the mapper's table is in the file -/
def tgtFlat : Tgt → Flat
  | .num d => .num d
  | .utf8 => .text
  | .ascii => .binary

/-- **C253 (synonyms).** Names of the same dtype are stored in the same type, which exists, unless one is "numeric" or "date".
Missing: `C253_names_fails`. -/
theorem C253_names_partial (s t : String) (h : Same s t) (hs : s ≠ "numeric" ∧ s ≠ "date") (ht : t ≠ "numeric" ∧ t ≠ "date")
    (x y : Data) : ∃ f, storeType (.name s) x = .ok (.flat f) ∧ storeType (.name t) y = .ok (.flat f) := by
  have key : ∀ p ∈ synonyms, ∀ s ∈ p.1 :: p.2, ∀ t ∈ p.1 :: p.2, s ≠ "numeric" ∧ s ≠ "date" → t ≠ "numeric" ∧ t ≠ "date" →
      table s = table t ∧ (table s).isSome = true := by decide +kernel
  obtain ⟨p, hp, h1, h2⟩ := h
  obtain ⟨e, h3⟩ := key p hp s h1 t h2 hs ht
  obtain ⟨f, hf⟩ := Option.isSome_iff_exists.mp h3
  refine ⟨f, ?_, ?_⟩
  · simp [storeType, resolveDtype, helper, hf]
  · simp [storeType, resolveDtype, helper, ← e, hf]

/-- non-vacuity -/
example : Same "uint" "uint32" ∧ storeType (.name "uint") .str = .ok (.flat (.num ⟨.uint, 4⟩)) :=
  ⟨⟨("uint32", ["uint32", "uint"]), by decide, by decide, by decide⟩, rfl⟩

/-- **C253 (the mapper and the file agree).** Whatever the string: if the mapper converts values to it, the backend stores it in the
type of the converted values, except for times. -/
theorem C253_agree_partial (s : String) (t : Tgt) (h : dtypes s = some t) (hs : s ≠ "isodatetime" ∧ s ≠ "datetime") (x : Data) :
    storeType (.name s) x = .ok (.flat (tgtFlat t)) := by
  have : table s = some (tgtFlat t) := by
    unfold dtypes at h
    split at h <;> first | (cases h; rfl) | skip
    · exact absurd rfl hs.1
    · exact absurd rfl hs.2
    · cases h
  simp [storeType, resolveDtype, helper, this]

/-- non-vacuity -/
example : dtypes "short" = some (.num ⟨.int, 2⟩) ∧ storeType (.name "short") .str = .ok (.flat (.num ⟨.int, 2⟩)) := ⟨rfl, rfl⟩

/-- **C253 (violated).** "date" is a name of the same dtype as "isodatetime" but has no type of its own in the file; and times, which
the mapper makes bytes, are stored as text. -/
theorem C253_names_fails :
    (¬ ∀ s t x, Same s t → storeType (.name s) x = storeType (.name t) x) ∧
    (¬ ∀ s t x, dtypes s = some t → storeType (.name s) x = .ok (.flat (tgtFlat t))) := by
  refine ⟨?_, ?_⟩
  · intro h
    have := h "isodatetime" "date" .bytes ⟨("isodatetime", ["isodatetime", "datetime", "date"]), by decide, by decide, by decide⟩
    revert this
    decide
  · intro h
    have := h "isodatetime" .ascii .bytes rfl
    revert this
    decide

/-- **C254 (fields of a compound).** Whatever the fields and the data: a field whose dtype is known to the mapper and is not a time is
stored in the same type as a dataset of that dtype, provided that the values are not wider than the dtype.  Missing: values that
are wider, and dtypes without a type in the file (`C254_fields_fails`). -/
theorem C254_fields_partial (fs : List (String × String)) (x : Data) (i : Nat) (n s : String) (hi : fs[i]? = some (n, s)) (t : Tgt)
    (ht : dtypes s = some t) (hs : s ≠ "isodatetime" ∧ s ≠ "datetime") (g : DT) (hg : ∀ d, t = .num d → g = d ∨ g.size ≤ d.size) :
    ∃ b f gs, plainBDt t g = .ok b ∧ storeType b x = .ok (.flat f) ∧ storeType (compoundBDt fs) x = .ok (.compound gs) ∧
      gs.length = fs.length ∧ gs[i]? = some (n, f) := by
  have h1 := C253_agree_partial s t ht hs x
  have h2 : table s = some (tgtFlat t) := by
    cases htb : table s with
    | none =>
      unfold dtypes at ht
      split at ht <;> first | (cases htb) | cases ht
    | some f => simp [storeType, resolveDtype, helper, htb] at h1; rw [h1]
  have hp : ∃ b, plainBDt t g = .ok b ∧ storeType b x = .ok (.flat (tgtFlat t)) := by
    cases t with
    | utf8 => exact ⟨_, rfl, rfl⟩
    | ascii => exact ⟨_, rfl, rfl⟩
    | num d =>
      have : ∃ w, resolve g d = .ok (d, w) := by
        unfold resolve
        rcases hg d rfl with rfl | hle
        · simp
        · by_cases e : g = d
          · simp [e]
          · simp [e, hle]
      obtain ⟨w, hw⟩ := this
      exact ⟨.type d, by simp [plainBDt, hw, Except.map], rfl⟩
  obtain ⟨b, hb, hb2⟩ := hp
  refine ⟨b, tgtFlat t, _, hb, hb2, rfl, by simp, ?_⟩
  simp [hi, fieldType, h2]

/-- non-vacuity -/
example : storeType (compoundBDt [("a", "int"), ("b", "text")]) .str = .ok (.compound [("a", .num ⟨.int, 4⟩), ("b", .text)]) ∧
    plainBDt (.num ⟨.int, 4⟩) ⟨.int, 2⟩ = .ok (.type ⟨.int, 4⟩) := ⟨rfl, rfl⟩

/-- **C254 (violated).** A value of 8 bytes is kept in a dataset of dtype "float" or "int" but cut to 4 bytes in a field of that
dtype; in a field of dtype "numeric" or "date" integers and texts are asked to be float64. -/
theorem C254_fields_fails :
    (plainBDt (.num ⟨.float, 4⟩) ⟨.float, 8⟩).toOption.map (storeType · .str) = some (.ok (.flat (.num ⟨.float, 8⟩))) ∧
    storeType (compoundBDt [("a", "float")]) (.seq [.seq [.other ⟨.float, 8⟩]]) = .ok (.compound [("a", .num ⟨.float, 4⟩)]) ∧
    (plainBDt (.num ⟨.int, 4⟩) ⟨.int, 8⟩).toOption.map (storeType · .str) = some (.ok (.flat (.num ⟨.int, 8⟩))) ∧
    storeType (compoundBDt [("a", "int")]) (.seq [.seq [.other ⟨.int, 8⟩]]) = .ok (.compound [("a", .num ⟨.int, 4⟩)]) ∧
    storeType (compoundBDt [("a", "numeric"), ("b", "date")]) (.seq [.seq [.other ⟨.int, 8⟩, .str]]) =
      .ok (.compound [("a", .num ⟨.float, 8⟩), ("b", .num ⟨.float, 8⟩)]) := by
  refine ⟨?_, ?_, ?_, ?_, ?_⟩ <;> rfl

/-- the things at the ends of nested lists, with the types they have by themselves; `none` for an empty list -/
inductive Leaf : Data → Option Flat → Prop
  | str : Leaf .str (some .text)
  | bytes : Leaf .bytes (some .binary)
  | container : Leaf .container (some .ref)
  | other (d : DT) : Leaf (.other d) (some (.num d))
  | emptyArray (d : DT) : Leaf (.emptyArray d) (some (.num d))
  | nil : Leaf (.seq []) none
  | seq (l : List Data) (x : Data) (f : Option Flat) : x ∈ l → Leaf x f → Leaf (.seq l) f

theorem getType_leaf : ∀ (x : Data) (f : Flat), getType x = .ok f → Leaf x (some f)
  | .str, f, h => by simp only [getType] at h; cases h; exact .str
  | .bytes, f, h => by simp only [getType] at h; cases h; exact .bytes
  | .container, f, h => by simp only [getType] at h; cases h; exact .container
  | .other d, f, h => by simp only [getType] at h; cases h; exact .other d
  | .emptyArray d, f, h => by simp only [getType] at h; cases h; exact .emptyArray d
  | .seq [], f, h => by simp only [getType] at h; cases h
  | .seq (x :: l), f, h => by
    rw [getType] at h
    exact .seq _ x _ List.mem_cons_self (getType_leaf x f h)

theorem getType_error : ∀ (x : Data) (e : Err), getType x = .error e → e = .valueError ∧ Leaf x none
  | .str, e, h => by simp only [getType] at h; cases h
  | .bytes, e, h => by simp only [getType] at h; cases h
  | .container, e, h => by simp only [getType] at h; cases h
  | .other d, e, h => by simp only [getType] at h; cases h
  | .emptyArray d, e, h => by simp only [getType] at h; cases h
  | .seq [], e, h => by simp only [getType] at h; cases h; exact ⟨rfl, .nil⟩
  | .seq (x :: l), e, h => by
    rw [getType] at h
    exact ⟨(getType_error x e h).1, .seq _ x _ List.mem_cons_self (getType_error x e h).2⟩

/-- a dtype that says nothing about the type in the file -/
def Open (b : BDt) : Prop := b = .missing ∨ ∃ s, b = .name s ∧ (∃ p ∈ synonyms, s ∈ p.1 :: p.2) ∧ (s = "numeric" ∨ s = "date")

theorem open_store {b : BDt} (h : Open b) (x : Data) : storeType b x = (getType x).map .flat := by
  rcases h with rfl | ⟨s, rfl, -, rfl | rfl⟩ <;> rfl

/-- **C255 (inferred type).** With no dtype, "numeric" or "date": nested lists of any depth without empty ones, all of whose parts have
the same type, are stored in that type.  Missing: parts of different types, and empty lists (`C255_inferred_fails`). -/
theorem C255_inferred_partial (b : BDt) (hb : Open b) (x : Data) (f : Flat) (h : ∀ g, Leaf x g → g = some f) :
    storeType b x = .ok (.flat f) := by
  rw [open_store hb]
  cases hx : getType x with
  | error e => have := h _ (getType_error x e hx).2; cases this
  | ok g => have := h _ (getType_leaf x g hx); cases this; rfl

/-- **C255 (never made up).** The inferred type is always that of some part, and it is refused only if there is an empty list. -/
theorem C255_of_a_part (b : BDt) (hb : Open b) (x : Data) :
    (∃ f, storeType b x = .ok (.flat f) ∧ Leaf x (some f)) ∨ (storeType b x = .error .valueError ∧ Leaf x none) := by
  rw [open_store hb]
  cases hx : getType x with
  | error e =>
    obtain ⟨rfl, h⟩ := getType_error x e hx
    exact .inr ⟨rfl, h⟩
  | ok g => exact .inl ⟨g, rfl, getType_leaf x g hx⟩

/-- **C255 (known type).** With any other valid dtype the type does not depend on the data, which may be empty. -/
theorem C255_known (s : String) (hv : ∃ p ∈ synonyms, s ∈ p.1 :: p.2) (hs : s ≠ "numeric" ∧ s ≠ "date") :
    ∃ f, ∀ x, storeType (.name s) x = .ok (.flat f) := by
  obtain ⟨p, hp, h⟩ := hv
  obtain ⟨f, hf, -⟩ := C253_names_partial s s ⟨p, hp, h, h⟩ hs hs .str .str
  refine ⟨f, fun x => ?_⟩
  obtain ⟨f', h1, h2⟩ := C253_names_partial s s ⟨p, hp, h, h⟩ hs hs .str x
  rw [hf] at h1
  cases h1
  exact h2

/-- non-vacuity -/
example : storeType .missing (.seq [.seq [.str, .str], .seq [.str]]) = .ok (.flat .text) ∧
    (∀ g, Leaf (.seq [.seq [.str, .str], .seq [.str]]) g → g = some .text) ∧ Open (.name "date") ∧
    storeType (.name "int8") (.seq []) = .ok (.flat (.num ⟨.int, 1⟩)) := by
  refine ⟨rfl, ?_, .inr ⟨_, rfl, ⟨("isodatetime", ["isodatetime", "datetime", "date"]), by decide, by decide⟩, .inr rfl⟩, rfl⟩
  intro g h
  cases h with
  | seq l x f hx h =>
    simp only [List.mem_cons, List.not_mem_nil, or_false] at hx
    rcases hx with rfl | rfl
    all_goals
      cases h with
      | seq l y f hy h =>
        simp only [List.mem_cons, List.not_mem_nil, or_false, or_self] at hy
        subst hy
        cases h
        rfl

/-- **C255 (violated).** An integer first makes integers of the floats that follow, and an empty list first is refused although the
type is clear. -/
theorem C255_inferred_fails :
    storeType .missing (.seq [.other ⟨.int, 8⟩, .other ⟨.float, 8⟩]) = .ok (.flat (.num ⟨.int, 8⟩)) ∧
    storeType .missing (.seq [.seq [], .seq [.other ⟨.float, 8⟩]]) = .error .valueError := ⟨rfl, rfl⟩

end Verif.StoreType

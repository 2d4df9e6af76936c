import Verif.Model.Vtypes
import Verif.Base.Tac

/-!
# Properties of the data type and shape checks of the validator
-/

namespace Verif.Vtypes
open Verif

/-- kinds of data -/
inductive Kind | int | uint | float | text | bytes | bool | object | region | date
  deriving DecidableEq

/-- the kind and the precision (bits; 0 where it means nothing) a type name stands for -/
def classes : Dict String (Kind × Nat) :=
  [("int8", (.int, 8)), ("int16", (.int, 16)), ("short", (.int, 16)), ("int32", (.int, 32)), ("int", (.int, 32)), ("int64", (.int, 64)),
   ("long", (.int, 64)), ("uint8", (.uint, 8)), ("uint16", (.uint, 16)), ("uint32", (.uint, 32)), ("uint", (.uint, 32)),
   ("uint64", (.uint, 64)), ("float", (.float, 32)), ("float32", (.float, 32)), ("double", (.float, 64)), ("float64", (.float, 64)),
   ("float16", (.float, 16)), ("float96", (.float, 96)), ("float128", (.float, 128)),
   ("text", (.text, 0)), ("utf", (.text, 0)), ("utf8", (.text, 0)), ("utf-8", (.text, 0)), ("ascii", (.bytes, 0)), ("bytes", (.bytes, 0)),
   ("bool", (.bool, 0)), ("object", (.object, 0)), ("region", (.region, 0)), ("isodatetime", (.date, 0)), ("datetime", (.date, 0)),
   ("date", (.date, 0))]

/-- type names a spec may use -/
def specNames : List String :=
  ["float", "float32", "double", "float64", "int16", "short", "int32", "int", "int64", "long", "text", "utf", "utf8", "utf-8", "ascii",
   "bytes", "bool", "int8", "uint8", "uint16", "uint32", "uint", "uint64", "object", "region", "numeric", "isodatetime", "datetime", "date"]

/-- data of type `rec` is fit for the spec type `exp`: numbers for `numeric`; else the same kind with at least the precision, or bytes
for text -/
def fits (exp rec : String) : Bool :=
  match Dict.get? classes rec with
  | none => false
  | some (k', b') =>
    if exp = "numeric" then k' = .int ∨ k' = .uint ∨ k' = .float
    else match Dict.get? classes exp with
      | none => false
      | some (k, b) => (k = k' ∧ b ≤ b') ∨ (k = .text ∧ k' = .bytes)

/-- numpy's other floating-point types -/
def otherFloats : List String := ["float16", "float96", "float128"]

theorem table_keys : Dict.keys allowable = specNames := by decide +kernel
theorem table_exact : ∀ p ∈ allowable, ∀ rec ∈ Dict.keys classes, rec ∉ otherFloats → p.2.contains rec = fits p.1 rec := by decide +kernel
theorem table_known : ∀ p ∈ allowable, ∀ rec ∈ p.2, rec ∈ Dict.keys classes ∧ rec ∉ otherFloats := by decide +kernel

theorem inAllowable_exact (exp rec : String) (h : exp ∈ specNames) (hr : rec ∉ otherFloats) : inAllowable exp rec = .ok (fits exp rec) := by
  unfold inAllowable
  rw [← table_keys] at h
  cases hg : Dict.get? allowable exp with
  | none => exact absurd h (Dict.get?_eq_none_iff.1 hg)
  | some l =>
    have hm := Dict.mem_of_get? hg
    simp only [Except.ok.injEq]
    by_cases hc : rec ∈ Dict.keys classes
    · exact table_exact _ hm rec hc hr
    · have h1 : fits exp rec = false := by simp only [fits, Dict.get?_eq_none_iff.2 hc]
      rw [h1]
      apply Bool.eq_false_iff.2
      intro hl
      exact hc (table_known _ hm rec (by simpa using hl)).1

/-- **C42 (partial).** For every type a spec may name and every type received (of any name other than numpy's half and extended
precision floats), the check accepts iff the data is a number and the spec says `numeric`, or both are of the same kind and the
data has at least the precision of the spec, or bytes are given for text, or a string in ISO format for `isodatetime`; for any
other expected name it is a KeyError. -/
theorem C42_exact_partial (exp rec : String) (iso : Bool) (hr : rec ∉ otherFloats) :
    (exp ∈ specNames → checkOne exp rec iso = .ok (fits exp rec || (exp == "isodatetime" && (rec == "utf" || rec == "ascii") && iso))) ∧
    (exp ∉ specNames → checkOne exp rec iso = .error .keyError) := by
  constructor
  · intro h
    simp only [checkOne, inAllowable_exact exp rec h hr]
  · intro h
    unfold checkOne inAllowable
    rw [← table_keys] at h
    rw [Dict.get?_eq_none_iff.2 h]

/-- non-vacuity -/
example : fits "int16" "int64" = true ∧ fits "int16" "int8" = false ∧ fits "int" "uint8" = false ∧ fits "numeric" "uint8" = true ∧
    fits "text" "ascii" = true ∧ fits "ascii" "utf" = false ∧ fits "float" "double" = true := by decide +kernel

/-- **C42 fails** for extended precision (and half precision with `numeric`): the data is rejected. -/
theorem C42_fails : fits "float" "float128" = true ∧ checkOne "float" "float128" false = .ok false ∧ fits "numeric" "float16" = true ∧
    checkOne "numeric" "float16" false = .ok false := by decide +kernel

/-- **C42 (widening).** Acceptance is reflexive (except for the abstract `numeric`) and transitive. -/
theorem C42_order (e m r : String) :
    (e ∈ specNames → e ≠ "numeric" → checkOne e e false = .ok true) ∧
    (checkOne e m false = .ok true → checkOne m r false = .ok true → checkOne e r false = .ok true) := by
  have acc : ∀ e r, checkOne e r false = .ok true ↔ e ∈ specNames ∧ r ∉ otherFloats ∧ fits e r = true := by
    intro e r
    constructor
    · intro h
      have he : e ∈ specNames := by
        by_contra hc
        unfold checkOne inAllowable at h
        rw [← table_keys] at hc
        rw [Dict.get?_eq_none_iff.2 hc] at h
        simp at h
      have hr : r ∉ otherFloats := by
        unfold checkOne inAllowable at h
        rw [← table_keys] at he
        cases hg : Dict.get? allowable e with
        | none => rw [hg] at h; simp at h
        | some l =>
          rw [hg] at h
          simp only [Bool.and_false, Bool.or_false, Except.ok.injEq] at h
          exact (table_known _ (Dict.mem_of_get? hg) r (by simpa using h)).2
      refine ⟨he, hr, ?_⟩
      rw [(C42_exact_partial e r false hr).1 he] at h
      simpa using h
    · rintro ⟨he, hr, hf⟩
      rw [(C42_exact_partial e r false hr).1 he, hf]; rfl
  constructor
  · intro h1 h2
    rw [acc]
    have : ∀ e ∈ specNames, e ≠ "numeric" → e ∉ otherFloats ∧ fits e e = true := by decide +kernel
    exact ⟨h1, this e h1 h2⟩
  · rw [acc, acc, acc]
    rintro ⟨h1, h2, h3⟩ ⟨h4, h5, h6⟩
    refine ⟨h1, h5, ?_⟩
    have hmk : ∀ m ∈ specNames, m = "numeric" ∨ m ∈ Dict.keys classes := by decide +kernel
    have key : ∀ e ∈ specNames, ∀ m ∈ specNames, fits e m = true → ∀ r ∈ Dict.keys classes, fits m r = true → fits e r = true := by
      decide +kernel
    have hr : r ∈ Dict.keys classes := by
      by_contra hc
      simp only [fits, Dict.get?_eq_none_iff.2 hc] at h6
      simp at h6
    exact key e h1 m h4 h3 r hr h6

/-- non-vacuity -/
example : checkOne "int8" "short" false = .ok true ∧ checkOne "short" "int64" false = .ok true := by decide +kernel

/-- **C80 (partial).** Two spec names for the same kind and precision accept the same data, except for the names of dates. -/
theorem C80_synonyms_partial (e1 e2 r : String) (iso : Bool) (h1 : e1 ∈ specNames) (h2 : e2 ∈ specNames) (k : Kind) (b : Nat)
    (hc1 : Dict.get? classes e1 = some (k, b)) (hc2 : Dict.get? classes e2 = some (k, b)) (hd : k ≠ .date) :
    checkOne e1 r iso = checkOne e2 r iso := by
  have hne : ∀ e : String, Dict.get? classes e = some (k, b) → (e == "isodatetime") = false := by
    intro e he
    rw [beq_eq_false_iff_ne]
    rintro rfl
    have : Dict.get? classes "isodatetime" = some (.date, 0) := by decide +kernel
    rw [this] at he
    simp only [Option.some.injEq, Prod.mk.injEq] at he
    exact hd he.1.symm
  have hl : ∀ e : String, e ∈ specNames → Dict.get? classes e = some (k, b) →
      ∀ r', inAllowable e r' = .ok (decide (r' ∉ otherFloats) && fits e r') := by
    intro e he hc r'
    by_cases hr : r' ∈ otherFloats
    · have hx : ∀ e ∈ specNames, ∀ r' ∈ otherFloats, inAllowable e r' = .ok false := by decide +kernel
      rw [hx e he r' hr]
      simp [hr]
    · rw [inAllowable_exact e r' he hr]; simp [hr]
  have hnum : ∀ e : String, Dict.get? classes e = some (k, b) → e ≠ "numeric" := by
    rintro e he rfl
    have : Dict.get? classes "numeric" = none := by decide +kernel
    rw [this] at he
    simp at he
  have hf : fits e1 r = fits e2 r := by
    unfold fits
    simp only [hc1, hc2, if_neg (hnum e1 hc1), if_neg (hnum e2 hc2)]
  unfold checkOne
  rw [hl e1 h1 hc1, hl e2 h2 hc2, hne e1 hc1, hne e2 hc2, hf]

/-- non-vacuity -/
example : Dict.get? classes "uint" = some (.uint, 32) ∧ Dict.get? classes "uint32" = some (.uint, 32) ∧ "uint" ∈ specNames ∧
    "uint32" ∈ specNames := by decide +kernel

/-- **C80 fails** for dates: a string in ISO format is accepted for `isodatetime` and rejected for its synonym `datetime`. -/
theorem C80_fails : "datetime" ∈ specNames ∧ checkOne "isodatetime" "utf" true = .ok true ∧ checkOne "datetime" "utf" true = .ok false := by
  decide +kernel

/-- field by field -/
inductive AllFit : List String → List (String × Bool) → Prop
  | nil (recs) : AllFit [] recs
  | cons {exp rec iso exps recs} : checkOne exp rec iso = .ok true → AllFit exps recs → AllFit (exp :: exps) ((rec, iso) :: recs)

/-- **C43 (partial).** For all lists of fields without `isodatetime` in the spec (of any length, all of known types), a compound value
with at least as many fields is accepted iff every field of the spec accepts the corresponding one; a shorter one is a ValueError. -/
theorem C43_compound_partial (exps : List String) (recs : List (String × Bool)) (hk : ∀ e ∈ exps, e ∈ specNames)
    (hiso : "isodatetime" ∉ exps) :
    (exps.length > recs.length → checkCompound exps recs = .error .valueError) ∧
    (exps.length ≤ recs.length → ∃ b, checkCompound exps recs = .ok b ∧ (b = true ↔ AllFit exps recs)) := by
  constructor
  · intro h; simp [checkCompound, h]
  · intro h
    unfold checkCompound
    rw [if_neg (by omega)]
    induction exps generalizing recs with
    | nil => exact ⟨true, by cases recs <;> rfl, by simp [AllFit.nil]⟩
    | cons e es ih =>
      cases recs with
      | nil => simp at h
      | cons p recs =>
        obtain ⟨rec, iso⟩ := p
        have hne : e ≠ "isodatetime" := fun hc => hiso (by simp [hc])
        obtain ⟨b, h1, h2⟩ := ih recs (fun x hx => hk x (by simp [hx])) (fun hc => hiso (by simp [hc])) (by simpa using h)
        simp only [checkFields]
        rw [if_neg hne]
        have hone : ∃ c, inAllowable e rec = .ok c ∧ checkOne e rec iso = .ok c := by
          unfold checkOne
          have he := hk e (by simp)
          rw [← table_keys] at he
          unfold inAllowable
          cases hg : Dict.get? allowable e with
          | none => exact absurd he (Dict.get?_eq_none_iff.1 hg)
          | some l => exact ⟨_, rfl, by simp [hne]⟩
        obtain ⟨c, hc1, hc2⟩ := hone
        rw [hc1]
        cases c with
        | false =>
          refine ⟨false, rfl, ?_⟩
          simp only [Bool.false_eq_true, false_iff]
          intro hA
          cases hA with
          | cons hx _ => rw [hc2] at hx; simp at hx
        | true =>
          refine ⟨b, h1, ?_⟩
          rw [h2]
          constructor
          · intro hA; exact .cons hc2 hA
          · intro hA
            cases hA with
            | cons _ hy => exact hy

/-- non-vacuity -/
example : checkCompound ["int", "text", "object"] [("int64", false), ("ascii", false), ("object", false), ("extra", false)] = .ok true ∧
    checkCompound ["int", "text", "object"] [("int64", false), ("ascii", false), ("region", false)] = .ok false := by decide +kernel

/-- **C43 fails** after a date field: the fields after it are not looked at. -/
theorem C43_date_fails : checkCompound ["isodatetime", "int"] [("utf", true), ("utf", false)] = .ok true ∧
    checkOne "int" "utf" false = .ok false := by decide +kernel

/-- one dimension fits: unlimited or equal -/
def dimFits : Option Nat → Option Nat → Bool
  | none, _ => true
  | some n, some m => n = m
  | some _, none => false

/-- the shape of a spec as a list of dimensions -/
def Exp.ofDims (l : List (Option Nat)) : Exp := .seq (l.map fun d => match d with | none => .any | some n => .num n)

/-- the shape of data -/
def Rec.ofShape : Option (List (Option Nat)) → Rec
  | Option.none => .none
  | Option.some l => .seq (l.map fun d => match d with | Option.none => .none | Option.some n => .num n)

/-- a shape fits a list of dimensions -/
def ShapeFits (dims : List (Option Nat)) (shape : Option (List (Option Nat))) : Prop :=
  ∃ l, shape = some l ∧ l.length = dims.length ∧ ∀ (k : Nat) e r, dims[k]? = some e → l[k]? = some r → dimFits e r = true

theorem checkDim (e r : Option Nat) : checkShape (match e with | none => .any | some n => .num n)
    (match r with | none => .none | some n => .num n) = .ok (dimFits e r) := by
  cases e with
  | none => cases r <;> simp [checkShape, dimFits]
  | some n => cases r <;> simp [checkShape, dimFits, beq_eq_decide]

theorem checkDims_ok (es rs : List (Option Nat)) (h : rs.length = es.length) :
    ∃ b, checkDims (es.map fun d => match d with | none => .any | some n => .num n)
      (rs.map fun d => match d with | none => .none | some n => .num n) = .ok b ∧
      (b = true ↔ ∀ (k : Nat) e r, es[k]? = some e → rs[k]? = some r → dimFits e r = true) := by
  induction es generalizing rs with
  | nil => exact ⟨true, by simp [checkDims], by simp⟩
  | cons e es ih =>
    cases rs with
    | nil => simp at h
    | cons r rs =>
      obtain ⟨b, h1, h2⟩ := ih rs (by simpa using h)
      simp only [List.map_cons, checkDims, checkDim]
      cases hd : dimFits e r with
      | false =>
        refine ⟨false, rfl, ?_⟩
        simp only [Bool.false_eq_true, false_iff]
        intro hA
        have := hA 0 e r rfl rfl
        rw [hd] at this; simp at this
      | true =>
        refine ⟨b, h1, ?_⟩
        rw [h2]
        constructor
        · intro hA k e' r' he hr
          cases k with
          | zero => simp at he hr; rw [← he, ← hr]; exact hd
          | succ k => simp at he hr; exact hA k e' r' he hr
        · intro hA k e' r' he hr
          exact hA (k + 1) e' r' (by simpa using he) (by simpa using hr)

theorem checkShape_dims (dims : List (Option Nat)) (hne : dims ≠ []) (shape : Option (List (Option Nat))) :
    ∃ b, checkShape (.ofDims dims) (.ofShape shape) = .ok b ∧ (b = true ↔ ShapeFits dims shape) := by
  cases dims with
  | nil => exact absurd rfl hne
  | cons d ds =>
    cases shape with
    | none =>
      refine ⟨false, ?_, by simp [ShapeFits]⟩
      simp only [Exp.ofDims, Rec.ofShape, List.map_cons]
      cases d <;> simp [checkShape]
    | some l =>
      by_cases hl : l.length = (d :: ds).length
      · obtain ⟨b, h1, h2⟩ := checkDims_ok (d :: ds) l hl
        refine ⟨b, ?_, ?_⟩
        · rw [← h1]
          simp only [Exp.ofDims, Rec.ofShape, List.map_cons]
          cases d <;> simp only [checkShape] <;> rw [if_pos (by simpa using hl.symm)]
        · rw [h2]
          constructor
          · intro h; exact ⟨l, rfl, hl, h⟩
          · rintro ⟨l', e, -, h⟩
            simp only [Option.some.injEq] at e
            subst e; exact h
      · refine ⟨false, ?_, ?_⟩
        · simp only [Exp.ofDims, Rec.ofShape, List.map_cons]
          cases d <;> simp only [checkShape] <;> rw [if_neg (by simpa using fun h => hl h.symm)]
        · simp only [Bool.false_eq_true, false_iff]
          rintro ⟨l', e, h, -⟩
          simp only [Option.some.injEq] at e
          subst e; exact hl h

/-- **C44 (no shape).** A spec without a shape accepts any data. -/
theorem C44_any (shape : Option (List (Option Nat))) : checkShape .any (.ofShape shape) = .ok true := by
  simp [checkShape]

/-- **C44 (one shape, partial).** For a non-empty list of dimensions, a shape is accepted iff it has as many dimensions and each is
unlimited in the spec or equal.  (An empty list raises: `C44_fails`.) -/
theorem C44_shape_partial (dims : List (Option Nat)) (hne : dims ≠ []) (shape : Option (List (Option Nat))) :
    ∃ b, checkShape (.ofDims dims) (.ofShape shape) = .ok b ∧ (b = true ↔ ShapeFits dims shape) := checkShape_dims dims hne shape

/-- **C44 (alternatives, partial).** For a non-empty list of alternatives, each a non-empty list of dimensions, a shape is accepted
iff it fits one of them. -/
theorem C44_alternatives_partial (alts : List (List (Option Nat))) (hne : alts ≠ []) (hne' : ∀ a ∈ alts, a ≠ [])
    (shape : Option (List (Option Nat))) :
    ∃ b, checkShape (.seq (alts.map Exp.ofDims)) (.ofShape shape) = .ok b ∧ (b = true ↔ ∃ a ∈ alts, ShapeFits a shape) := by
  have key : ∀ alts : List (List (Option Nat)), (∀ a ∈ alts, a ≠ []) →
      ∃ b, checkAlts (alts.map Exp.ofDims) (.ofShape shape) = .ok b ∧ (b = true ↔ ∃ a ∈ alts, ShapeFits a shape) := by
    intro alts
    induction alts with
    | nil => intro _; exact ⟨false, by simp [checkAlts], by simp⟩
    | cons a as ih =>
      intro h
      obtain ⟨b, h1, h2⟩ := ih (fun x hx => h x (by simp [hx]))
      obtain ⟨c, h3, h4⟩ := checkShape_dims a (h a (by simp)) shape
      simp only [List.map_cons, checkAlts, h3]
      cases c with
      | true => exact ⟨true, rfl, by simp [h4.1 rfl]⟩
      | false =>
        refine ⟨b, h1, ?_⟩
        rw [h2]
        have : ¬ ShapeFits a shape := fun h => by simpa using h4.2 h
        simp [this]
  obtain ⟨b, h1, h2⟩ := key alts hne'
  refine ⟨b, ?_, h2⟩
  cases alts with
  | nil => exact absurd rfl hne
  | cons a as =>
    rw [← h1]
    simp only [List.map_cons, Exp.ofDims, checkShape]

/-- non-vacuity: shape `[[3], [null, 2]]` with data of shapes 5x2 and 5 -/
example : checkShape (.seq [.seq [.num 3], .seq [.any, .num 2]]) (.seq [.num 5, .num 2]) = .ok true ∧
    checkShape (.seq [.seq [.num 3], .seq [.any, .num 2]]) (.seq [.num 5]) = .ok false := by
  simp [checkShape, checkAlts, checkDims]

/-- **C44 fails** for an empty list of dimensions (a scalar): IndexError. -/
theorem C44_fails : checkShape (.seq []) (.seq []) = .error .indexError ∧ checkShape (.seq []) .none = .error .indexError := by
  simp [checkShape]

end Verif.Vtypes

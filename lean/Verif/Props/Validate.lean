import Verif.Model.Validate
import Verif.Props.Vtypes
import Verif.Props.Vmatch
import Mathlib.Logic.Relation

/-!
# Properties of the recursive validation of builders
-/

namespace Verif.Validate
open Verif Verif.Vtypes Verif.Vmatch

/-! ## What it means for a builder to conform to a spec -/

/-- a name of a type (with the format of the string) is fit for the dtype `d` of a spec -/
def Accepts1 (d : String) (r : String × Bool) : Prop :=
  d ∈ specNames ∧ ((r.1 ∉ otherFloats ∧ fits d r.1 = true) ∨ (d = "isodatetime" ∧ (r.1 = "utf" ∨ r.1 = "ascii") ∧ r.2 = true))

/-- the fields of a compound dtype up to and including the first date are fit -/
def FieldsFit (es : List String) (l : List (String × Bool)) : Prop :=
  es.length ≤ l.length ∧ ∀ (k : Nat) e r, es[k]? = some e → l[k]? = some r → (∀ j < k, es[j]? ≠ some "isodatetime") → Accepts1 e r

/-- the type of data is fit for the dtype of a spec -/
def Accepts : DDtype → Recv → Prop
  | .any, _ => True
  | .simple d, .name s iso => Accepts1 d (s, iso)
  | .simple d, .dtype s => Accepts1 d (s, false)
  | .simple _, .fields _ => False
  | .ref rt, .name s _ => Accepts1 rt (s, false)
  | .ref rt, .dtype s => Accepts1 rt (s, false)
  | .ref _, .fields _ => False
  | .compound es, .fields l => FieldsFit es l
  | .compound es, .name _ _ => es = []
  | .compound es, .dtype _ => es = []

/-- data has a type: that of its first element, or the one it declares -/
inductive HasType : Val → Recv → Prop
  | atom (a : Atom) : HasType (.atom a) (.name a.type.1 a.type.2)
  | list {v : Val} {l : List Val} {r : Recv} : HasType v r → HasType (.list (v :: l)) r
  | nd {dims : List Nat} {a : Atom} : dims ≠ [] → 0 ∉ dims → HasType (.nd dims a) (.name a.type.1 a.type.2)
  | dset (ms : List (Option Nat)) (d : String) : HasType (.dset ms d) (.dtype d)
  | vstrNone (ms : List (Option Nat)) : HasType (.vstr ms none) (.name "utf" false)
  | vstrSome (ms : List (Option Nat)) (a : Atom) : HasType (.vstr ms (some a)) (.name a.type.1 a.type.2)
  | resolver (ms : List (Option Nat)) (d : String) : HasType (.resolver ms d) (.name d false)
  | compound {rows : Option Nat} {fs : List Atom} : rows ≠ some 0 → HasType (.compound rows fs) (.fields (fs.map Atom.type))

/-- data without a first element -/
inductive Hollow : Val → Prop
  | nil : Hollow (.list [])
  | list {v : Val} {l : List Val} : Hollow v → Hollow (.list (v :: l))
  | nd {dims : List Nat} {a : Atom} : 0 ∈ dims → Hollow (.nd dims a)

/-- the data is of the dtype of the spec, as far as its first element tells -/
def DtypeOk (d : DDtype) (v : Val) : Prop := d = .any ∨ Hollow v ∨ ∃ r, HasType v r ∧ Accepts d r

/-- the shape of the data is (one of) that of the spec -/
def ShapeOk : SShape → Option (List (Option Nat)) → Prop
  | .any, _ => True
  | .dims l, sh => ShapeFits l sh
  | .alts ls, sh => ∃ l ∈ ls, ShapeFits l sh

/-- the dimensions of an element of a list: those of its first elements, as far as there are any; strings and numbers have none, a
reference counts as a dict -/
inductive ElemDims : Val → List Nat → Prop
  | str (iso : Bool) : ElemDims (.atom (.str iso)) []
  | bytes (iso : Bool) : ElemDims (.atom (.bytes iso)) []
  | num (t : String) : ElemDims (.atom (.num t)) []
  | object (n : Nat) : ElemDims (.atom (.object n)) [1]
  | region (n : Nat) : ElemDims (.atom (.region n)) [2]
  | nil : ElemDims (.list []) [0]
  | cons {v : Val} {l : List Val} {ds : List Nat} : ElemDims v ds → ElemDims (.list (v :: l)) ((l.length + 1) :: ds)
  | nd {dims : List Nat} (a : Atom) : 0 ∉ dims → ElemDims (.nd dims a) dims
  | ndEmpty {pre post : List Nat} (a : Atom) : 0 ∉ pre → ElemDims (.nd (pre ++ 0 :: post) a) (pre ++ [0])
  | builder (n : Nat) : ElemDims (.builder n) []
  | dset (ms : List (Option Nat)) (d : String) : ElemDims (.dset ms d) []
  | vstr (ms : List (Option Nat)) (a : Option Atom) : ElemDims (.vstr ms a) []
  | resolver (ms : List (Option Nat)) (d : String) : ElemDims (.resolver ms d) []
  | compound (rows : Option Nat) (fs : List Atom) : ElemDims (.compound rows fs) []

/-- data has a shape, or none if it is a scalar or a builder -/
inductive HasShape : Val → Option (List (Option Nat)) → Prop
  | atom (a : Atom) : HasShape (.atom a) none
  | builder (n : Nat) : HasShape (.builder n) none
  | list {l : List Val} {ds : List Nat} : ElemDims (.list l) ds → HasShape (.list l) (some (ds.map some))
  | nd (dims : List Nat) (a : Atom) : HasShape (.nd dims a) (some (dims.map some))
  | dset (ms : List (Option Nat)) (d : String) : HasShape (.dset ms d) (some ms)
  | vstr (ms : List (Option Nat)) (a : Option Atom) : HasShape (.vstr ms a) (some ms)
  | resolver (ms : List (Option Nat)) (d : String) : HasShape (.resolver ms d) (some ms)
  | table (n : Nat) (fs : List Atom) : HasShape (.compound (some n) fs) (some [some n])
  | row (fs : List Atom) : HasShape (.compound none fs) (some [])

/-- the shape of the data is that of the spec -/
def Shaped (s : SShape) (v : Val) : Prop := ∃ sh, HasShape v sh ∧ ShapeOk s sh

/-- the value of an attribute is of the dtype and shape of its spec; a reference is to a builder of a type below the target type -/
def ValueOk (env : Env) (h : Heap) (a : AttrSpec) (v : Val) : Prop :=
  (match a.dtype with
    | .missing => False
    | .simple d => Hollow v ∨ ∃ r, HasType v r ∧ Accepts (.simple d) r
    | .ref _ target => Hollow v ∨ ∃ m t, v = .builder m ∧ (env.spec target).isSome ∧ (h m).type = some t ∧ target ∈ env.hierarchy t) ∧
  Shaped a.shape v

/-- the attributes of the spec are there if required, and right if they are there -/
def AttrsOk (env : Env) (h : Heap) (s : Spec) (n : Nat) : Prop :=
  ∀ a ∈ s.attrs, (a.required = true → (Dict.get? (h n).attrs a.name).isSome) ∧
    ∀ v, Dict.get? (h n).attrs a.name = some v → ValueOk env h a v

/-- a child of a builder: the type of a link is that of its target -/
def IsChild (h : Heap) (n : Nat) (c : Child) : Prop :=
  (c.name, c.ref, c.link) ∈ (h n).children ∧ c.type = (h c.ref).type

/-- the children are distributed over the sub-specs: each to one it fits in name and type, none left out that fits one, as many as
allowed -/
def Distributed (env : Env) (h : Heap) (s : Spec) (n : Nat) (ms : List (Spec × List Child)) : Prop :=
  ms.map Prod.fst = s.subs ∧
  (∃ un, ((un ++ ms.flatMap Prod.snd).map fun c => (c.name, c.ref, c.link)).Perm (h n).children ∧
    (∀ c ∈ un ++ ms.flatMap Prod.snd, c.type = (h c.ref).type) ∧ ∀ c ∈ un, ∀ s' ∈ s.subs, ¬ Fits env.valid s'.sub c) ∧
  (∀ m ∈ ms, ∀ c ∈ m.2, Fits env.valid m.1.sub c) ∧
  ∀ m ∈ ms, Allowed m.1.quantity m.2.length

/-- a builder conforms to a spec: its attributes are right; a dataset is of the right dtype and shape; the children of a group are
distributed over the sub-specs, links only where allowed, and each child conforms to the spec of its own type, to the spec of the type
of the sub-spec and (unless this is a link) to the sub-spec itself -/
inductive Conforms (env : Env) (h : Heap) : Spec → Nat → Prop
  | dataset {s : Spec} {n : Nat} : s.kind = .dataset → (h n).isGroup = false → AttrsOk env h s n →
      DtypeOk s.dtype (h n).data → Shaped s.shape (h n).data → Conforms env h s n
  | group {s : Spec} {n : Nat} (ms : List (Spec × List Child)) : s.kind = .group → (h n).isGroup = true → AttrsOk env h s n →
      Distributed env h s n ms →
      (∀ m ∈ ms, ∀ c ∈ m.2, c.link = true → m.1.kind = .link ∨ m.1.linkable = true) →
      (∀ m ∈ ms, ∀ c ∈ m.2, ∀ t, c.type = some t ∨ m.1.type = some t → (env.spec t).isSome) →
      (∀ m ∈ ms, ∀ c ∈ m.2, ∀ t s', c.type = some t ∨ m.1.type = some t → env.spec t = some s' → Conforms env h s' c.ref) →
      (∀ m ∈ ms, ∀ c ∈ m.2, m.1.kind ≠ .link → Conforms env h m.1 c.ref) → Conforms env h s n

/-! ## The checks of types and shapes -/

theorem checkOne_true {d : String} {r : String × Bool} : checkOne d r.1 r.2 = .ok true ↔ Accepts1 d r := by
  obtain ⟨s, iso⟩ := r
  unfold Accepts1
  by_cases hd : d ∈ specNames
  · by_cases hs : s ∈ otherFloats
    · have hx : ∀ e ∈ specNames, ∀ r' ∈ otherFloats, inAllowable e r' = .ok false ∧ r' ≠ "utf" ∧ r' ≠ "ascii" := by decide +kernel
      obtain ⟨h1, h2, h3⟩ := hx d hd s hs
      simp [checkOne, h1, hs, h2, h3]
    · simp only [(C42_exact_partial d s iso hs).1 hd, hd, hs]
      simp [and_assoc]
  · have : ∀ r iso, checkOne d r iso = .error .keyError := by
      intro r iso
      unfold checkOne inAllowable
      rw [← table_keys] at hd
      rw [Dict.get?_eq_none_iff.2 hd]
    simp [this, hd]

theorem checkFields_true {es : List String} {l : List (String × Bool)} (hl : es.length ≤ l.length) :
    checkFields es l = .ok true ↔ ∀ (k : Nat) e r, es[k]? = some e → l[k]? = some r → (∀ j < k, es[j]? ≠ some "isodatetime") →
      Accepts1 e r := by
  induction es generalizing l with
  | nil => cases l <;> simp [checkFields]
  | cons e es ih =>
    cases l with
    | nil => simp at hl
    | cons p l =>
      obtain ⟨r, iso⟩ := p
      simp only [checkFields]
      by_cases he : e = "isodatetime"
      · rw [if_pos he, checkOne_true (r := (r, iso))]
        constructor
        · intro h k e' r' hk hr hj
          cases k with
          | zero => simp at hk hr; rw [← hk, ← hr]; exact h
          | succ k => exact absurd (by rw [he]; rfl) (hj 0 (by omega))
        · intro h; exact h 0 e (r, iso) rfl rfl (by intro j hj; omega)
      · rw [if_neg he]
        have h1 : checkOne e r iso = inAllowable e r := by
          unfold checkOne
          have : (e == "isodatetime") = false := by simpa using he
          cases inAllowable e r <;> simp [this]
        rw [← h1]
        have h2 := checkOne_true (d := e) (r := (r, iso))
        simp only at h2
        have hcons : (∀ (k : Nat) e' r', (e :: es)[k]? = some e' → ((r, iso) :: l)[k]? = some r' →
            (∀ j < k, (e :: es)[j]? ≠ some "isodatetime") → Accepts1 e' r') ↔ Accepts1 e (r, iso) ∧ (∀ (k : Nat) e' r', es[k]? = some e' →
              l[k]? = some r' → (∀ j < k, es[j]? ≠ some "isodatetime") → Accepts1 e' r') := by
          constructor
          · intro h
            refine ⟨h 0 _ _ rfl rfl (by intro j hj; omega), fun k e' r' hk hr hj => h (k + 1) e' r' (by simpa using hk) (by simpa using hr) ?_⟩
            intro j hjk
            cases j with
            | zero => simpa using he
            | succ j => simpa using hj j (by omega)
          · rintro ⟨ha, hb⟩ k e' r' hk hr hj
            cases k with
            | zero => simp at hk hr; rw [← hk, ← hr]; exact ha
            | succ k =>
              refine hb k e' r' (by simpa using hk) (by simpa using hr) ?_
              intro j hjk
              have := hj (j + 1) (by omega)
              simpa using this
        rw [hcons, ← h2, ← ih (by simpa using hl)]
        cases checkOne e r iso with
        | error x => simp
        | ok b => cases b <;> simp

theorem checkType_true {d : DDtype} {r : Recv} : checkType d r = .ok true ↔ Accepts d r := by
  cases d with
  | any => simp [checkType, Accepts]
  | simple d =>
    cases r with
    | name s iso => exact checkOne_true (r := (s, iso))
    | dtype s => exact checkOne_true (r := (s, false))
    | fields l =>
      simp only [checkType, Accepts, iff_false]
      cases Dict.get? allowable d with
      | none => simp
      | some x => simp only; split <;> simp
  | ref rt =>
    cases r with
    | name s iso => exact checkOne_true (r := (s, false))
    | dtype s => exact checkOne_true (r := (s, false))
    | fields l =>
      simp only [checkType, Accepts, iff_false]
      cases Dict.get? allowable rt <;> simp
  | compound es =>
    cases r with
    | name s iso =>
      simp only [checkType, Accepts]
      cases es with
      | nil => simp
      | cons e es =>
        simp only [reduceCtorEq, iff_false]
        split
        · simp
        · split
          · simp
          · cases Dict.get? allowable e <;> simp
    | dtype s => simp only [checkType, Accepts]; split <;> simp [*]
    | fields l =>
      simp only [checkType, Accepts, checkCompound, FieldsFit]
      by_cases h : es.length > l.length
      · rw [if_pos h]; simp; intro h'; omega
      · rw [if_neg h, checkFields_true (by omega)]
        exact ⟨fun h' => ⟨by omega, h'⟩, fun h' => h'.2⟩

theorem getType_some {v : Val} {r : Recv} : getType v = .ok (some r) ↔ HasType v r := by
  constructor
  · intro h
    induction v using Val.rec (motive_2 := fun l => ∀ r, firstType l = .ok (some r) → HasType (.list l) r) generalizing r with
    | atom a => simp only [getType, Except.ok.injEq, Option.some.injEq] at h; subst h; exact .atom a
    | builder n => simp [getType] at h
    | list l ih => exact ih r (by simpa [getType] using h)
    | nd dims a =>
      simp only [getType] at h
      split at h
      · simp at h
      · split at h
        · simp at h
        · simp only [Except.ok.injEq, Option.some.injEq] at h; subst h; exact .nd ‹_› ‹_›
    | dset ms d => simp only [getType, Except.ok.injEq, Option.some.injEq] at h; subst h; exact .dset ms d
    | vstr ms a =>
      cases a with
      | none => simp only [getType, Except.ok.injEq, Option.some.injEq] at h; subst h; exact .vstrNone ms
      | some a => simp only [getType, Except.ok.injEq, Option.some.injEq] at h; subst h; exact .vstrSome ms a
    | resolver ms d => simp only [getType, Except.ok.injEq, Option.some.injEq] at h; subst h; exact .resolver ms d
    | compound rows fs =>
      match rows with
      | some 0 => simp [getType] at h
      | none => simp only [getType, Except.ok.injEq, Option.some.injEq] at h; subst h; exact .compound (by simp)
      | some (k + 1) => simp only [getType, Except.ok.injEq, Option.some.injEq] at h; subst h; exact .compound (by simp)
    | nil => rename_i r h; simp [firstType] at h
    | cons v l ih _ => rename_i r h; exact .list (ih (by simpa [firstType] using h))
  · intro h
    induction h with
    | atom a => simp [getType, Atom.recv]
    | list _ ih => simpa [getType, firstType] using ih
    | nd h0 h1 => simp [getType, h0, h1, Atom.recv]
    | dset ms d => simp [getType]
    | vstrNone ms => simp [getType]
    | vstrSome ms a => simp [getType, Atom.recv]
    | resolver ms d => simp [getType]
    | compound h =>
      rename_i rows fs
      match rows with
      | some 0 => exact absurd rfl h
      | none => simp [getType]
      | some (k + 1) => simp [getType]

theorem getType_none {v : Val} : getType v = .ok none ↔ Hollow v := by
  constructor
  · intro h
    induction v using Val.rec (motive_2 := fun l => firstType l = .ok none → Hollow (.list l)) with
    | atom a => simp [getType] at h
    | builder n => simp [getType] at h
    | list l ih => exact ih (by simpa [getType] using h)
    | nd dims a =>
      simp only [getType] at h
      split at h
      · simp at h
      · split at h
        · exact .nd ‹_›
        · simp at h
    | dset ms d => simp [getType] at h
    | vstr ms a => cases a <;> simp [getType] at h
    | resolver ms d => simp [getType] at h
    | compound rows fs =>
      match rows with
      | some 0 => simp [getType] at h
      | none => simp [getType] at h
      | some (k + 1) => simp [getType] at h
    | nil => exact .nil
    | cons v l ih _ => rename_i h; exact .list (ih (by simpa [firstType] using h))
  · intro h
    induction h with
    | nil => simp [getType, firstType]
    | list _ ih => simpa [getType, firstType] using ih
    | nd h => rename_i dims a; simp [getType, h]; rintro rfl; simp at h

theorem mem_children {h : Heap} {n : Nat} {c : Child} : c ∈ children h n ↔ IsChild h n c := by
  simp only [children, List.mem_map, IsChild]
  constructor
  · rintro ⟨x, hx, rfl⟩; exact ⟨hx, rfl⟩
  · rintro ⟨h1, h2⟩
    refine ⟨_, h1, ?_⟩
    rw [← h2]

theorem children_triples (h : Heap) (n : Nat) : (children h n).map (fun c => (c.name, c.ref, c.link)) = (h n).children := by
  simp only [children, List.map_map]
  conv => rhs; rw [← List.map_id (h n).children]
  rfl

theorem perm_children {h : Heap} {n : Nat} {l : List Child} :
    l.Perm (children h n) ↔ (l.map fun c => (c.name, c.ref, c.link)).Perm (h n).children ∧ ∀ c ∈ l, c.type = (h c.ref).type := by
  constructor
  · intro hp
    refine ⟨?_, fun c hc => (mem_children.1 (hp.subset hc)).2⟩
    rw [← children_triples]
    exact hp.map _
  · rintro ⟨h1, h2⟩
    have : l = (l.map fun c => (c.name, c.ref, c.link)).map fun c => ⟨c.1, (h c.2.1).type, c.2.1, c.2.2⟩ := by
      rw [List.map_map]
      conv => lhs; rw [← List.map_id l]
      apply List.map_congr_left
      intro c hc
      simp only [id, Function.comp, ← h2 c hc]
    rw [this]
    exact h1.map _

theorem upToZero_eq {dims : List Nat} (h : 0 ∉ dims) : upToZero dims = dims := by
  induction dims with
  | nil => rfl
  | cons d ds ih =>
    cases d with
    | zero => simp at h
    | succ d => simp only [upToZero]; rw [ih (by simp at h; exact h)]

theorem upToZero_zero {pre : List Nat} (post : List Nat) (h : 0 ∉ pre) : upToZero (pre ++ 0 :: post) = pre ++ [0] := by
  induction pre with
  | nil => rfl
  | cons d ds ih =>
    cases d with
    | zero => simp at h
    | succ d => simp only [List.cons_append, upToZero]; rw [ih (by simp at h; exact h)]

theorem split_zero {dims : List Nat} (h : 0 ∈ dims) : ∃ pre post, dims = pre ++ 0 :: post ∧ 0 ∉ pre := by
  induction dims with
  | nil => simp at h
  | cons d ds ih =>
    cases d with
    | zero => exact ⟨[], ds, rfl, by simp⟩
    | succ d =>
      obtain ⟨pre, post, rfl, hp⟩ := ih (by simpa using h)
      exact ⟨(d + 1) :: pre, post, rfl, by simp [hp]⟩

theorem elemDims_iff {v : Val} {ds : List Nat} : ElemDims v ds ↔ elemShape v = ds := by
  constructor
  · intro h
    induction h with
    | cons _ ih => simp [elemShape, firstShape, ih]
    | nil => simp [elemShape, firstShape]
    | nd a h => simp only [elemShape]; exact upToZero_eq h
    | ndEmpty a h => simp only [elemShape]; exact upToZero_zero _ h
    | _ => simp [elemShape]
  · rintro rfl
    induction v using Val.rec (motive_2 := fun l => ElemDims (.list l) (l.length :: firstShape l)) with
    | atom a => cases a <;> simp only [elemShape] <;> constructor
    | builder n => simp only [elemShape]; constructor
    | list l ih => simpa only [elemShape] using ih
    | nd dims a =>
      simp only [elemShape]
      by_cases h0 : 0 ∈ dims
      · obtain ⟨pre, post, rfl, hp⟩ := split_zero h0
        rw [upToZero_zero post hp]
        exact .ndEmpty a hp
      · rw [upToZero_eq h0]; exact .nd a h0
    | dset ms d => simp only [elemShape]; constructor
    | vstr ms a => simp only [elemShape]; constructor
    | resolver ms d => simp only [elemShape]; constructor
    | compound rows fs => simp only [elemShape]; constructor
    | nil => simp only [List.length_nil, firstShape]; exact .nil
    | cons v l ih _ => simp only [List.length_cons, firstShape]; exact .cons ih

theorem hasShape_iff {v : Val} {sh : Option (List (Option Nat))} : HasShape v sh ↔ shapeOf v = sh := by
  constructor
  · intro h
    cases h with
    | list h => rename_i l ds; have := elemDims_iff.1 h; simp only [elemShape] at this; simp only [shapeOf, this]
    | _ => rfl
  · rintro rfl
    cases v with
    | list l => exact .list (elemDims_iff.2 (by simp only [elemShape]))
    | compound rows fs => cases rows <;> constructor
    | _ => constructor

theorem shaped_iff {s : SShape} {v : Val} : Shaped s v ↔ ShapeOk s (shapeOf v) := by
  simp [Shaped, hasShape_iff]

/-! ## The errors of a single builder -/

theorem shape_exp_dims (l : List (Option Nat)) : (SShape.dims l).exp = .ofDims l := by
  simp only [SShape.exp, Exp.ofDims]
  congr 1

theorem shapeRec_eq (o : Option (List (Option Nat))) : shapeRec o = .ofShape o := by
  cases o with
  | none => rfl
  | some l =>
    simp only [shapeRec, Rec.ofShape]
    congr 1

theorem checkAlts_sound {ls : List (List (Option Nat))} {sh : Option (List (Option Nat))}
    (h : checkAlts (ls.map fun a => .seq (a.map dimExp)) (shapeRec sh) = .ok true) : ∃ l ∈ ls, ShapeFits l sh := by
  induction ls with
  | nil => simp [checkAlts] at h
  | cons l ls ih =>
    simp only [List.map_cons, checkAlts] at h
    have e : (Exp.seq (l.map dimExp)) = .ofDims l := shape_exp_dims l
    rw [e, shapeRec_eq] at h
    by_cases hl : l = []
    · subst hl; simp [Exp.ofDims, checkShape] at h
    · obtain ⟨b, h1, h2⟩ := checkShape_dims l hl sh
      rw [h1] at h
      cases b with
      | true => exact ⟨l, by simp, h2.1 rfl⟩
      | false =>
        simp only [← shapeRec_eq] at h
        obtain ⟨l', hm, hf⟩ := ih h
        exact ⟨l', by simp [hm], hf⟩

/-- shapes which do not make the check raise -/
def SShape.Good : SShape → Prop
  | .any => True
  | .dims l => l ≠ []
  | .alts ls => ls ≠ [] ∧ ∀ l ∈ ls, l ≠ []

theorem checkAlts_good {ls : List (List (Option Nat))} {sh : Option (List (Option Nat))} (hg : ∀ l ∈ ls, l ≠ []) :
    ∃ b, checkAlts (ls.map fun a => .seq (a.map dimExp)) (shapeRec sh) = .ok b ∧ (b = true ↔ ∃ l ∈ ls, ShapeFits l sh) := by
  induction ls with
  | nil => exact ⟨false, by simp [checkAlts], by simp⟩
  | cons l ls ih =>
    obtain ⟨b, h1, h2⟩ := ih (fun l' hl' => hg l' (by simp [hl']))
    obtain ⟨c, h3, h4⟩ := checkShape_dims l (hg l (by simp)) sh
    have e : (Exp.seq (l.map dimExp)) = .ofDims l := shape_exp_dims l
    simp only [List.map_cons, checkAlts]
    rw [e, shapeRec_eq, h3, ← shapeRec_eq]
    cases c with
    | true => exact ⟨true, rfl, by simp [h4.1 rfl]⟩
    | false =>
      refine ⟨b, h1, ?_⟩
      rw [h2]
      have : ¬ ShapeFits l sh := fun hc => by simpa using h4.2 hc
      simp [this]

theorem checkShape_alts (ls : List (List (Option Nat))) (hne : ls ≠ []) (r : Rec) :
    checkShape (SShape.alts ls).exp r = checkAlts (ls.map fun a => .seq (a.map dimExp)) r := by
  cases ls with
  | nil => exact absurd rfl hne
  | cons l ls => simp [SShape.exp, checkShape]

theorem checkShape_sound {s : SShape} {sh : Option (List (Option Nat))} (h : checkShape s.exp (shapeRec sh) = .ok true) : ShapeOk s sh := by
  cases s with
  | any => trivial
  | dims l =>
    rw [shape_exp_dims, shapeRec_eq] at h
    by_cases hl : l = []
    · subst hl; simp [Exp.ofDims, checkShape] at h
    · obtain ⟨b, h1, h2⟩ := checkShape_dims l hl sh
      rw [h1] at h
      exact h2.1 (by simpa using h)
  | alts ls =>
    by_cases hl : ls = []
    · subst hl; simp [SShape.exp, checkShape] at h
    · rw [checkShape_alts ls hl] at h
      exact checkAlts_sound h

theorem checkShape_good {s : SShape} (hs : s.Good) (sh : Option (List (Option Nat))) :
    ∃ b, checkShape s.exp (shapeRec sh) = .ok b ∧ (b = true ↔ ShapeOk s sh) := by
  cases s with
  | any => exact ⟨true, by simp [SShape.exp, checkShape], by simp [ShapeOk]⟩
  | dims l => rw [shape_exp_dims, shapeRec_eq]; exact checkShape_dims l hs sh
  | alts ls => rw [checkShape_alts ls hs.1]; exact checkAlts_good hs.2

theorem shapeErrs_nil {name loc : String} {s : SShape} {v : Val} (h : shapeErrs name loc s v = .ok []) : Shaped s v := by
  rw [shaped_iff]
  unfold shapeErrs at h
  cases hc : checkShape s.exp (shapeRec (shapeOf v)) with
  | error e => simp [hc] at h
  | ok b =>
    cases b with
    | true => exact checkShape_sound hc
    | false => simp only [hc] at h; cases hs : shapeOf v <;> simp [hs] at h

theorem shapeErrs_complete {s : SShape} {v : Val} (hs : s.Good) (h : Shaped s v) (name loc : String) :
    shapeErrs name loc s v = .ok [] := by
  rw [shaped_iff] at h
  obtain ⟨b, h1, h2⟩ := checkShape_good hs (shapeOf v)
  unfold shapeErrs
  rw [h1, h2.2 h]

theorem dtypeErrs_nil {name loc : String} {d : DDtype} {v : Val} :
    dtypeErrs name loc d v = .ok [] ↔ Hollow v ∨ ∃ r, HasType v r ∧ Accepts d r := by
  unfold dtypeErrs
  simp only [← getType_none, ← getType_some, ← checkType_true]
  cases hg : getType v with
  | error e => simp
  | ok o =>
    cases o with
    | none => simp
    | some r =>
      simp only [Except.ok.injEq, Option.some.injEq, reduceCtorEq, false_or, exists_eq_left']
      cases checkType d r with
      | error e => simp
      | ok b => cases b <;> simp

theorem attrDtypeErrs_nil {env : Env} {h : Heap} {loc : String} {a : AttrSpec} {v : Val} :
    attrDtypeErrs env h loc a v = .ok [] ↔ (match a.dtype with
      | .missing => False
      | .simple d => Hollow v ∨ ∃ r, HasType v r ∧ Accepts (.simple d) r
      | .ref _ target => Hollow v ∨ ∃ m t, v = .builder m ∧ (env.spec target).isSome ∧ (h m).type = some t ∧ target ∈ env.hierarchy t) := by
  unfold attrDtypeErrs
  cases a.dtype with
  | missing => simp
  | simple d => exact dtypeErrs_nil
  | ref rt target =>
    simp only
    cases v with
    | builder m =>
      have hh : ¬ Hollow (.builder m) := by rw [← getType_none]; simp [getType]
      simp only [hh, false_or, Val.builder.injEq]
      cases hs : env.spec target with
      | none => simp
      | some s =>
        cases ht : (h m).type with
        | none =>
          simp only [reduceCtorEq, false_iff]
          rintro ⟨m', t, rfl, -, h2, -⟩
          rw [ht] at h2; simp at h2
        | some t =>
          simp only [Option.isSome_some, true_and]
          constructor
          · intro h1
            split at h1
            · exact ⟨m, t, rfl, ht, ‹_›⟩
            · simp at h1
          · rintro ⟨m', t', rfl, h2, h3⟩
            rw [ht] at h2
            simp only [Option.some.injEq] at h2
            subst h2
            rw [if_pos h3]
    | _ =>
      simp only [reduceCtorEq, false_and, exists_false, or_false, ← getType_none]
      rcases getType _ with e | o
      · simp
      · cases o <;> simp

theorem attrValueErrs_nil {env : Env} {h : Heap} {n : Nat} {a : AttrSpec} {v : Val} (hv : attrValueErrs env h n a v = .ok []) :
    ValueOk env h a v := by
  unfold attrValueErrs at hv
  cases h1 : attrDtypeErrs env h ((h n).loc ++ "." ++ a.name) a v with
  | error e => simp [h1] at hv
  | ok l =>
    simp only [h1] at hv
    cases h2 : shapeErrs a.name ((h n).loc ++ "." ++ a.name) a.shape v with
    | error e => simp [h2] at hv
    | ok l' =>
      simp only [h2, Except.ok.injEq, List.append_eq_nil_iff] at hv
      obtain ⟨rfl, rfl⟩ := hv
      exact ⟨attrDtypeErrs_nil.1 h1, shapeErrs_nil h2⟩

theorem attrValueErrs_complete {env : Env} {h : Heap} {n : Nat} {a : AttrSpec} {v : Val} (hs : a.shape.Good) (hv : ValueOk env h a v) :
    attrValueErrs env h n a v = .ok [] := by
  unfold attrValueErrs
  rw [attrDtypeErrs_nil.2 hv.1]
  simp only [shapeErrs_complete hs hv.2, List.append_nil]

theorem collect_nil {α : Type} {go : α → Except Err (List VErr)} {l : List α} : collect go l = .ok [] ↔ ∀ x ∈ l, go x = .ok [] := by
  induction l with
  | nil => simp [collect]
  | cons x xs ih =>
    simp only [collect, List.forall_mem_cons, ← ih]
    cases go x with
    | error e => simp
    | ok r => cases collect go xs <;> simp

theorem baseErrs_nil {env : Env} {h : Heap} {s : Spec} {n : Nat} (hb : baseErrs env h s n = .ok []) : AttrsOk env h s n := by
  intro a ha
  have := collect_nil.1 hb a ha
  unfold attrErrs at this
  cases hg : Dict.get? (h n).attrs a.name with
  | none =>
    simp only [hg] at this
    refine ⟨fun hr => by simp [hr] at this, by simp⟩
  | some v =>
    simp only [hg] at this
    exact ⟨by simp, fun v' hv' => by simp only [Option.some.injEq] at hv'; subst hv'; exact attrValueErrs_nil this⟩

theorem baseErrs_complete {env : Env} {h : Heap} {s : Spec} {n : Nat} (hs : ∀ a ∈ s.attrs, a.shape.Good) (ha : AttrsOk env h s n) :
    baseErrs env h s n = .ok [] := by
  apply collect_nil.2
  intro a hm
  obtain ⟨h1, h2⟩ := ha a hm
  unfold attrErrs
  cases hg : Dict.get? (h n).attrs a.name with
  | none =>
    have : a.required = false := by
      cases hr : a.required with
      | false => rfl
      | true => have := h1 hr; simp [hg] at this
    simp [this]
  | some v => exact attrValueErrs_complete (hs a hm) (h2 v hg)

theorem datasetErrs_nil {env : Env} {h : Heap} {s : Spec} {n : Nat} (hd : datasetErrs env h s n = .ok []) :
    AttrsOk env h s n ∧ DtypeOk s.dtype (h n).data ∧ Shaped s.shape (h n).data := by
  unfold datasetErrs at hd
  cases h1 : baseErrs env h s n with
  | error e => simp [h1] at hd
  | ok l1 =>
    simp only [h1] at hd
    cases h2 : (if s.dtype = .any then .ok [] else dtypeErrs s.label (h n).loc s.dtype (h n).data) with
    | error e => simp [h2] at hd
    | ok l2 =>
      simp only [h2] at hd
      cases h3 : shapeErrs s.label (h n).loc s.shape (h n).data with
      | error e => simp [h3] at hd
      | ok l3 =>
        simp only [h3, Except.ok.injEq, List.append_eq_nil_iff] at hd
        obtain ⟨⟨rfl, rfl⟩, rfl⟩ := hd
        refine ⟨baseErrs_nil h1, ?_, shapeErrs_nil h3⟩
        by_cases ha : s.dtype = .any
        · exact Or.inl ha
        · rw [if_neg ha] at h2
          exact Or.inr (dtypeErrs_nil.1 h2)

theorem datasetErrs_complete {env : Env} {h : Heap} {s : Spec} {n : Nat} (hs : ∀ a ∈ s.attrs, a.shape.Good) (hs' : s.shape.Good)
    (ha : AttrsOk env h s n) (hd : DtypeOk s.dtype (h n).data) (hsh : Shaped s.shape (h n).data) :
    datasetErrs env h s n = .ok [] := by
  unfold datasetErrs
  rw [baseErrs_complete hs ha]
  have : (if s.dtype = .any then .ok [] else dtypeErrs s.label (h n).loc s.dtype (h n).data) = .ok [] := by
    split
    · rfl
    · exact dtypeErrs_nil.2 (hd.resolve_left ‹_›)
  simp only [this, shapeErrs_complete hs' hsh, List.append_nil]

/-! ## The errors of a group -/

theorem dedupe_mem {acc es : List VErr} {e : VErr} : e ∈ dedupe acc es ↔ e ∈ acc ∨ e ∈ es := by
  induction es generalizing acc with
  | nil => simp [dedupe]
  | cons x es ih =>
    simp only [dedupe]
    split
    · rw [ih]
      simp only [List.mem_cons]
      constructor
      · rintro (h | h)
        · exact Or.inl h
        · exact Or.inr (Or.inr h)
      · rintro (h | h | h)
        · exact Or.inl h
        · subst h; exact Or.inl ‹_›
        · exact Or.inr h
    · rw [ih]
      simp only [List.mem_append, List.mem_cons, List.not_mem_nil, or_false]
      constructor
      · rintro ((h | h) | h)
        · exact Or.inl h
        · exact Or.inr (Or.inl h)
        · exact Or.inr (Or.inr h)
      · rintro (h | h | h)
        · exact Or.inl (Or.inl h)
        · exact Or.inl (Or.inr h)
        · exact Or.inr h

theorem dedupe_nodup {acc es : List VErr} (h : acc.Nodup) : (dedupe acc es).Nodup := by
  induction es generalizing acc with
  | nil => simpa [dedupe] using h
  | cons x es ih =>
    simp only [dedupe]
    split
    · exact ih h
    · refine ih ?_
      rw [List.nodup_append]
      refine ⟨h, by simp, ?_⟩
      intro a ha b hb
      simp only [List.mem_cons, List.not_mem_nil, or_false] at hb
      subst hb
      rintro rfl
      exact absurd ha ‹_›

theorem dedupe_nil {es : List VErr} : dedupe [] es = [] ↔ es = [] := by
  constructor
  · intro h
    cases es with
    | nil => rfl
    | cons e es =>
      have : e ∈ dedupe [] (e :: es) := dedupe_mem.2 (Or.inr (by simp))
      rw [h] at this; simp at this
  · rintro rfl; rfl

theorem quantityError_allowed {q : Quantity} {n : Nat} (h : quantityError q n = none) : Allowed q n := by
  unfold quantityError at h
  split at h
  · simp at h
  · rename_i h1
    split at h
    · simp at h
    · rename_i h2
      cases q with
      | num k =>
        simp only [incorrectQuantity] at h2
        split at h2
        · simp at h2
        · simpa [Allowed] using h2
      | str t =>
        refine ⟨?_, ?_⟩
        · rintro rfl
          simpa [incorrectQuantity, Quantity.isMany] using h2
        · rintro rfl
          simp [Quantity.required] at h1
          show n ≥ 1
          omega

theorem countErrs_nil {s : Spec} {loc : String} {sub : Spec} {k : Nat} : countErrs s loc sub k = [] ↔ quantityError sub.quantity k = none := by
  unfold countErrs
  cases quantityError sub.quantity k with
  | none => simp
  | some e =>
    cases e with
    | missing => cases sub.type <;> simp
    | incorrect => simp

theorem zip_fst {subs : List Spec} {l : List (Sub × List Child)} (h : l.map Prod.fst = subs.map Spec.sub) :
    (subs.zip (l.map Prod.snd)).map Prod.fst = subs := by
  have : l.length = subs.length := by simpa using congrArg List.length h
  rw [List.map_fst_zip]
  simp [this]

theorem zip_sub {subs : List Spec} {l : List (Sub × List Child)} (h : l.map Prod.fst = subs.map Spec.sub) :
    (subs.zip (l.map Prod.snd)).map (fun m => (m.1.sub, m.2)) = l := by
  induction subs generalizing l with
  | nil =>
    cases l with
    | nil => rfl
    | cons m l => simp at h
  | cons x subs ih =>
    cases l with
    | nil => simp at h
    | cons m l =>
      obtain ⟨a, b⟩ := m
      simp only [List.map_cons, List.cons.injEq] at h
      simp only [List.map_cons, List.zip_cons_cons, List.cons.injEq]
      exact ⟨by rw [h.1], ih h.2⟩

theorem zip_flat {subs : List Spec} {l : List (Sub × List Child)} (h : l.map Prod.fst = subs.map Spec.sub) :
    (subs.zip (l.map Prod.snd)).flatMap Prod.snd = l.flatMap Prod.snd := by
  have := zip_sub h
  conv => rhs; rw [← this]
  rw [List.flatMap_map]

theorem applySpec_nil {go : Spec → Nat → Except Err (List VErr)} {n : Nat} {e : Except Err Spec} :
    applySpec go n e = .ok [] ↔ ∃ s, e = .ok s ∧ go s n = .ok [] := by
  cases e <;> simp [applySpec]

theorem childErrs_nil {env : Env} {go : Spec → Nat → Except Err (List VErr)} {loc : String} {sub : Spec} {c : Child} :
    childErrs env go loc sub c = .ok [] ↔ (c.link = true → sub.kind = .link ∨ sub.linkable = true) ∧
      (∀ t, c.type = some t ∨ sub.type = some t → ∃ s', env.spec t = some s' ∧ go s' c.ref = .ok []) ∧
      (sub.kind ≠ .link → go sub c.ref = .ok []) := by
  unfold childErrs
  by_cases hl : c.link = true ∧ sub.kind ≠ .link ∧ sub.linkable = false
  · rw [if_pos hl]
    simp only [Except.ok.injEq, reduceCtorEq, false_iff, List.cons_ne_nil]
    rintro ⟨h1, -⟩
    rcases h1 hl.1 with h1 | h1
    · exact hl.2.1 h1
    · rw [hl.2.2] at h1; simp at h1
  · rw [if_neg hl, collect_nil]
    have hl' : c.link = true → sub.kind = .link ∨ sub.linkable = true := by
      intro h1
      by_cases hk : sub.kind = .link
      · exact Or.inl hk
      · right
        cases hb : sub.linkable with
        | true => rfl
        | false => exact absurd ⟨h1, hk, hb⟩ hl
    have ht : ∀ t, applySpec go c.ref (typeSpec env t) = .ok [] ↔ ∃ s', env.spec t = some s' ∧ go s' c.ref = .ok [] := by
      intro t
      rw [applySpec_nil]
      unfold typeSpec
      cases env.spec t <;> simp
    simp only [childSpecs, List.mem_append, List.mem_map, Option.mem_toList]
    constructor
    · intro h
      refine ⟨hl', ?_, ?_⟩
      · rintro t (hc | hc)
        · exact (ht t).1 (h _ (Or.inl (Or.inl ⟨t, hc, rfl⟩)))
        · exact (ht t).1 (h _ (Or.inl (Or.inr ⟨t, hc, rfl⟩)))
      · intro hk
        have := h (.ok sub) (Or.inr (by simp [hk]))
        simpa [applySpec] using this
    · rintro ⟨-, h1, h2⟩ e ((⟨t, hc, rfl⟩ | ⟨t, hc, rfl⟩) | he)
      · exact (ht t).2 (h1 t (Or.inl hc))
      · exact (ht t).2 (h1 t (Or.inr hc))
      · by_cases hk : sub.kind = .link
        · simp [hk] at he
        · simp only [hk, if_false, List.mem_cons, List.not_mem_nil, or_false] at he
          subst he
          exact h2 hk

theorem subErrs_nil {env : Env} {go : Spec → Nat → Except Err (List VErr)} {s : Spec} {loc : String} {m : Spec × List Child} :
    subErrs env go s loc m = .ok [] ↔ quantityError m.1.quantity m.2.length = none ∧ ∀ c ∈ m.2, childErrs env go loc m.1 c = .ok [] := by
  unfold subErrs
  rw [← collect_nil, ← countErrs_nil (s := s) (loc := loc)]
  cases collect (childErrs env go loc m.1) m.2 <;> simp

/-- **C106 (sound).** For all specs, builders (linked in any way) and depths: if validation reports no error, the builder conforms to the
spec: at every depth, every attribute and dataset is of the right dtype and shape, the children can be distributed over the sub-specs in
the numbers allowed, links are only where they are allowed, and every child conforms to the spec of its own type, of the type asked for, and
to the sub-spec. -/
theorem C106_sound {env : Env} {h : Heap} {f : Nat} {s : Spec} {n : Nat} (hv : validate env h f s n = .ok []) : Conforms env h s n := by
  induction f generalizing s n with
  | zero => simp [validate] at hv
  | succ f ih =>
    simp only [validate] at hv
    cases hk : s.kind with
    | link => simp [hk] at hv
    | dataset =>
      simp only [hk] at hv
      cases hg : (h n).isGroup with
      | true => simp [hg] at hv
      | false =>
        simp only [hg, Bool.false_eq_true, if_false] at hv
        obtain ⟨h1, h2, h3⟩ := datasetErrs_nil hv
        exact .dataset hk hg h1 h2 h3
    | group =>
      simp only [hk] at hv
      cases hg : (h n).isGroup with
      | false => simp [hg] at hv
      | true =>
        simp only [hg, Bool.true_eq_false, if_false] at hv
        cases hb : baseErrs env h s n with
        | error e => simp [hb] at hv
        | ok l =>
          simp only [hb] at hv
          cases hc : childrenErrs env h (validate env h f) s n with
          | error e => simp [hc] at hv
          | ok l' =>
            simp only [hc, Except.ok.injEq, dedupe_nil, List.append_eq_nil_iff] at hv
            obtain ⟨rfl, rfl⟩ := hv
            unfold childrenErrs at hc
            cases ha : assign env.valid (init (s.subs.map Spec.sub)) (children h n) with
            | error e => simp [ha] at hc
            | ok st =>
              simp only [ha] at hc
              have hc := collect_nil.1 hc
              obtain ⟨h1, h2, h3, h4⟩ := C45_assignment ha
              have hz := zip_sub h1
              have hc' : ∀ m ∈ s.subs.zip (st.matches_.map Prod.snd), quantityError m.1.quantity m.2.length = none ∧
                  ∀ c ∈ m.2, _ := fun m hm => by
                have := subErrs_nil.1 (hc m hm)
                exact ⟨this.1, fun c hcm => childErrs_nil.1 (this.2 c hcm)⟩
              refine .group (s.subs.zip (st.matches_.map Prod.snd)) hk hg (baseErrs_nil hb) ⟨zip_fst h1, ⟨st.unmatched, ?_, ?_, ?_⟩, ?_, ?_⟩
                ?_ ?_ ?_ ?_
              · rw [zip_flat h1]; exact (perm_children.1 h2).1
              · rw [zip_flat h1]; exact (perm_children.1 h2).2
              · intro c hcu s' hs'
                exact h4 c hcu _ (List.mem_map_of_mem hs')
              · intro m hm c hcm
                have : (m.1.sub, m.2) ∈ st.matches_ := by
                  rw [← hz]; exact List.mem_map_of_mem (f := fun m : Spec × List Child => (m.1.sub, m.2)) hm
                exact h3 _ this c hcm
              · intro m hm
                exact quantityError_allowed (hc' m hm).1
              · intro m hm c hcm
                exact ((hc' m hm).2 c hcm).1
              · intro m hm c hcm t ht
                obtain ⟨s', hs', -⟩ := ((hc' m hm).2 c hcm).2.1 t ht
                simp [hs']
              · intro m hm c hcm t s' ht hs'
                obtain ⟨s'', hs'', hv''⟩ := ((hc' m hm).2 c hcm).2.1 t ht
                rw [hs'] at hs''
                simp only [Option.some.injEq] at hs''
                subst hs''
                exact ih hv''
              · intro m hm c hcm hkl
                exact ih (((hc' m hm).2 c hcm).2.2 hkl)

/-! ## Recursion -/

/-- where validation goes from a spec and a builder -/
def Next (env : Env) (h : Heap) (x y : Spec × Nat) : Prop :=
  ∃ sub ∈ x.1.subs, ∃ c, IsChild h x.2 c ∧ Fits env.valid sub.sub c ∧ y.2 = c.ref ∧
    ((∃ t, (c.type = some t ∨ sub.type = some t) ∧ env.spec t = some y.1) ∨ (y.1 = sub ∧ sub.kind ≠ .link))

/-- the specs and builders met in the validation of a builder -/
def Visits (env : Env) (h : Heap) : Spec × Nat → Spec × Nat → Prop := Relation.ReflTransGen (Next env h)

/-- nothing makes the matching ambiguous or a check raise: no empty shape, only quantities with a meaning, known types, and every child
fits at most one sub-spec -/
structure Plain (env : Env) (h : Heap) (s : Spec) (n : Nat) : Prop where
  attrs : ∀ a ∈ s.attrs, a.shape.Good
  shape : s.shape.Good
  quantity : ∀ sub ∈ s.subs, Meaningful sub.quantity
  known : Known env.valid (s.subs.map Spec.sub)
  unambiguous : ∀ c, IsChild h n c → ∀ (i j : Nat) a b, s.subs[i]? = some a → s.subs[j]? = some b → Fits env.valid a.sub c →
    Fits env.valid b.sub c → i = j

theorem uniform {α : Type} {P : α → Nat → Prop} {l : List α} (h : ∀ x ∈ l, ∃ f, ∀ f' ≥ f, P x f') : ∃ f, ∀ f' ≥ f, ∀ x ∈ l, P x f' := by
  induction l with
  | nil => exact ⟨0, by simp⟩
  | cons a l ih =>
    obtain ⟨f1, h1⟩ := h a (by simp)
    obtain ⟨f2, h2⟩ := ih (fun x hx => h x (by simp [hx]))
    refine ⟨max f1 f2, fun f' hf x hx => ?_⟩
    rcases List.mem_cons.1 hx with rfl | hx
    · exact h1 f' (le_trans (le_max_left _ _) hf)
    · exact h2 f' (le_trans (le_max_right _ _) hf) x hx

/-- **C106 (complete, partial).** If a builder conforms to a spec, and on the way down nothing is ambiguous (see `Plain`), then validation
finds no error (nor does it raise), at every depth of the stack from some depth on. -/
theorem C106_complete_partial {env : Env} {h : Heap} {s : Spec} {n : Nat} (hc : Conforms env h s n)
    (hp : ∀ s' n', Visits env h (s, n) (s', n') → Plain env h s' n') : ∃ f, ∀ f' ≥ f, validate env h f' s n = .ok [] := by
  induction hc with
  | dataset hk hg ha hd hs =>
    refine ⟨1, fun f' hf => ?_⟩
    obtain ⟨f, rfl⟩ : ∃ f, f' = f + 1 := ⟨f' - 1, by omega⟩
    have := hp _ _ .refl
    simp only [validate, hk, hg, Bool.false_eq_true, if_false]
    exact datasetErrs_complete this.attrs this.shape ha hd hs
  | group ms hk hg ha hD hl hs hct hcs ih1 ih2 =>
    rename_i s n
    have hP := hp _ _ .refl
    obtain ⟨st, hst⟩ := C45_total hP.known (children h n)
    obtain ⟨h1, h2, h3, h4⟩ := C45_assignment hst
    obtain ⟨g1, ⟨un, g2, g2', g3⟩, g4, g5⟩ := hD
    have g2 := perm_children.2 ⟨g2, g2'⟩
    have hU : Unambiguous env.valid (s.subs.map Spec.sub) (children h n) := by
      intro c hc i j a b hi hj ha hb
      rw [List.getElem?_map] at hi hj
      obtain ⟨a', hi', rfl⟩ := Option.map_eq_some_iff.1 hi
      obtain ⟨b', hj', rfl⟩ := Option.map_eq_some_iff.1 hj
      exact hP.unambiguous c (mem_children.1 hc) i j a' b' hi' hj' ha hb
    have hlen : ms.map (fun m => m.1.sub) = s.subs.map Spec.sub := by rw [← g1, List.map_map]; rfl
    -- the numbers
    have hq : quantityErrors st = [] := by
      refine C81_complete_partial ?_ hU hst ⟨ms.map fun m => (m.1.sub, m.2), ?_, ⟨un, ?_, ?_⟩, ?_, ?_⟩
      · intro x hx
        obtain ⟨sub, hsub, rfl⟩ := List.mem_map.1 hx
        exact hP.quantity sub hsub
      · rw [List.map_map]; exact hlen
      · rw [List.flatMap_map]; exact g2
      · intro c hcu x hx
        obtain ⟨sub, hsub, rfl⟩ := List.mem_map.1 hx
        exact g3 c hcu sub hsub
      · intro m hm c hcm
        obtain ⟨m', hm', rfl⟩ := List.mem_map.1 hm
        exact g4 m' hm' c hcm
      · intro m hm
        obtain ⟨m', hm', rfl⟩ := List.mem_map.1 hm
        exact g5 m' hm'
    simp only [quantityErrors, List.filterMap_eq_nil_iff] at hq
    -- the children of a sub-spec are those of the distribution
    have hz := zip_sub h1
    have hin : ∀ m ∈ s.subs.zip (st.matches_.map Prod.snd), (m.1.sub, m.2) ∈ st.matches_ := by
      intro m hm
      rw [← hz]; exact List.mem_map_of_mem (f := fun m : Spec × List Child => (m.1.sub, m.2)) hm
    have hfind : ∀ m ∈ s.subs.zip (st.matches_.map Prod.snd), ∀ c ∈ m.2, ∃ m' ∈ ms, m'.1 = m.1 ∧ c ∈ m'.2 := by
      intro m hm c hcm
      obtain ⟨k, hk'⟩ := List.getElem?_of_mem hm
      have hsk : s.subs[k]? = some m.1 := by
        rw [← zip_fst h1, List.getElem?_map, hk']; rfl
      have hcc : c ∈ children h n := h2.subset (by
        simp only [List.mem_append, List.mem_flatMap]
        exact Or.inr ⟨_, hin m hm, hcm⟩)
      have hF := h3 _ (hin m hm) c hcm
      have hc2 := g2.symm.subset hcc
      simp only [List.mem_append, List.mem_flatMap] at hc2
      rcases hc2 with hc2 | ⟨m', hm', hcm'⟩
      · exact absurd hF (g3 c hc2 m.1 (List.mem_of_getElem? hsk))
      · obtain ⟨j, hj⟩ := List.getElem?_of_mem hm'
        have hsj : s.subs[j]? = some m'.1 := by rw [← g1, List.getElem?_map, hj]; rfl
        have : k = j := hP.unambiguous c (mem_children.1 hcc) k j m.1 m'.1 hsk hsj hF (g4 m' hm' c hcm')
        subst this
        rw [hsk] at hsj
        simp only [Option.some.injEq] at hsj
        exact ⟨m', hm', hsj.symm, hcm'⟩
    have hchild : ∀ m ∈ s.subs.zip (st.matches_.map Prod.snd), ∃ f, ∀ f' ≥ f, ∀ c ∈ m.2,
        childErrs env (validate env h f') (h n).loc m.1 c = .ok [] := by
      intro m hm
      apply uniform
      intro c hcm
      obtain ⟨m', hm', he, hcm'⟩ := hfind m hm c hcm
      have hcc : c ∈ children h n := h2.subset (by
        simp only [List.mem_append, List.mem_flatMap]
        exact Or.inr ⟨_, hin m hm, hcm⟩)
      have hsub : m.1 ∈ s.subs := by rw [← zip_fst h1]; exact List.mem_map_of_mem hm
      have hF := h3 _ (hin m hm) c hcm
      have hty : ∀ t, c.type = some t ∨ m.1.type = some t → ∃ f, ∀ f' ≥ f, ∃ s', env.spec t = some s' ∧ validate env h f' s' c.ref = .ok [] := by
        intro t ht
        have ht' : c.type = some t ∨ m'.1.type = some t := by rw [he]; exact ht
        obtain ⟨s', hs'⟩ := Option.isSome_iff_exists.1 (hs m' hm' c hcm' t ht')
        obtain ⟨f, hf⟩ := ih1 m' hm' c hcm' t s' ht' hs' (fun s'' n'' hv => hp s'' n''
          (.head ⟨m.1, hsub, c, mem_children.1 hcc, hF, rfl, Or.inl ⟨t, ht, hs'⟩⟩ hv))
        exact ⟨f, fun f' hf' => ⟨s', hs', hf f' hf'⟩⟩
      have hown : ∃ f, ∀ f' ≥ f, m.1.kind ≠ .link → validate env h f' m.1 c.ref = .ok [] := by
        by_cases hkl : m.1.kind = .link
        · exact ⟨0, fun _ _ hc => absurd hkl hc⟩
        · have := ih2 m' hm' c hcm' (by rw [he]; exact hkl)
          rw [he] at this
          obtain ⟨f, hf⟩ := this (fun s'' n'' hv => hp s'' n'' (.head ⟨m.1, hsub, c, mem_children.1 hcc, hF, rfl, Or.inr ⟨rfl, hkl⟩⟩ hv))
          exact ⟨f, fun f' hf' _ => hf f' hf'⟩
      obtain ⟨f1, hf1⟩ : ∃ f, ∀ f' ≥ f, ∀ t, c.type = some t ∨ m.1.type = some t → ∃ s', env.spec t = some s' ∧
          validate env h f' s' c.ref = .ok [] := by
        obtain ⟨f, hf⟩ := uniform (l := c.type.toList ++ m.1.type.toList)
          (P := fun t f' => ∃ s', env.spec t = some s' ∧ validate env h f' s' c.ref = .ok []) (by
            intro t ht
            simp only [List.mem_append, Option.mem_toList] at ht
            exact hty t ht)
        exact ⟨f, fun f' hf' t ht => hf f' hf' t (by simpa only [List.mem_append, Option.mem_toList] using ht)⟩
      obtain ⟨f2, hf2⟩ := hown
      refine ⟨max f1 f2, fun f' hf' => childErrs_nil.2 ⟨?_, hf1 f' (le_trans (le_max_left _ _) hf'), hf2 f' (le_trans (le_max_right _ _) hf')⟩⟩
      rw [← he]
      exact hl m' hm' c hcm'
    obtain ⟨f, hf⟩ := uniform hchild
    refine ⟨f + 1, fun f' hf' => ?_⟩
    obtain ⟨f0, rfl⟩ : ∃ f0, f' = f0 + 1 := ⟨f' - 1, by omega⟩
    simp only [validate, hk, hg, Bool.true_eq_false, if_false]
    rw [baseErrs_complete hP.attrs ha]
    have : childrenErrs env h (validate env h f0) s n = .ok [] := by
      unfold childrenErrs
      rw [hst]
      apply collect_nil.2
      intro m hm
      exact subErrs_nil.2 ⟨hq _ (hin m hm), hf f0 (by omega) m hm⟩
    simp [this, dedupe]

theorem collect_mono {α : Type} {go go' : α → Except Err (List VErr)} {l : List α}
    (hg : ∀ x ∈ l, go x ≠ .error .runtimeError → go' x = go x) (h : collect go l ≠ .error .runtimeError) : collect go' l = collect go l := by
  induction l with
  | nil => rfl
  | cons x xs ih =>
    simp only [collect] at h ⊢
    have hx : go x ≠ .error .runtimeError := by
      intro hc; rw [hc] at h; exact h rfl
    rw [hg x (by simp) hx]
    cases hgx : go x with
    | error e => rfl
    | ok r =>
      simp only [hgx] at h ⊢
      have hxs : collect go xs ≠ .error .runtimeError := by
        intro hc; rw [hc] at h; exact h rfl
      rw [ih (fun y hy => hg y (by simp [hy])) hxs]

theorem childErrs_mono {env : Env} {go go' : Spec → Nat → Except Err (List VErr)} {loc : String} {sub : Spec} {c : Child}
    (hg : ∀ s n, go s n ≠ .error .runtimeError → go' s n = go s n) (h : childErrs env go loc sub c ≠ .error .runtimeError) :
    childErrs env go' loc sub c = childErrs env go loc sub c := by
  unfold childErrs at h ⊢
  split
  · rfl
  · rw [if_neg ‹_›] at h
    refine collect_mono (fun e _ he => ?_) h
    cases e with
    | error x => rfl
    | ok s' => exact hg s' c.ref he

theorem childrenErrs_mono {env : Env} {h : Heap} {go go' : Spec → Nat → Except Err (List VErr)} {s : Spec} {n : Nat}
    (hg : ∀ s n, go s n ≠ .error .runtimeError → go' s n = go s n) (hr : childrenErrs env h go s n ≠ .error .runtimeError) :
    childrenErrs env h go' s n = childrenErrs env h go s n := by
  unfold childrenErrs at hr ⊢
  cases ha : assign env.valid (init (s.subs.map Spec.sub)) (children h n) with
  | error e => rfl
  | ok st =>
    simp only [ha] at hr ⊢
    refine collect_mono (fun m _ hm => ?_) hr
    unfold subErrs at hm ⊢
    have : collect (childErrs env go (h n).loc m.1) m.2 ≠ .error .runtimeError := by
      intro hc; rw [hc] at hm; exact hm rfl
    rw [collect_mono (fun c _ hc => childErrs_mono hg hc) this]

theorem validate_succ {env : Env} {h : Heap} {f : Nat} {s : Spec} {n : Nat} (hr : validate env h f s n ≠ .error .runtimeError) :
    validate env h (f + 1) s n = validate env h f s n := by
  induction f generalizing s n with
  | zero => exact absurd rfl hr
  | succ f ih =>
    rw [validate]
    rw [validate] at hr ⊢
    cases hk : s.kind with
    | link => rfl
    | dataset => rfl
    | group =>
      simp only [hk] at hr ⊢
      split
      · rfl
      · rw [if_neg ‹_›] at hr
        cases hb : baseErrs env h s n with
        | error e => rfl
        | ok l =>
          simp only [hb] at hr ⊢
          have : childrenErrs env h (validate env h f) s n ≠ .error .runtimeError := by
            intro hc; rw [hc] at hr; exact hr rfl
          rw [childrenErrs_mono (fun s n hs => ih hs) this]

theorem validate_le {env : Env} {h : Heap} {f f' : Nat} {s : Spec} {n : Nat} (hr : validate env h f s n ≠ .error .runtimeError)
    (hf : f ≤ f') : validate env h f' s n = validate env h f s n := by
  induction f', hf using Nat.le_induction with
  | base => rfl
  | succ m _ ih => rw [validate_succ (by rw [ih]; exact hr), ih]

/-- **C106 (exact, partial).** Under the same assumption, whenever validation gives a result, the list of errors is empty iff the builder
conforms to the spec. -/
theorem C106_exact_partial {env : Env} {h : Heap} {s : Spec} {n : Nat} {f : Nat} {es : List VErr} (hv : validate env h f s n = .ok es)
    (hp : ∀ s' n', Visits env h (s, n) (s', n') → Plain env h s' n') : es = [] ↔ Conforms env h s n := by
  constructor
  · rintro rfl; exact C106_sound hv
  · intro hc
    obtain ⟨f0, h0⟩ := C106_complete_partial hc hp
    have h1 := validate_le (f' := max f f0) (by rw [hv]; simp) (le_max_left _ _)
    have h2 := h0 (max f f0) (le_max_right _ _)
    rw [h1, hv] at h2
    simpa using h2

theorem checkOne_rt (d r : String) (iso : Bool) : checkOne d r iso ≠ .error .runtimeError := by
  unfold checkOne inAllowable
  cases Dict.get? allowable d <;> simp

theorem checkFields_rt (es : List String) (l : List (String × Bool)) : checkFields es l ≠ .error .runtimeError := by
  induction es generalizing l with
  | nil => cases l <;> simp [checkFields]
  | cons e es ih =>
    cases l with
    | nil => simp [checkFields]
    | cons p l =>
      simp only [checkFields]
      split
      · exact checkOne_rt _ _ _
      · unfold inAllowable
        cases Dict.get? allowable e with
        | none => simp
        | some x => simp only; generalize x.contains p.1 = b; cases b <;> simp [ih]

theorem checkType_rt (d : DDtype) (r : Recv) : checkType d r ≠ .error .runtimeError := by
  cases d with
  | any => simp [checkType]
  | simple d =>
    cases r with
    | name s iso => exact checkOne_rt _ _ _
    | dtype s => exact checkOne_rt _ _ _
    | fields l =>
      simp only [checkType]
      cases Dict.get? allowable d with
      | none => simp
      | some x => simp only; split <;> simp
  | ref rt =>
    cases r with
    | name s iso => exact checkOne_rt _ _ _
    | dtype s => exact checkOne_rt _ _ _
    | fields l => simp only [checkType]; cases Dict.get? allowable rt <;> simp
  | compound es =>
    cases r with
    | name s iso =>
      simp only [checkType]
      split
      · simp
      · cases es with
        | nil => simp
        | cons e es =>
          simp only
          split
          · simp
          · cases Dict.get? allowable e <;> simp
    | dtype s => simp only [checkType]; split <;> simp
    | fields l =>
      simp only [checkType, checkCompound]
      split
      · simp
      · exact checkFields_rt es l

theorem getType_rt (v : Val) : getType v ≠ .error .runtimeError := by
  induction v using Val.rec (motive_2 := fun l => firstType l ≠ .error .runtimeError) with
  | atom a => simp [getType]
  | builder n => simp [getType]
  | list l ih => simpa [getType] using ih
  | nd dims a =>
    simp only [getType]
    split
    · simp
    · split <;> simp
  | dset ms d => simp [getType]
  | vstr ms a => cases a <;> simp [getType]
  | resolver ms d => simp [getType]
  | compound rows fs =>
    match rows with
    | some 0 => simp [getType]
    | none => simp [getType]
    | some (k + 1) => simp [getType]
  | nil => simp [firstType]
  | cons v l ih _ => simpa [firstType] using ih

theorem checkShape_rt (s : SShape) (sh : Option (List (Option Nat))) : checkShape s.exp (shapeRec sh) ≠ .error .runtimeError := by
  have hd : ∀ l : List (Option Nat), checkShape (.seq (l.map dimExp)) (shapeRec sh) ≠ .error .runtimeError := by
    intro l
    have e : (Exp.seq (l.map dimExp)) = .ofDims l := shape_exp_dims l
    by_cases hl : l = []
    · subst hl; simp [checkShape]
    · obtain ⟨b, h1, -⟩ := checkShape_dims l hl sh
      rw [e, shapeRec_eq, h1]; simp
  cases s with
  | any => simp [SShape.exp, checkShape]
  | dims l => exact hd l
  | alts ls =>
    by_cases hl : ls = []
    · subst hl; simp [SShape.exp, checkShape]
    · rw [checkShape_alts ls hl]
      clear hl
      induction ls with
      | nil => simp [checkAlts]
      | cons l ls ih =>
        simp only [List.map_cons, checkAlts]
        cases hc : checkShape (.seq (l.map dimExp)) (shapeRec sh) with
        | error e => simp only; rw [← hc]; exact hd l
        | ok b => cases b <;> simp [ih]

theorem dtypeErrs_rt (name loc : String) (d : DDtype) (v : Val) : dtypeErrs name loc d v ≠ .error .runtimeError := by
  unfold dtypeErrs
  have h1 := getType_rt v
  cases hg : getType v with
  | error e => rw [hg] at h1; simpa using h1
  | ok o =>
    cases o with
    | none => simp
    | some r =>
      have h2 := checkType_rt d r
      cases hc : checkType d r with
      | error e => rw [hc] at h2; simpa [hc] using h2
      | ok b => cases b <;> simp [hc]

theorem shapeErrs_rt (name loc : String) (s : SShape) (v : Val) : shapeErrs name loc s v ≠ .error .runtimeError := by
  unfold shapeErrs
  have h1 := checkShape_rt s (shapeOf v)
  cases hg : checkShape s.exp (shapeRec (shapeOf v)) with
  | error e => rw [hg] at h1; simpa using h1
  | ok b => cases b <;> cases shapeOf v <;> simp

theorem collect_rt {α : Type} {go : α → Except Err (List VErr)} {l : List α} (hg : ∀ x ∈ l, go x ≠ .error .runtimeError) :
    collect go l ≠ .error .runtimeError := by
  induction l with
  | nil => simp [collect]
  | cons x xs ih =>
    simp only [collect]
    have hx := hg x (by simp)
    have := ih (fun y hy => hg y (by simp [hy]))
    cases h1 : go x with
    | error e => rw [h1] at hx; exact hx
    | ok r =>
      cases h2 : collect go xs with
      | error e => rw [h2] at this; simpa [h2] using this
      | ok r' => simp

theorem baseErrs_rt (env : Env) (h : Heap) (s : Spec) (n : Nat) : baseErrs env h s n ≠ .error .runtimeError := by
  apply collect_rt
  intro a _
  unfold attrErrs
  cases Dict.get? (h n).attrs a.name with
  | none => simp
  | some v =>
    simp only [attrValueErrs]
    have h1 : attrDtypeErrs env h ((h n).loc ++ "." ++ a.name) a v ≠ .error .runtimeError := by
      unfold attrDtypeErrs
      cases a.dtype with
      | missing => simp
      | simple d => exact dtypeErrs_rt _ _ _ _
      | ref rt target =>
        simp only
        cases v with
        | builder m =>
          simp only
          cases env.spec target with
          | none => simp
          | some _ =>
            cases (h m).type with
            | none => simp
            | some t => simp only; split <;> simp
        | _ =>
          simp only
          have h1 := getType_rt
          split
          · rename_i e' hg; intro hc; apply h1 _; rw [hg]; simpa using hc
          · simp
          · simp
    cases hg : attrDtypeErrs env h ((h n).loc ++ "." ++ a.name) a v with
    | error e => rw [hg] at h1; simpa using h1
    | ok l =>
      have h2 := shapeErrs_rt a.name ((h n).loc ++ "." ++ a.name) a.shape v
      cases hs : shapeErrs a.name ((h n).loc ++ "." ++ a.name) a.shape v with
      | error e => rw [hs] at h2; simpa [hs] using h2
      | ok l' => simp

theorem datasetErrs_rt (env : Env) (h : Heap) (s : Spec) (n : Nat) : datasetErrs env h s n ≠ .error .runtimeError := by
  unfold datasetErrs
  have h1 := baseErrs_rt env h s n
  cases hb : baseErrs env h s n with
  | error e => rw [hb] at h1; exact h1
  | ok l1 =>
    simp only
    have h2 : (if s.dtype = .any then .ok [] else dtypeErrs s.label (h n).loc s.dtype (h n).data) ≠ .error .runtimeError := by
      split
      · simp
      · exact dtypeErrs_rt _ _ _ _
    cases hd : (if s.dtype = .any then .ok [] else dtypeErrs s.label (h n).loc s.dtype (h n).data) with
    | error e => rw [hd] at h2; exact h2
    | ok l2 =>
      simp only
      have h3 := shapeErrs_rt s.label (h n).loc s.shape (h n).data
      cases hs : shapeErrs s.label (h n).loc s.shape (h n).data with
      | error e => rw [hs] at h3; simpa [hs] using h3
      | ok l3 => simp

theorem assign_rt (valid : Valid) (st : St) (cs : List Child) : assign valid st cs ≠ .error .runtimeError := by
  have hf : ∀ s c, fit valid s c ≠ .error .runtimeError := by
    intro s c
    unfold fit
    split
    · cases s.type with
      | none => simp
      | some t => simp only; cases valid t <;> simp
    · simp
  have hc : ∀ c ms i, candidates valid c ms i ≠ .error .runtimeError := by
    intro c ms
    induction ms with
    | nil => intro i; simp [candidates]
    | cons m ms ih =>
      intro i
      obtain ⟨s, l⟩ := m
      simp only [candidates]
      have h1 := hf s c
      cases hg : fit valid s c with
      | error e => rw [hg] at h1; simpa using h1
      | ok b =>
        have h2 := ih (i + 1)
        cases hx : candidates valid c ms (i + 1) with
        | error e => rw [hx] at h2; simpa [hx] using h2
        | ok r => simp
  induction cs generalizing st with
  | nil => simp [assign]
  | cons c cs ih =>
    simp only [assign, step]
    have h1 := hc c st.matches_ 0
    cases hg : candidates valid c st.matches_ 0 with
    | error e => rw [hg] at h1; simpa [hg] using h1
    | ok r => cases hb : best r <;> simp only [hb] <;> exact ih _

theorem typeSpec_rt (env : Env) (t : String) : typeSpec env t ≠ .error .runtimeError := by
  unfold typeSpec
  cases env.spec t <;> simp

theorem children_ref {h : Heap} {n : Nat} {c : Child} (hc : c ∈ children h n) : ∃ x ∈ (h n).children, x.2.1 = c.ref := by
  simp only [children, List.mem_map] at hc
  obtain ⟨x, hx, rfl⟩ := hc
  exact ⟨x, hx, rfl⟩

/-- **C108 (depth).** For all specs and all builders, if the builders do not contain or link to themselves (some measure decreases from
every builder to its children and the targets of its links), validation does not fail with a RecursionError on a stack deeper than that. -/
theorem C108_terminates {env : Env} {h : Heap} {rank : Nat → Nat} (hr : ∀ n, ∀ c ∈ (h n).children, rank c.2.1 < rank n)
    (s : Spec) (n f : Nat) (hf : rank n < f) : validate env h f s n ≠ .error .runtimeError := by
  induction f generalizing s n with
  | zero => omega
  | succ f ih =>
    rw [validate]
    cases hk : s.kind with
    | link => simp
    | dataset =>
      simp only
      split
      · simp
      · exact datasetErrs_rt _ _ _ _
    | group =>
      simp only
      split
      · simp
      · have h1 := baseErrs_rt env h s n
        cases hb : baseErrs env h s n with
        | error e => rw [hb] at h1; exact h1
        | ok l =>
          have h2 : childrenErrs env h (validate env h f) s n ≠ .error .runtimeError := by
            unfold childrenErrs
            have ha' := assign_rt env.valid (init (s.subs.map Spec.sub)) (children h n)
            cases ha : assign env.valid (init (s.subs.map Spec.sub)) (children h n) with
            | error e => rw [ha] at ha'; simpa using ha'
            | ok st =>
              obtain ⟨g1, g2, -, -⟩ := C45_assignment ha
              apply collect_rt
              intro m hm
              have hin : (m.1.sub, m.2) ∈ st.matches_ := by
                rw [← zip_sub g1]; exact List.mem_map_of_mem (f := fun m : Spec × List Child => (m.1.sub, m.2)) hm
              unfold subErrs
              have hcc : collect (childErrs env (validate env h f) (h n).loc m.1) m.2 ≠ .error .runtimeError := by
                apply collect_rt
                intro c hcm
                have hcn : c ∈ children h n := g2.subset (by
                  simp only [List.mem_append, List.mem_flatMap]
                  exact Or.inr ⟨_, hin, hcm⟩)
                obtain ⟨x, hx, hxe⟩ := children_ref hcn
                have hrk := hr n x hx
                rw [hxe] at hrk
                unfold childErrs
                split
                · simp
                · apply collect_rt
                  intro e _
                  cases e with
                  | ok s' => exact ih s' c.ref (by omega)
                  | error x =>
                    rename_i hmem
                    simp only [childSpecs, List.mem_append, List.mem_map, Option.mem_toList] at hmem
                    rcases hmem with (⟨t, -, ht⟩ | ⟨t, -, ht⟩) | ht
                    · simp only [applySpec]; intro hc'; exact typeSpec_rt env t (by rw [ht]; simpa using hc')
                    · simp only [applySpec]; intro hc'; exact typeSpec_rt env t (by rw [ht]; simpa using hc')
                    · split at ht <;> simp at ht
              cases hx : collect (childErrs env (validate env h f) (h n).loc m.1) m.2 with
              | error e => rw [hx] at hcc; exact hcc
              | ok l' => simp
          cases hc : childrenErrs env h (validate env h f) s n with
          | error e => rw [hc] at h2; simpa [hc] using h2
          | ok l' => simp

/-! ## The list of errors -/

theorem collect_ok {α : Type} {go : α → Except Err (List VErr)} {l : List α} {es : List VErr} (h : collect go l = .ok es) :
    (∀ x ∈ l, ∃ r, go x = .ok r ∧ ∀ e ∈ r, e ∈ es) ∧ ∀ e ∈ es, ∃ x ∈ l, ∃ r, go x = .ok r ∧ e ∈ r := by
  induction l generalizing es with
  | nil => simp only [collect, Except.ok.injEq] at h; subst h; simp
  | cons x xs ih =>
    simp only [collect] at h
    cases h1 : go x with
    | error e => simp [h1] at h
    | ok r =>
      simp only [h1] at h
      cases h2 : collect go xs with
      | error e => simp [h2] at h
      | ok r' =>
        simp only [h2, Except.ok.injEq] at h
        subst h
        obtain ⟨g1, g2⟩ := ih h2
        constructor
        · intro y hy
          rcases List.mem_cons.1 hy with rfl | hy
          · exact ⟨r, h1, fun e he => by simp [he]⟩
          · obtain ⟨q, hq, hq'⟩ := g1 y hy
            exact ⟨q, hq, fun e he => by simp [hq' e he]⟩
        · intro e he
          rcases List.mem_append.1 he with he | he
          · exact ⟨x, by simp, r, h1, he⟩
          · obtain ⟨y, hy, q, hq, hq'⟩ := g2 e he
            exact ⟨y, by simp [hy], q, hq, hq'⟩

/-- what a successful validation of a group consists of -/
theorem group_ok {env : Env} {h : Heap} {f : Nat} {s : Spec} {n : Nat} {es : List VErr} (hk : s.kind = .group)
    (hv : validate env h (f + 1) s n = .ok es) : ∃ l l' st, baseErrs env h s n = .ok l ∧
      assign env.valid (init (s.subs.map Spec.sub)) (children h n) = .ok st ∧
      collect (subErrs env (validate env h f) s (h n).loc) (s.subs.zip (st.matches_.map Prod.snd)) = .ok l' ∧ es = dedupe [] (l ++ l') := by
  simp only [validate, hk] at hv
  split at hv
  · simp at hv
  · cases hb : baseErrs env h s n with
    | error e => simp [hb] at hv
    | ok l =>
      simp only [hb] at hv
      cases hc : childrenErrs env h (validate env h f) s n with
      | error e => simp [hc] at hv
      | ok l' =>
        simp only [hc, Except.ok.injEq] at hv
        unfold childrenErrs at hc
        cases ha : assign env.valid (init (s.subs.map Spec.sub)) (children h n) with
        | error e => simp [ha] at hc
        | ok st => simp only [ha] at hc; exact ⟨l, l', st, rfl, rfl, hc, hv.symm⟩

/-- **C107 (no duplicates).** The errors reported for a group are distinct. -/
theorem C107_distinct {env : Env} {h : Heap} {f : Nat} {s : Spec} {n : Nat} {es : List VErr} (hk : s.kind = .group)
    (hv : validate env h f s n = .ok es) : es.Nodup := by
  cases f with
  | zero => simp [validate] at hv
  | succ f =>
    obtain ⟨l, l', st, -, -, -, rfl⟩ := group_ok hk hv
    exact dedupe_nodup (by simp)

/-- the specs a child fitting a sub-spec is to be checked against -/
def Applies (env : Env) (sub : Spec) (c : Child) (s' : Spec) : Prop :=
  (∃ t, (c.type = some t ∨ sub.type = some t) ∧ env.spec t = some s') ∨ (s' = sub ∧ sub.kind ≠ .link)

/-- **C107 (nothing is lost).** For every child of a group that fits some sub-spec: it is checked against one it fits, either being
reported as an illegal link, or the errors of the child with respect to every spec which applies (its own type, the type asked for, the
sub-spec) all being among the errors reported for the group. -/
theorem C107_included {env : Env} {h : Heap} {f : Nat} {s : Spec} {n : Nat} {es : List VErr} (hk : s.kind = .group)
    (hv : validate env h (f + 1) s n = .ok es) (c : Child) (hc : IsChild h n c) (hfit : ∃ sub ∈ s.subs, Fits env.valid sub.sub c) :
    ∃ sub ∈ s.subs, Fits env.valid sub.sub c ∧
      ((c.link = true ∧ sub.kind ≠ .link ∧ sub.linkable = false ∧ ∃ e ∈ es, e.loc = (h n).loc ∧ e.reason = "illegal use of link") ∨
       ((c.link = true → sub.kind = .link ∨ sub.linkable = true) ∧ ∀ s', Applies env sub c s' →
        ∃ es', validate env h f s' c.ref = .ok es' ∧ ∀ e ∈ es', e ∈ es)) := by
  obtain ⟨l, l', st, -, ha, hz, rfl⟩ := group_ok hk hv
  obtain ⟨h1, h2, h3, h4⟩ := C45_assignment ha
  have hcm : ∃ m ∈ s.subs.zip (st.matches_.map Prod.snd), c ∈ m.2 := by
    have := h2.symm.subset (mem_children.2 hc)
    rcases List.mem_append.1 this with hu | hu
    · obtain ⟨sub, hs, hF⟩ := hfit
      exact absurd hF (h4 c hu _ (List.mem_map_of_mem hs))
    · rw [← zip_flat h1] at hu
      simpa only [List.mem_flatMap] using hu
  obtain ⟨m, hm, hcm⟩ := hcm
  have hin : (m.1.sub, m.2) ∈ st.matches_ := by
    rw [← zip_sub h1]; exact List.mem_map_of_mem (f := fun m : Spec × List Child => (m.1.sub, m.2)) hm
  have hsub : m.1 ∈ s.subs := by rw [← zip_fst h1]; exact List.mem_map_of_mem hm
  refine ⟨m.1, hsub, h3 _ hin c hcm, ?_⟩
  obtain ⟨r, hr, hrs⟩ := (collect_ok hz).1 m hm
  have hrs' : ∀ e ∈ r, e ∈ dedupe [] (l ++ l') := fun e he => dedupe_mem.2 (Or.inr (by simp [hrs e he]))
  unfold subErrs at hr
  cases hcc : collect (childErrs env (validate env h f) (h n).loc m.1) m.2 with
  | error e => simp [hcc] at hr
  | ok q =>
    simp only [hcc, Except.ok.injEq] at hr
    subst hr
    obtain ⟨r', hr', hrr⟩ := (collect_ok hcc).1 c hcm
    have hrr' : ∀ e ∈ r', e ∈ dedupe [] (l ++ l') := fun e he => hrs' e (by simp [hrr e he])
    unfold childErrs at hr'
    split at hr'
    · rename_i hl
      simp only [Except.ok.injEq] at hr'
      subst hr'
      exact Or.inl ⟨hl.1, hl.2.1, hl.2.2, ⟨m.1.label, (h n).loc, "illegal use of link"⟩, hrr' _ (by simp), rfl, rfl⟩
    · rename_i hl
      right
      constructor
      · intro hcl
        by_cases hkl : m.1.kind = .link
        · exact Or.inl hkl
        · right
          cases hb : m.1.linkable with
          | true => rfl
          | false => exact absurd ⟨hcl, hkl, hb⟩ hl
      · intro s' hs'
        have hmem : (.ok s' : Except Err Spec) ∈ childSpecs env m.1 c.type := by
          simp only [childSpecs, List.mem_append, List.mem_map, Option.mem_toList]
          rcases hs' with ⟨t, ht, hts⟩ | ⟨rfl, hkl⟩
          · have : typeSpec env t = .ok s' := by simp [typeSpec, hts]
            rcases ht with ht | ht
            · exact Or.inl (Or.inl ⟨t, ht, this⟩)
            · exact Or.inl (Or.inr ⟨t, ht, this⟩)
          · right; simp [hkl]
        obtain ⟨es', he, hi⟩ := (collect_ok hr').1 _ hmem
        exact ⟨es', he, fun e h' => hrr' e (hi e h')⟩

/-- where an error about a builder and a spec is located: at the builder or at one of the attributes of the spec -/
def LocatedAt (h : Heap) (x : Spec × Nat) (e : VErr) : Prop :=
  e.loc = (h x.2).loc ∨ ∃ a ∈ x.1.attrs, e.loc = (h x.2).loc ++ "." ++ a.name

theorem dtypeErrs_loc {name loc : String} {d : DDtype} {v : Val} {es : List VErr} (h : dtypeErrs name loc d v = .ok es) :
    ∀ e ∈ es, e.loc = loc := by
  unfold dtypeErrs at h
  split at h
  · simp at h
  · simp only [Except.ok.injEq] at h; subst h; simp
  · split at h
    · simp at h
    · simp only [Except.ok.injEq] at h; subst h; simp
    · simp only [Except.ok.injEq] at h; subst h; simp

theorem shapeErrs_loc {name loc : String} {s : SShape} {v : Val} {es : List VErr} (h : shapeErrs name loc s v = .ok es) :
    ∀ e ∈ es, e.loc = loc := by
  unfold shapeErrs at h
  split at h
  · simp at h
  · simp only [Except.ok.injEq] at h; subst h; simp
  · split at h <;> (simp only [Except.ok.injEq] at h; subst h; simp)

theorem attrDtypeErrs_loc {env : Env} {h : Heap} {loc : String} {a : AttrSpec} {v : Val} {es : List VErr}
    (he : attrDtypeErrs env h loc a v = .ok es) : ∀ e ∈ es, e.loc = loc := by
  unfold attrDtypeErrs at he
  split at he
  · simp at he
  · exact dtypeErrs_loc he
  · split at he
    · split at he
      · simp at he
      · split at he
        · simp at he
        · split at he <;> (simp only [Except.ok.injEq] at he; subst he; simp)
    · split at he
      · simp at he
      · simp only [Except.ok.injEq] at he; subst he; simp
      · simp only [Except.ok.injEq] at he; subst he; simp

theorem baseErrs_loc {env : Env} {h : Heap} {s : Spec} {n : Nat} {es : List VErr} (hb : baseErrs env h s n = .ok es) :
    ∀ e ∈ es, LocatedAt h (s, n) e := by
  intro e he
  obtain ⟨a, ha, r, hr, her⟩ := (collect_ok hb).2 e he
  unfold attrErrs at hr
  split at hr
  · simp only [Except.ok.injEq] at hr
    subst hr
    split at her
    · simp only [List.mem_cons, List.not_mem_nil, or_false] at her
      subst her
      exact Or.inl rfl
    · simp at her
  · right
    refine ⟨a, ha, ?_⟩
    unfold attrValueErrs at hr
    split at hr
    · simp at hr
    · rename_i l hl
      split at hr
      · simp at hr
      · rename_i l' hl'
        simp only [Except.ok.injEq] at hr
        subst hr
        rcases List.mem_append.1 her with her | her
        · exact attrDtypeErrs_loc hl e her
        · exact shapeErrs_loc hl' e her

theorem datasetErrs_loc {env : Env} {h : Heap} {s : Spec} {n : Nat} {es : List VErr} (hd : datasetErrs env h s n = .ok es) :
    ∀ e ∈ es, LocatedAt h (s, n) e := by
  unfold datasetErrs at hd
  split at hd
  · simp at hd
  · rename_i l1 h1
    split at hd
    · simp at hd
    · rename_i l2 h2
      split at hd
      · simp at hd
      · rename_i l3 h3
        simp only [Except.ok.injEq] at hd
        subst hd
        intro e he
        simp only [List.mem_append] at he
        rcases he with (he | he) | he
        · exact baseErrs_loc h1 e he
        · split at h2
          · simp only [Except.ok.injEq] at h2; subst h2; simp at he
          · exact Or.inl (dtypeErrs_loc h2 e he)
        · exact Or.inl (shapeErrs_loc h3 e he)

/-- **C107 (located).** Every error reported is about one of the builders below the one validated, met by following the sub-specs and the
types, and its location is the path of that builder or of an attribute of it. -/
theorem C107_located {env : Env} {h : Heap} {f : Nat} {s : Spec} {n : Nat} {es : List VErr} (hv : validate env h f s n = .ok es) :
    ∀ e ∈ es, ∃ x, Visits env h (s, n) x ∧ LocatedAt h x e := by
  induction f generalizing s n es with
  | zero => simp [validate] at hv
  | succ f ih =>
    cases hk : s.kind with
    | link => simp [validate, hk] at hv
    | dataset =>
      simp only [validate, hk] at hv
      split at hv
      · simp at hv
      · intro e he
        exact ⟨_, .refl, datasetErrs_loc hv e he⟩
    | group =>
      obtain ⟨l, l', st, hb, ha, hz, rfl⟩ := group_ok hk hv
      obtain ⟨h1, h2, h3, h4⟩ := C45_assignment ha
      intro e he
      rcases dedupe_mem.1 he with he | he
      · simp at he
      rcases List.mem_append.1 he with he | he
      · exact ⟨_, .refl, baseErrs_loc hb e he⟩
      · obtain ⟨m, hm, r, hr, her⟩ := (collect_ok hz).2 e he
        have hin : (m.1.sub, m.2) ∈ st.matches_ := by
          rw [← zip_sub h1]; exact List.mem_map_of_mem (f := fun m : Spec × List Child => (m.1.sub, m.2)) hm
        have hsub : m.1 ∈ s.subs := by rw [← zip_fst h1]; exact List.mem_map_of_mem hm
        unfold subErrs at hr
        cases hcc : collect (childErrs env (validate env h f) (h n).loc m.1) m.2 with
        | error e => simp [hcc] at hr
        | ok q =>
          simp only [hcc, Except.ok.injEq] at hr
          subst hr
          rcases List.mem_append.1 her with her | her
          · refine ⟨_, .refl, Or.inl ?_⟩
            unfold countErrs at her
            split at her
            · simp at her
            · split at her <;> (simp only [List.mem_cons, List.not_mem_nil, or_false] at her; subst her; rfl)
            · simp only [List.mem_cons, List.not_mem_nil, or_false] at her; subst her; rfl
          · obtain ⟨c, hcm, r', hr', her'⟩ := (collect_ok hcc).2 e her
            have hcn : c ∈ children h n := h2.subset (by
              simp only [List.mem_append, List.mem_flatMap]
              exact Or.inr ⟨_, hin, hcm⟩)
            unfold childErrs at hr'
            split at hr'
            · simp only [Except.ok.injEq] at hr'
              subst hr'
              simp only [List.mem_cons, List.not_mem_nil, or_false] at her'
              subst her'
              exact ⟨_, .refl, Or.inl rfl⟩
            · obtain ⟨x, hx, r'', hr'', her''⟩ := (collect_ok hr').2 e her'
              cases x with
              | error y => simp [applySpec] at hr''
              | ok s' =>
                simp only [applySpec] at hr''
                obtain ⟨y, hy, hL⟩ := ih hr'' e her''
                refine ⟨y, .head ⟨m.1, hsub, c, mem_children.1 hcn, h3 _ hin c hcm, rfl, ?_⟩ hy, hL⟩
                simp only [childSpecs, List.mem_append, List.mem_map, Option.mem_toList] at hx
                have ht : ∀ t, typeSpec env t = .ok s' → env.spec t = some s' := by
                  intro t h'
                  unfold typeSpec at h'
                  cases hsp : env.spec t with
                  | none => simp [hsp] at h'
                  | some s'' => simpa [hsp] using h'
                rcases hx with (⟨t, htt, hts⟩ | ⟨t, htt, hts⟩) | hx
                · exact Or.inl ⟨t, Or.inl htt, ht t hts⟩
                · exact Or.inl ⟨t, Or.inr htt, ht t hts⟩
                · split at hx
                  · simp at hx
                  · rename_i hkl
                    simp only [List.mem_cons, List.not_mem_nil, or_false, Except.ok.injEq] at hx
                    exact Or.inr ⟨hx, hkl⟩

/-! ## Concrete cases -/

def okIs (r : Except Err (List VErr)) (es : List VErr) : Bool :=
  match r with
  | .ok l => l = es
  | .error _ => false

def errIs (r : Except Err (List VErr)) (e : Err) : Bool :=
  match r with
  | .ok _ => false
  | .error e' => e' = e

/-- a dataset `data` of integers in one dimension -/
def dataSpec : Spec := ⟨.dataset, some "data", none, .num 1, true, [], .simple "int", .dims [none], []⟩

/-- a type with an integer attribute `x` and a dataset `data` -/
def baseSpec : Spec := ⟨.group, none, some "Base", .num 1, true, [⟨"x", true, .simple "int", .any, none⟩], .any, .any, [dataSpec]⟩

/-- a type with any number of `Base` in it, a required attribute `to` referring to a `Base`, and a link `main` to one -/
def boxSpec : Spec :=
  ⟨.group, none, some "Box", .num 1, true, [⟨"to", true, .ref "object" "Base", .any, none⟩], .any, .any,
   [⟨.group, none, some "Base", .str "*", true, [], .any, .any, []⟩, ⟨.link, some "main", some "Base", .str "?", true, [], .any, .any, []⟩]⟩

/-- a type with an optional link `next` to itself -/
def loopSpec : Spec := ⟨.group, none, some "Loop", .num 1, true, [], .any, .any, [⟨.link, some "next", some "Loop", .str "?", true, [], .any, .any, []⟩]⟩

/-- an untyped group `g` in a group -/
def holdSpec : Spec := ⟨.group, none, some "Hold", .num 1, true, [], .any, .any, [⟨.group, some "g", none, .str "?", true, [], .any, .any, []⟩]⟩

def exEnv : Env where
  spec t := if t = "Base" then some baseSpec else if t = "Box" then some boxSpec else if t = "Loop" then some loopSpec
    else if t = "Hold" then some holdSpec else none
  valid t := if t = "Base" then some ["Base"] else if t = "Box" then some ["Box"] else if t = "Loop" then some ["Loop"]
    else if t = "Hold" then some ["Hold"] else none
  hierarchy t := [t]

/-- a `Box` 0 with two `Base` 1 and 2 with datasets 3 and 4 -/
def exHeap (x2 : Val) (d4 : Val) : Heap := fun n => match n with
  | 0 => ⟨true, some "Box", "box", [("to", .builder 1)], .list [], [("a", 1, false), ("b", 2, false)]⟩
  | 1 => ⟨true, some "Base", "box/a", [("x", .atom (.num "int64"))], .list [], [("data", 3, false)]⟩
  | 2 => ⟨true, some "Base", "box/b", [("x", x2)], .list [], [("data", 4, false)]⟩
  | 3 => ⟨false, none, "box/a/data", [], .list [.atom (.num "int64"), .atom (.num "int64")], []⟩
  | 4 => ⟨false, none, "box/b/data", [], d4, []⟩
  | _ => ⟨false, none, "", [], .list [], []⟩

/-- non-vacuity of `C106_sound`: the box is valid -/
example : okIs (validate exEnv (exHeap (.atom (.num "int32")) (.nd [3] (.num "int32"))) 10 boxSpec 0) [] = true := by decide +kernel

/-- non-vacuity of `C107`: with a text for `x` and floats for `data` in `b` there are two errors, though they are found three times -/
example : okIs (validate exEnv (exHeap (.atom (.str false)) (.nd [3] (.num "float64"))) 10 boxSpec 0)
    [⟨"x", "box/b.x", "incorrect type - expected 'int', got 'utf'"⟩,
     ⟨"data", "box/b/data", "incorrect type - expected 'int', got 'float64'"⟩] = true := by decide +kernel

/-- **C108 fails** for cycles of links, which files may contain: a group whose link leads back to itself makes validation exhaust the
stack, however deep. -/
theorem C108_cycle_fails : ∀ f, validate exEnv (fun _ => ⟨true, some "Loop", "l", [], .list [], [("next", 0, true)]⟩) f loopSpec 0 =
    .error .runtimeError := by
  intro f
  induction f with
  | zero => rfl
  | succ f ih =>
    have hc : ∀ go : Spec → Nat → Except Err (List VErr), go loopSpec 0 = .error .runtimeError →
        childrenErrs exEnv (fun _ => ⟨true, some "Loop", "l", [], .list [], [("next", 0, true)]⟩) go loopSpec 0 = .error .runtimeError := by
      intro go hgo
      have ha : assign exEnv.valid (init (loopSpec.subs.map Spec.sub))
          (children (fun _ => ⟨true, some "Loop", "l", [], .list [], [("next", 0, true)]⟩) 0) =
          .ok ⟨[(⟨some "next", some "Loop", .str "?"⟩, [⟨"next", some "Loop", 0, true⟩])], []⟩ := by rfl
      unfold childrenErrs
      rw [ha]
      have hs : exEnv.spec "Loop" = some loopSpec := by rfl
      simp [loopSpec, collect, subErrs, childErrs, childSpecs, typeSpec]
      rw [hs]
      simp [applySpec, hgo]
    simp only [validate]
    rw [hc _ ih]
    rfl

/-- non-vacuity of `C106_complete_partial`: nothing is ambiguous below `a` -/
example : ∀ s' n', Visits exEnv (exHeap (.atom (.num "int32")) (.nd [3] (.num "int32"))) (baseSpec, 1) (s', n') →
    Plain exEnv (exHeap (.atom (.num "int32")) (.nd [3] (.num "int32"))) s' n' := by
  intro s' n' hv
  have : (s', n') = (baseSpec, 1) ∨ (s', n') = (dataSpec, 3) := by
    generalize hy : (s', n') = y at hv
    clear hy
    induction hv with
    | refl => exact Or.inl rfl
    | tail _ hn ih =>
      obtain ⟨sub, hs, c, hc, hF, hr, hx⟩ := hn
      rcases ih with rfl | rfl
      · simp only [baseSpec, List.mem_cons, List.not_mem_nil, or_false] at hs
        subst hs
        have hct := hc.2
        have hc := hc.1
        simp only [exHeap, List.mem_cons, List.not_mem_nil, or_false, Prod.mk.injEq] at hc
        rcases hx with ⟨t, ht, -⟩ | ⟨h1, -⟩
        · rw [hct, hc.2.1] at ht
          simp [dataSpec, exHeap] at ht
        · right
          exact Prod.ext h1 (by rw [hr, hc.2.1])
      · simp [dataSpec] at hs
  rcases this with h | h
  · simp only [Prod.mk.injEq] at h
    obtain ⟨rfl, rfl⟩ := h
    refine ⟨by simp [baseSpec, SShape.Good], by simp [baseSpec, SShape.Good], by simp [baseSpec, dataSpec, Meaningful],
      by simp [Known, baseSpec, dataSpec, Spec.sub], ?_⟩
    intro c _ i j x x' hi hj _ _
    have : ∀ (k : Nat) y, baseSpec.subs[k]? = some y → k = 0 := by
      intro k y hk
      cases k with
      | zero => rfl
      | succ k => simp [baseSpec] at hk
    rw [this i x hi, this j x' hj]
  · simp only [Prod.mk.injEq] at h
    obtain ⟨rfl, rfl⟩ := h
    refine ⟨by simp [dataSpec], by simp [dataSpec, SShape.Good], by simp [dataSpec], by simp [Known, dataSpec], ?_⟩
    intro c _ i j x x' hi _ _ _
    simp [dataSpec] at hi

/-- non-vacuity of `C108_terminates`: a measure for the box -/
example (x d : Val) : ∀ n, ∀ c ∈ (exHeap x d n).children, (if c.2.1 = 0 then 2 else if c.2.1 ≤ 2 then 1 else 0) <
    (if n = 0 then 2 else if n ≤ 2 then 1 else 0) := by
  intro n
  match n with
  | 0 => simp [exHeap]
  | 1 => simp [exHeap]
  | 2 => simp [exHeap]
  | 3 => simp [exHeap]
  | 4 => simp [exHeap]
  | n + 5 => simp [exHeap]

/-- **C108 fails**: validation may raise instead of reporting: a dataset where the spec has a group of that name (TypeError); a child
of a type that is not in the namespace (ValueError); an attribute spec without a dtype (TypeError); an empty table with compound dtype
(IndexError); an array shape with no dimensions (IndexError); a number for a compound dtype (ValueError). -/
theorem C108_raises_fails :
    errIs (validate exEnv (fun n => match n with
      | 0 => ⟨true, some "Hold", "h", [], .list [], [("g", 1, false)]⟩
      | _ => ⟨false, none, "h/g", [], .list [], []⟩) 10 holdSpec 0) .typeError = true ∧
    errIs (validate exEnv (fun n => match n with
      | 0 => ⟨true, some "Hold", "h", [], .list [], [("g", 1, false)]⟩
      | _ => ⟨true, some "Other", "h/g", [], .list [], []⟩) 10 holdSpec 0) .valueError = true ∧
    errIs (validate exEnv (fun _ => ⟨true, none, "h", [("y", .atom (.num "int64"))], .list [], []⟩) 10
      ⟨.group, none, none, .num 1, true, [⟨"y", true, .missing, .any, none⟩], .any, .any, []⟩ 0) .typeError = true ∧
    errIs (validate exEnv (fun _ => ⟨false, none, "t", [], .compound (some 0) [.num "int64"], []⟩) 10
      ⟨.dataset, none, none, .num 1, true, [], .compound ["int"], .any, []⟩ 0) .indexError = true ∧
    errIs (validate exEnv (fun _ => ⟨false, none, "t", [], .list [], []⟩) 10
      ⟨.dataset, none, none, .num 1, true, [], .any, .dims [], []⟩ 0) .indexError = true ∧
    errIs (validate exEnv (fun _ => ⟨false, none, "t", [], .dset [some 2] "int64", []⟩) 10
      ⟨.dataset, none, none, .num 1, true, [], .compound ["int"], .any, []⟩ 0) .valueError = true := by decide +kernel

/-! ## The same data in memory and in a file -/

/-- nested lists of the given shape with the same element everywhere -/
def nested (a : Atom) : List Nat → Val
  | [] => .atom a
  | n :: ns => .list (List.replicate n (nested a ns))

theorem firstType_replicate (n : Nat) (hn : n ≠ 0) (v : Val) : firstType (List.replicate n v) = getType v := by
  cases n with
  | zero => exact absurd rfl hn
  | succ n => simp [List.replicate_succ, firstType]

theorem nested_type (a : Atom) (dims : List Nat) (h0 : 0 ∉ dims) : getType (nested a dims) = .ok (some a.recv) := by
  induction dims with
  | nil => simp [nested, getType]
  | cons n ns ih =>
    simp only [nested, getType]
    rw [firstType_replicate n (by rintro rfl; simp at h0)]
    exact ih (by simp at h0; exact h0.2)

theorem nested_shape (a : Atom) (hs : ∀ t, a ≠ .object t ∧ a ≠ .region t) (dims : List Nat) (h0 : 0 ∉ dims) :
    elemShape (nested a dims) = dims := by
  induction dims with
  | nil => cases a <;> simp [nested, elemShape] <;> simp at hs
  | cons n ns ih =>
    have hn : n ≠ 0 := by rintro rfl; simp at h0
    simp only [nested, elemShape, List.length_replicate]
    obtain ⟨k, rfl⟩ := Nat.exists_eq_succ_of_ne_zero hn
    simp only [Nat.succ_eq_add_one, List.replicate_succ, firstShape]
    rw [ih (by simp at h0; exact h0)]

/-- the errors about dtype and shape found in data for a spec -/
def dataErrs (name loc : String) (d : DDtype) (s : SShape) (v : Val) : Except Err (List VErr) × Except Err (List VErr) :=
  (dtypeErrs name loc d v, shapeErrs name loc s v)

/-- **C109 (partial).** For all arrays of numbers (of any number of dimensions, none of them empty), specs and locations: the errors about
dtype and shape are the same whether the data is a nest of lists, a numpy array or a dataset of a file which cannot grow.  Not for
datasets which can grow, references or single elements: `C109_fails`. -/
theorem C109_representation_partial (t : String) (dims : List Nat) (hd : dims ≠ []) (h0 : 0 ∉ dims) (name loc : String) (d : String) (s : SShape) :
    dataErrs name loc (.simple d) s (nested (.num t) dims) = dataErrs name loc (.simple d) s (.nd dims (.num t)) ∧
    dataErrs name loc (.simple d) s (.dset (dims.map some) t) = dataErrs name loc (.simple d) s (.nd dims (.num t)) := by
  have hsh : shapeOf (nested (.num t) dims) = some (dims.map some) := by
    cases dims with
    | nil => exact absurd rfl hd
    | cons n ns =>
      have := nested_shape (.num t) (by simp) (n :: ns) h0
      simp only [nested, elemShape] at this
      simp only [nested, shapeOf, this]
  have hsh2 : shapeErrs name loc s (nested (.num t) dims) = shapeErrs name loc s (.nd dims (.num t)) := by
    unfold shapeErrs; rw [hsh]; rfl
  have hsh3 : shapeErrs name loc s (.dset (dims.map some) t) = shapeErrs name loc s (.nd dims (.num t)) := by
    unfold shapeErrs; rfl
  have hnd : getType (.nd dims (.num t)) = .ok (some (.name t false)) := by
    simp [getType, hd, h0, Atom.recv, Atom.type]
  have hne : getType (nested (.num t) dims) = .ok (some (.name t false)) := nested_type _ dims h0
  constructor
  · simp only [dataErrs, hsh2, dtypeErrs, hne, hnd]
  · simp only [dataErrs, hsh3, dtypeErrs, hnd]
    simp only [getType, checkType, showRecv]

/-- non-vacuity, and the check does find errors -/
example : getType (nested (.num "int8") [2, 3]) = .ok (some (.name "int8" false)) ∧
    okIs (dtypeErrs "x" "l" (.simple "int") (.dset [some 2, some 3] "int8")) [⟨"x", "l", "incorrect type - expected 'int', got 'int8'"⟩] = true :=
  ⟨nested_type _ _ (by simp), by decide +kernel⟩

/-- **C109 fails**: a dataset of length 3 that can grow is reported as of the wrong shape for a spec of length 3; a reference to a
builder of the right type is reported as of the wrong type as long as it is not read from a file; and a list of two references is
reported as of the wrong shape for a spec of length 2. -/
theorem C109_fails :
    okIs (shapeErrs "x" "l" (.dims [some 3]) (.nd [3] (.num "int64"))) [] = true ∧
    okIs (shapeErrs "x" "l" (.dims [some 3]) (.dset [none] "int64")) [⟨"x", "l", "incorrect shape - expected '(3)', got '(None)'"⟩] = true ∧
    okIs (attrDtypeErrs exEnv (exHeap (.list []) (.list [])) "l" ⟨"to", true, .ref "object" "Base", .any, none⟩ (.builder 1)) [] = true ∧
    okIs (attrDtypeErrs exEnv (exHeap (.list []) (.list [])) "l" ⟨"to", true, .ref "object" "Base", .any, none⟩ (.atom (.object 1)))
      [⟨"to", "l", "incorrect type - expected 'object reference', got 'object'"⟩] = true ∧
    okIs (shapeErrs "x" "l" (.dims [some 2]) (.resolver [some 2] "object")) [] = true ∧
    okIs (shapeErrs "x" "l" (.dims [some 2]) (.list [.atom (.object 1), .atom (.object 1)]))
      [⟨"x", "l", "incorrect shape - expected '(2)', got '(2, 1)'"⟩] = true := by decide +kernel

/-- **C110 fails** for every spec and builder: the fixed value of an attribute is not looked at. -/
theorem C110_value_fails (env : Env) (h : Heap) (n : Nat) (a : AttrSpec) (value : Option String) :
    attrErrs env h n { a with value := value } = attrErrs env h n a := rfl

/-- **C110 fails** for lists: all elements but the first may be anything. -/
theorem C110_elements_fails (name loc : String) (d : DDtype) (v : Val) (l : List Val) :
    dtypeErrs name loc d (.list (v :: l)) = dtypeErrs name loc d (.list [v]) := rfl

/-- for instance, a text in a list of integers -/
example : okIs (dtypeErrs "x" "l" (.simple "int") (.list [.atom (.num "int64"), .atom (.str false)])) [] = true := by decide +kernel

/-- two types without contents, and a type that asks for one `Base` and one `Derived` -/
def oneBase : Spec := ⟨.group, none, some "Base", .num 1, true, [], .any, .any, []⟩
def oneDerived : Spec := ⟨.group, none, some "Derived", .num 1, true, [], .any, .any, []⟩
def pairSpec : Spec := ⟨.group, none, some "Pair", .num 1, true, [], .any, .any, [oneBase, oneDerived]⟩

def pairEnv : Env where
  spec t := if t = "Base" then some oneBase else if t = "Derived" then some oneDerived else if t = "Pair" then some pairSpec else none
  valid t := if t = "Base" then some ["Base", "Derived"] else if t = "Derived" then some ["Derived"]
    else if t = "Pair" then some ["Pair"] else none
  hierarchy t := if t = "Derived" then ["Derived", "Base"] else [t]

/-- a `Pair` with a `Derived` before a `Base` -/
def pairHeap : Heap := fun n => match n with
  | 0 => ⟨true, some "Pair", "pair", [], .list [], [("a", 1, false), ("b", 2, false)]⟩
  | 1 => ⟨true, some "Derived", "pair/a", [], .list [], []⟩
  | 2 => ⟨true, some "Base", "pair/b", [], .list [], []⟩
  | _ => ⟨false, none, "", [], .list [], []⟩

/-- **C106 fails** (completeness) where sub-specs overlap: the group holds one `Base` and one `Derived`, as the spec asks, but the
`Derived`, which comes first, is counted as the `Base`. -/
theorem C106_complete_fails : Conforms pairEnv pairHeap pairSpec 0 ∧
    ∀ f, okIs (validate pairEnv pairHeap (f + 2) pairSpec 0)
      [⟨"Pair", "pair", "expected a quantity of 1 for data type Base, received 2"⟩, ⟨"Pair", "pair", "missing data type Derived"⟩] = true := by
  have leaf : ∀ s n, s.kind = .group → s.attrs = [] → s.subs = [] → (pairHeap n).isGroup = true → (pairHeap n).children = [] →
      Conforms pairEnv pairHeap s n := by
    intro s n hk ha hs hg hc
    refine .group [] hk hg (by simp [AttrsOk, ha]) ⟨by simp [hs], ⟨[], by simp [hc]⟩, by simp, by simp⟩ ?_ ?_ ?_ ?_ <;> simp
  constructor
  · refine .group [(oneBase, [⟨"b", some "Base", 2, false⟩]), (oneDerived, [⟨"a", some "Derived", 1, false⟩])] rfl rfl
      (by simp [AttrsOk, pairSpec]) ⟨rfl, ⟨[], ?_, ?_, by simp⟩, ?_, ?_⟩ ?_ ?_ ?_ ?_
    · exact List.Perm.swap _ _ _
    · simp [pairHeap]
    · simp [Fits, oneBase, oneDerived, Spec.sub, pairEnv]
    · simp [oneBase, oneDerived, Allowed]
    · simp
    · simp [pairEnv, oneBase, oneDerived]
    · intro m hm c hc t s' ht hs'
      have hs : s' = oneBase ∨ s' = oneDerived ∨ t = "Pair" := by
        simp only [pairEnv] at hs'
        split at hs'
        · left; simpa using hs'.symm
        · split at hs'
          · right; left; simpa using hs'.symm
          · split at hs'
            · right; right; assumption
            · cases hs'
      have hcr : (pairHeap c.ref).isGroup = true ∧ (pairHeap c.ref).children = [] ∧ t ≠ "Pair" := by
        simp only [List.mem_cons, List.not_mem_nil, or_false] at hm
        rcases hm with rfl | rfl <;> simp only [List.mem_cons, List.not_mem_nil, or_false] at hc <;> subst hc <;>
          simp [oneBase, oneDerived, pairHeap] at ht ⊢
        · subst ht; decide
        · subst ht; decide
      rcases hs with rfl | rfl | h
      · exact leaf _ _ rfl rfl rfl hcr.1 hcr.2.1
      · exact leaf _ _ rfl rfl rfl hcr.1 hcr.2.1
      · exact absurd h hcr.2.2
    · intro m hm c hc _
      simp only [List.mem_cons, List.not_mem_nil, or_false] at hm
      rcases hm with rfl | rfl <;> simp only [List.mem_cons, List.not_mem_nil, or_false] at hc <;> subst hc <;>
        exact leaf _ _ rfl rfl rfl rfl rfl
  · intro f
    have hr : okIs (validate pairEnv pairHeap 2 pairSpec 0)
      [⟨"Pair", "pair", "expected a quantity of 1 for data type Base, received 2"⟩, ⟨"Pair", "pair", "missing data type Derived"⟩] = true := by
      decide +kernel
    rw [validate_le (f := 2) ?_ (by omega)]
    · exact hr
    · intro he
      rw [he] at hr
      cases hr

end Verif.Validate

import Verif.Lemmas.ClassGenAccept
import Verif.Lemmas.ClassGenSound

/-!
# C161–C165: classes generated from specifications
-/

namespace Verif.ClassGen
open Verif

variable {V : Type}

/-- the specifications a class is generated from, that of the class first -/
def specs : Cls V → List (TSpec V)
  | .container => []
  | .gen p s => s :: specs p

/-- the fields of a class are those of its specifications that are not inherited; groups without a type and fields called `help` are left out -/
theorem mem_declared {c : Cls V} {x : String} {f : FSpec V} :
    (x, f) ∈ declared c ↔ ∃ s ∈ specs c, (x, f) ∈ s.attrs ∧ x ≠ "help" ∧ f.untypedGroup = false ∧ f.inherited = false := by
  induction c with
  | container => simp [declared, specs]
  | gen p s ih =>
    unfold declared specs
    rw [List.mem_append, ih]
    have : (x, f) ∈ newFields s ↔ (x, f) ∈ s.attrs ∧ x ≠ "help" ∧ f.untypedGroup = false ∧ f.inherited = false := by
      unfold newFields
      rw [List.mem_filter]
      simp [and_assoc]
    rw [this]
    constructor
    · rintro (⟨t, ht, h⟩ | h)
      · exact ⟨t, List.mem_cons_of_mem _ ht, h⟩
      · exact ⟨s, by simp, h⟩
    · rintro ⟨t, ht, h⟩
      rcases List.mem_cons.1 ht with e | ht
      · subst e; exact .inr h
      · exact .inl ⟨t, ht, h⟩

/-! ## Classes to try things on -/

namespace Ex

/-- a field of text -/
def text (opt : Bool) (value : Option (Val String)) (dflt : Val String) : FSpec String :=
  ⟨false, false, [(!opt, false), (true, true)], value, dflt, false, fun v => match v with
    | .one _ none => true
    | _ => false, none⟩

/-- a field of one or many containers -/
def conts (opt many : Bool) (req : Option String) : FSpec String :=
  ⟨false, false, [(!opt, false), (true, true)], none, .none, many, fun v => match v with
    | .one _ (some _) => true
    | _ => false, req⟩

/-- a type with a required field, an optional one with a default, and one with a fixed value -/
def base : Cls String := .gen .container ⟨none, some "base", [("a", text false none .none), ("b", text true none (.one "x" none)),
  ("c", text true (some (.one "fix" none)) .none), ("help", text false none .none)]⟩

/-- a type derived from it that has containers -/
def sub : Cls String := .gen base ⟨none, none, [("a", ⟨true, false, [(true, false)], none, .none, false, fun _ => true, none⟩), ("ds", conts false true none),
  ("e", conts true false (some "e"))]⟩

theorem sub_clean : Clean sub := by
  refine ⟨by decide +kernel, by decide +kernel, ?_⟩
  intro q hq hm
  have : declared sub = [("a", text false none .none), ("b", text true none (.one "x" none)), ("c", text true (some (.one "fix" none)) .none),
    ("ds", conts false true none), ("e", conts true false (some "e"))] := rfl
  rw [this] at hq
  rcases List.mem_cons.1 hq with e | hq
  · rw [e] at hm; cases hm
  rcases List.mem_cons.1 hq with e | hq
  · rw [e] at hm; cases hm
  rcases List.mem_cons.1 hq with e | hq
  · rw [e] at hm; cases hm
  rcases List.mem_cons.1 hq with e | hq
  · rw [e]; rfl
  rcases List.mem_cons.1 hq with e | hq
  · rw [e] at hm; cases hm
  cases hq

/-- arguments for it -/
def kw : Dict String (Val String) := [("a", .one "va" none), ("ds", .many [("d1", "v1"), ("d2", "v2")]), ("e", .one "ve" (some "e"))]

end Ex

/-! ## C161: the arguments of a generated constructor -/

/-- no argument is there twice -/
theorem C161_nodup (c : Cls V) : (c.args.map (fun a => a.name)).Nodup := args_nodup c

/-- the arguments: the name, unless one is fixed, and every field without a fixed value, whatever class of the chain it comes from -/
theorem C161_arguments_partial (c : Cls V) (hc : Clean c) (x : String) : x ∈ c.args.map (fun a => a.name) ↔
    (x = "name" ∧ ∀ s ∈ specs c, s.name = none) ∨
      ∃ s ∈ specs c, ∃ f, (x, f) ∈ s.attrs ∧ x ≠ "help" ∧ f.untypedGroup = false ∧ f.inherited = false ∧ f.value = none := by
  have hfix : ∀ c : Cls V, fixedName c = none ↔ ∀ s ∈ specs c, s.name = none := by
    intro c
    induction c with
    | container => simp [fixedName, specs]
    | gen p s ih =>
      rw [fixedName_gen]
      unfold specs
      simp only [List.mem_cons, forall_eq_or_imp, ← ih]
      cases fixedName p <;> simp
  constructor
  · intro h
    rcases arg_known h with e | ⟨f, hf, ho⟩
    · exact .inl ⟨e, (hfix c).1 ((name_arg_iff hc).1 (e ▸ h))⟩
    · obtain ⟨s, hs, h1, h2, h3, h4⟩ := mem_declared.1 hf
      exact .inr ⟨s, hs, f, h1, h2, h3, h4, open_none hc hf ho⟩
  · rintro (⟨e, h⟩ | ⟨s, hs, f, h1, h2, h3, h4, h5⟩)
    · subst e; exact (name_arg_iff hc).2 ((hfix c).2 h)
    · exact field_argName hc (mem_declared.2 ⟨s, hs, h1, h2, h3, h4⟩) h5

example : Ex.sub.argNames = ["a", "ds", "name", "b", "e"] := by decide +kernel

/-- an argument may be left out exactly if its specification or one around it, up to that of the type, is optional -/
theorem C161_required_partial (c : Cls V) (hc : Clean c) (x : String) (f : FSpec V) (hf : (x, f) ∈ declared c) (hv : f.value = none) :
    ∃ a ∈ c.args, a.name = x ∧ (∀ b ∈ c.args, b.name = x → b = a) ∧
      ((∃ pre own post, f.levels = pre ++ (false, own) :: post ∧ ∀ l ∈ pre, l = (true, false)) → a.dflt = some f.dflt) ∧
      ((¬ ∃ pre own post, f.levels = pre ++ (false, own) :: post ∧ ∀ l ∈ pre, l = (true, false)) → a.dflt = none) := by
  have key : ∀ ls : List (Bool × Bool), optional ls = true ↔ ∃ pre own post, ls = pre ++ (false, own) :: post ∧ ∀ l ∈ pre, l = (true, false) := by
    intro ls
    induction ls with
    | nil => simp [optional]
    | cons l ls ih =>
      obtain ⟨r, o⟩ := l
      unfold optional
      cases r with
      | false => simp only [Bool.false_eq_true, if_false, true_iff]; exact ⟨[], o, ls, rfl, by simp⟩
      | true =>
        simp only [if_true]
        cases o with
        | true =>
          simp only [if_true, Bool.false_eq_true, false_iff]
          rintro ⟨pre, own, post, e, h⟩
          cases pre with
          | nil => cases e
          | cons l pre => cases e; have := h (true, true) (by simp); cases this
        | false =>
          simp only [Bool.false_eq_true, if_false, ih]
          constructor
          · rintro ⟨pre, own, post, e, h⟩
            refine ⟨(true, false) :: pre, own, post, by rw [e]; rfl, ?_⟩
            intro l hl
            rcases List.mem_cons.1 hl with e | hl
            · exact e
            · exact h l hl
          · rintro ⟨pre, own, post, e, h⟩
            cases pre with
            | nil => cases e
            | cons l pre =>
              rw [List.cons_append, List.cons.injEq] at e
              exact ⟨pre, own, post, e.2, fun l hl => h l (List.mem_cons_of_mem _ hl)⟩
  refine ⟨fieldArg x f, fieldArg_mem hc hf hv, rfl, fun b hb e => arg_unique (args_nodup c) hb (fieldArg_mem hc hf hv) e, ?_, ?_⟩
  · intro h
    simp [fieldArg, (key _).2 h]
  · intro h
    have : ¬ optional f.levels = true := fun e => h ((key _).1 e)
    simp [fieldArg, this]

example : ∃ a ∈ Ex.sub.args, a.name = "b" ∧ a.dflt = some (.one "x" none) :=
  let ⟨a, h1, h2, _, h4, _⟩ := C161_required_partial Ex.sub Ex.sub_clean "b" (Ex.text true none (.one "x" none)) (by simp [Ex.sub, Ex.base, declared, newFields, Ex.text, Ex.conts]) rfl
  ⟨a, h1, h2, h4 ⟨[], false, [(true, true)], rfl, by simp⟩⟩

/-- arguments that must be given come before those that may be left out -/
theorem C161_order (p : Cls V) (s : TSpec V) : ∃ req opt, (Cls.gen p s).args = req ++ opt ∧ (∀ a ∈ req, a.dflt = none) ∧ ∀ a ∈ opt, a.dflt ≠ none := by
  refine ⟨_, _, rfl, ?_, ?_⟩
  · intro a ha
    exact Option.isNone_iff_eq_none.1 (List.mem_filter.1 ha).2
  · intro a ha h
    have := (List.mem_filter.1 ha).2
    rw [h] at this
    cases this

example : (Ex.sub.args.map (fun a => a.dflt.isSome)) = [false, false, true, true, true] := by decide +kernel

/-- a required field may be left out if the definition of the type itself has quantity `?` or `*` -/
theorem C161_required_fails : ∃ f : FSpec String, f.levels = [(true, false), (false, true)] ∧
    (Cls.gen .container ⟨none, none, [("a", f)]⟩).args.map (fun a => (a.name, a.dflt)) = [("name", none), ("a", some .none)] :=
  ⟨⟨false, false, [(true, false), (false, true)], none, .none, false, fun _ => true, none⟩, rfl, by decide +kernel⟩

/-- a type that fixes the value of an attribute of its base is ignored: the constructor takes another value -/
theorem C161_override_fails : ∃ (f g : FSpec String), g.value = some (.one "fix" none) ∧
    (match new false false (.gen (.gen .container ⟨none, none, [("a", f)]⟩) ⟨none, none, [("a", g)]⟩)
        [("name", .one "n" none), ("a", .one "other" none)] false with
      | .ok st => Dict.get? st.fields "a"
      | .error _ => none) = some (.plain (.one "other" none)) :=
  ⟨Ex.text false none .none, ⟨true, false, [(true, false), (true, true)], some (.one "fix" none), .none, false, fun _ => true, none⟩, rfl, by decide +kernel⟩

/-! ## C162: what a new object has -/

/-- the value of a field before it is stored: the one given, or the default -/
def given (kw : Dict String (Val V)) (x : String) (f : FSpec V) : Val V := match Dict.get? kw x with
  | some v => v
  | none => f.dflt

/-- every field of every class of the chain has its fixed value, or the value given, or the default; many containers are there by their names; there is nothing
else; and the object has the name that is fixed, or given, or the default -/
theorem C162_fields_partial (common post skip : Bool) (c : Cls V) (kw : Dict String (Val V)) (st : St V) (hc : Clean c)
    (h : new common post c kw skip = .ok st) :
    (∀ x f, (x, f) ∈ declared c →
      (∀ w, f.value = some w → Dict.get? st.fields x = some (.plain w)) ∧
      (f.value = none → given kw x f = .none → Dict.get? st.fields x = none) ∧
      (f.value = none → f.many = false → given kw x f ≠ .none → Dict.get? st.fields x = some (.plain (given kw x f))) ∧
      (f.many = true → ∀ cs, given kw x f = .many cs → Dict.get? st.fields x = some (.dict cs)) ∧
      (f.many = true → ∀ w n, given kw x f = .one w (some n) → Dict.get? st.fields x = some (.dict [(n, w)]))) ∧
    (∀ y, y ∉ (declared c).map (fun p => p.1) → Dict.get? st.fields y = none) ∧
    (∀ v, fixedName c = some v → st.name = .one v none) ∧
    (∀ v, fixedName c = none → Dict.get? kw "name" = some v → st.name = v) ∧
    (∀ v, fixedName c = none → Dict.get? kw "name" = none → defaultName c = some v → st.name = .one v none) := by
  have hg : ∀ x (f : FSpec V), bound kw x f = given kw x f := by
    intro x f
    unfold bound given
    cases Dict.get? kw x <;> rfl
  have hn := init_name hc h
  refine ⟨?_, ?_, ?_, ?_, ?_⟩
  · intro x f hf
    have := init_fields hc (fun q hq => lookup_declared hc hq) h (by simp) (x, f) hf
    simp only [hg] at this
    refine ⟨?_, ?_, ?_, ?_, ?_⟩
    · intro w hw; rw [this, outcome_fixed hw]
    · intro hv hn
      rw [this, hn]
      unfold outcome
      rw [hv]
      cases f.many <;> rfl
    · intro hv hm hne
      rw [this]
      unfold outcome
      rw [hv, hm]
      cases hgv : given kw x f with
      | none => exact (hne hgv).elim
      | one _ _ => rfl
      | many _ => rfl
    · intro hm cs hcs
      rw [this, hcs]
      unfold outcome
      rw [hc.2.2 _ hf hm, hm]
      rfl
    · intro hm w n hcs
      rw [this, hcs]
      unfold outcome
      rw [hc.2.2 _ hf hm, hm]
      rfl
  · intro y hy
    rw [init_other hc h y hy]
    rfl
  · intro v hv; rw [hn, nameOf, hv]
  · intro v hv hk; rw [hn, nameOf, hv]; simp only; rw [boundName, hk]; rfl
  · intro v hv hk hd; rw [hn, nameOf, hv]; simp only; rw [boundName, hk, hd]; rfl

example : (match new false false Ex.sub Ex.kw false with
    | .ok st => some (["a", "b", "c", "ds", "e", "f"].map (Dict.get? st.fields))
    | .error _ => none) = some [some (.plain (.one "va" none)), some (.plain (.one "x" none)), some (.plain (.one "fix" none)),
      some (.dict [("d1", "v1"), ("d2", "v2")]), some (.plain (.one "ve" (some "e"))), none] := by decide +kernel
example : (match new false false Ex.sub Ex.kw false with
    | .ok st => some st.name
    | .error _ => none) = some (.one "base" none) := by decide +kernel

/-- arguments that suit are accepted -/
theorem C162_accepts_partial (common post : Bool) (c : Cls V) (kw : Dict String (Val V)) (hc : Clean c) (h : Accepts common c kw) :
    ∃ st, new common post c kw false = .ok st :=
  init_ok hc (fun _ hq => lookup_declared hc hq) (by simp) h

example : Accepts false Ex.sub Ex.kw := by
  have hd : declared Ex.sub = [("a", Ex.text false none .none), ("b", Ex.text true none (.one "x" none)), ("c", Ex.text true (some (.one "fix" none)) .none),
    ("ds", Ex.conts false true none), ("e", Ex.conts true false (some "e"))] := rfl
  refine ⟨?_, ?_, ?_⟩
  · intro x hx
    rw [hd]
    have hx : x ∈ ["a", "ds", "e"] := hx
    simp only [List.mem_cons, List.not_mem_nil, or_false] at hx
    rcases hx with e | e | e <;> subst e
    · exact .inr ⟨_, List.mem_cons_self, rfl⟩
    · exact .inr ⟨Ex.conts false true none, by simp, rfl⟩
    · exact .inr ⟨Ex.conts true false (some "e"), by simp, rfl⟩
  · intro q hq hv
    rw [hd] at hq
    simp only [List.mem_cons, List.not_mem_nil, or_false] at hq
    rcases hq with e | e | e | e | e <;> subst e
    · exact ⟨fun h => (by cases h), rfl, by simp [Ex.text]⟩
    · exact ⟨fun _ => rfl, rfl, by simp [Ex.text]⟩
    · cases hv
    · exact ⟨fun h => (by cases h), show (Dict.keys [("d1", "v1"), ("d2", "v2")]).Nodup by decide +kernel⟩
    · exact ⟨fun h => (by cases h), rfl, by simp [Ex.conts]⟩
  · exact fun _ => ⟨"base", rfl⟩

/-- an object is made only of arguments that are known, if all that is required is given, and if what is given suits the type of the field -/
theorem C162_checked (common post skip : Bool) (c : Cls V) (kw : Dict String (Val V)) (st : St V) (hc : Clean c) (h : new common post c kw skip = .ok st) :
    (∀ x ∈ Dict.keys kw, x ∈ c.args.map (fun a => a.name)) ∧
    ∀ x f, (x, f) ∈ declared c → f.value = none →
      (Dict.get? kw x = none → optional f.levels = true) ∧
      (Dict.get? kw x = some .none → optional f.levels = true ∧ f.dflt = .none) ∧
      (∀ v n, Dict.get? kw x = some (.one v n) → f.ok (.one v n) = true) ∧
      (∀ cs, Dict.get? kw x = some (.many cs) → f.many = true ∨ f.ok (.many cs) = true) := by
  have hb : ∃ b, bind c.args kw = .ok b := by
    unfold new at h
    cases c with
    | container =>
      unfold init at h
      split at h
      · cases h
      · rename_i b hb; exact ⟨b, hb⟩
    | gen p s => obtain ⟨b, _, _, hb, _⟩ := init_gen hc h; exact ⟨b, hb⟩
  obtain ⟨b, hb⟩ := hb
  obtain ⟨h1, -, h3⟩ := bind_get hb (args_nodup c)
  refine ⟨h1, ?_⟩
  intro x f hf hv
  obtain ⟨v, h4, -⟩ := h3 _ (fieldArg_mem hc hf hv)
  have h4 : bindOne (fieldArg x f) (Dict.get? kw x) = .ok v := h4
  refine ⟨?_, ?_, ?_, ?_⟩
  · intro hk
    rw [hk] at h4
    cases ho : optional f.levels with
    | true => rfl
    | false => simp [bindOne, fieldArg, ho] at h4
  · intro hk
    rw [hk] at h4
    cases ho : optional f.levels with
    | false => simp [bindOne, fieldArg, ho] at h4
    | true =>
      refine ⟨rfl, ?_⟩
      cases hd : f.dflt with
      | none => rfl
      | one _ _ => simp [bindOne, fieldArg, ho, hd] at h4
      | many _ => simp [bindOne, fieldArg, ho, hd] at h4
  · intro w n hk
    rw [hk] at h4
    cases ho : f.ok (.one w n) with
    | true => rfl
    | false => simp [bindOne, fieldArg, ho] at h4
  · intro cs hk
    rw [hk] at h4
    cases hm : f.many with
    | true => exact .inl rfl
    | false =>
      cases ho : f.ok (.many cs) with
      | true => exact .inr rfl
      | false => simp [bindOne, fieldArg, ho, hm] at h4

example : (new false false Ex.sub (Dict.set Ex.kw "b" (.one "y" (some "c"))) false).toOption = none := by decide +kernel

/-- an object is made only if a container for a field with a fixed name has that name, and if many containers have names of their own -/
theorem C162_names (common post skip : Bool) (c : Cls V) (kw : Dict String (Val V)) (st : St V) (hc : Clean c) (h : new common post c kw skip = .ok st)
    (x : String) (f : FSpec V) (hf : (x, f) ∈ declared c) (hv : f.value = none) :
    (∀ r, f.many = false → f.reqName = some r → given kw x f = .none ∨ ∃ w, given kw x f = .one w (some r)) ∧
    (∀ cs, f.many = true → given kw x f = .many cs → (cs.map (fun p => p.1)).Nodup) := by
  have hs := init_sound hc (fun _ hq => lookup_declared hc hq) h x f hf hv
  have hg : bound kw x f = given kw x f := by
    unfold bound given
    cases Dict.get? kw x <;> rfl
  rw [hg] at hs
  refine ⟨?_, ?_⟩
  · intro r hm hr
    have : propOf f = .plain (some r) := by simp [propOf, hm, hv, hr]
    rw [this] at hs
    exact hs
  · intro cs hm hcs
    have : propOf f = .multi := by simp [propOf, hm]
    rw [this, hcs] at hs
    exact hs

example : (new false false Ex.sub (Dict.set Ex.kw "e" (.one "ve" (some "other"))) false) = .error .valueError := by decide +kernel
example : (new false false Ex.sub (Dict.set Ex.kw "ds" (.many [("d", "v1"), ("d", "v2")])) false) = .error .valueError := by decide +kernel

/-- a default that the type of its argument does not take: the class can be made without the argument, a class derived from it cannot -/
theorem C162_default_fails : ∃ (f : FSpec String),
    (new false false (.gen .container ⟨none, none, [("n", f)]⟩) [("name", .one "o" none)] false).toOption.isSome = true ∧
    new false false (.gen (.gen .container ⟨none, none, [("n", f)]⟩) ⟨none, none, []⟩) [("name", .one "o" none)] false = .error .typeError :=
  ⟨⟨false, false, [(false, false), (true, true)], none, .one "1" none, false, fun v => decide (v = .one "int64(1)" none), none⟩,
    by decide +kernel, by decide +kernel⟩

/-- the name fixed by a derived type is ignored if the base has a fixed name -/
theorem C162_name_fails : (match new false false (.gen (.gen .container ⟨some "p", none, []⟩) ⟨some "q", none, []⟩ : Cls String) [] false with
    | .ok st => some st.name
    | .error _ => none) = some (.one "p" none) := by decide +kernel

/-- with the generators of `hdmf.common` a single container for a field of many is refused, though the argument takes it -/
theorem C162_single_fails :
    new true false (.gen .container ⟨none, none, [("ds", Ex.conts false true none)]⟩) [("name", .one "o" none), ("ds", .one "v" (some "d"))] false = .error .typeError ∧
    (new false false (.gen .container ⟨none, none, [("ds", Ex.conts false true none)]⟩) [("name", .one "o" none), ("ds", .one "v" (some "d"))] false).toOption.isSome = true := by
  exact ⟨by decide +kernel, by decide +kernel⟩

/-- a field called like a property of `Container` that cannot be set -/
theorem C162_readonly_fails :
    new false false (.gen .container ⟨none, none, [("children", Ex.text false none .none)]⟩) [("name", .one "o" none), ("children", .one "v" none)] false = .error .attributeError := by
  decide +kernel

/-! ## C163: the fields a class knows -/

/-- where fields of many containers are new to a class that had none, there are no other new fields, or none before -/
def Unmixed : Cls V → Prop
  | .container => True
  | .gen p s => Unmixed p ∧ ((newFields s).any (fun q => q.2.many) = true → p.isMulti = true ∨ (∀ q ∈ newFields s, q.2.many = true) ∨ ∀ q ∈ declared p, q.2.many = true)

theorem fieldNames_gen (p : Cls V) (s : TSpec V) : (Cls.gen p s).fieldNames = (if (ownFields s).isEmpty then p.fieldNames
    else if !(manyFields s).isEmpty && !p.isMulti then ownFields s
    else p.fieldNames.filter (fun x => !(ownFields s).contains x) ++ ownFields s) := rfl

/-- `__fields__` has the fields of all classes of the chain that are not of many containers, each once, those of the bases first -/
theorem C163_fields_partial (c : Cls V) (hc : Clean c) (h : Unmixed c) :
    c.fieldNames = ((declared c).filter (fun p => !p.2.many)).map (fun p => p.1) ∧ c.fieldNames.Nodup := by
  have key : ∀ c : Cls V, Clean c → Unmixed c → c.fieldNames = ((declared c).filter (fun p => !p.2.many)).map (fun p => p.1) := by
    intro c
    induction c with
    | container => intro _ _; rfl
    | gen p s ih =>
      intro hc h
      have ih := ih hc.parent h.1
      have hdecl : ((declared (Cls.gen p s)).filter (fun p => !p.2.many)).map (fun p => p.1) = p.fieldNames ++ ownFields s := by
        unfold declared
        rw [List.filter_append, List.map_append, ← ih]
        rfl
      rw [hdecl, fieldNames_gen]
      split
      · rename_i he
        rw [List.isEmpty_iff.1 he, List.append_nil]
      · rename_i he
        split
        · rename_i hm
          simp only [Bool.and_eq_true, Bool.not_eq_true'] at hm
          have hany : (newFields s).any (fun q => q.2.many) = true := by
            cases hmf : manyFields s with
            | nil => rw [hmf] at hm; simp at hm
            | cons y ys =>
              obtain ⟨f, hf, e⟩ := mem_manyFields.1 (show y ∈ manyFields s by rw [hmf]; simp)
              exact List.any_eq_true.2 ⟨_, hf, e⟩
          rcases h.2 hany with h | h | h
          · rw [h] at hm; cases hm.2
          · exfalso
            apply he
            rw [List.isEmpty_iff]
            unfold ownFields
            rw [List.filter_eq_nil_iff.2 (fun q hq => by simp [h q hq])]
            rfl
          · have : p.fieldNames = [] := by
              rw [ih, List.filter_eq_nil_iff.2 (fun q hq => by simp [h q hq])]
              rfl
            rw [this]
            rfl
        · congr 1
          rw [List.filter_eq_self]
          intro x hx
          rw [ih] at hx
          obtain ⟨q, hq, rfl⟩ := List.mem_map.1 hx
          simp only [Bool.not_eq_true', Bool.eq_false_iff, ne_eq, List.contains_iff_mem]
          intro ho
          obtain ⟨r, hr, e⟩ := List.mem_map.1 ho
          exact hc.disjoint (x := r.1) (f := r.2) (List.mem_filter.1 hr).1 (List.mem_map.2 ⟨q, (List.mem_filter.1 hq).1, e.symm⟩)
  rw [key c hc h]
  exact ⟨rfl, List.Pairwise.sublist (List.Sublist.map _ List.filter_sublist) hc.1⟩

/-- a type derived from `Ex.sub` -/
def Ex.subsub : Cls String := .gen Ex.sub ⟨none, none, [("f", Ex.text true none .none), ("gs", Ex.conts false true none)]⟩

example : (Cls.gen Ex.base ⟨none, none, [("f", Ex.text true none .none)]⟩ : Cls String).fieldNames = ["a", "b", "c", "f"] := by decide +kernel

example : Unmixed (Cls.gen Ex.base ⟨none, none, [("f", Ex.text true none .none)]⟩ : Cls String) := by
  refine ⟨⟨trivial, ?_⟩, ?_⟩ <;> (intro h; exact absurd h (by decide +kernel))

/-- fields of many containers and others on top of a class that has only others: `__fields__` lacks those of the base -/
theorem C163_mixed_fails : Ex.sub.fieldNames = ["e"] ∧ Ex.subsub.fieldNames = ["e", "f"] ∧ "a" ∈ (declared Ex.subsub).map (fun p => p.1) := by
  decide +kernel

/-! ## C164: `post_init_method` -/

/-- it is called for every generated class of the chain, except that of the object if this is skipped; the last call, when all fields are set, gets the value of
each argument -/
theorem C164_calls_partial (common : Bool) (c : Cls V) (kw : Dict String (Val V)) (skip : Bool) (st : St V) (hc : Clean c)
    (h : new common true c kw skip = .ok st) :
    st.calls.length = (specs c).length - (if skip then 1 else 0) ∧
    (skip = false → specs c ≠ [] → ∃ kw', st.calls.getLast? = some (kw', st.fields) ∧
      ∀ x f, (x, f) ∈ declared c → f.value = none → Dict.get? kw' x = some (given kw x f)) := by
  have hdep : ∀ c : Cls V, depth c = (specs c).length := by
    intro c
    induction c with
    | container => rfl
    | gen p s ih => simp [depth, specs, ih]
  refine ⟨?_, ?_⟩
  · have := init_calls hc h
    rw [this, ← hdep]
    simp
  · intro hs hne
    subst hs
    cases c with
    | container => exact (hne rfl).elim
    | gen p s =>
      obtain ⟨b, hb, hl⟩ := init_last hc h
      refine ⟨b, hl, ?_⟩
      intro x f hf hv
      rw [bind_bound hc hb hf hv]
      unfold bound given
      cases Dict.get? kw x <;> rfl

example : (match new false true Ex.base [("a", .one "va" none)] false with
    | .ok st => some (st.calls.map (fun k => (Dict.get? k.1 "b", Dict.get? k.2 "c")))
    | .error _ => none) = some [(some (.one "x" none), some (.plain (.one "fix" none)))] := by decide +kernel

/-- without a `post_init_method` there are no calls -/
theorem C164_none (common : Bool) (c : Cls V) (kw : Dict String (Val V)) (skip : Bool) (st : St V) (hc : Clean c)
    (h : new common false c kw skip = .ok st) : st.calls = [] := by
  have := init_calls hc h
  simpa using this

example : (new false false Ex.sub Ex.kw false).toOption.map (fun st => st.calls.length) = some 0 := by decide +kernel

/-- an object of a derived class: two calls, the first before the fields of the class are set -/
theorem C164_once_fails : (match new false true Ex.sub Ex.kw false with
    | .ok st => some (st.calls.map (fun k => (Dict.get? k.2 "a" |>.isSome, Dict.get? k.2 "e" |>.isSome)))
    | .error _ => none) = some [(true, false), (true, true)] := by decide +kernel

/-- with fields of many containers, the call can be skipped only with the generators of `hdmf.common` -/
theorem C164_skip_fails : new false true Ex.sub Ex.kw true = .error .typeError ∧ (new true true Ex.sub Ex.kw true).toOption.isSome = true :=
  ⟨by decide +kernel, by decide +kernel⟩

/-! ## C165: the types of scalar fields -/

/-- the classes whose objects an argument of the dtype takes -/
def accepted (d : String) : List String :=
  if d ∈ ["float", "float32", "float64", "double"] then ["builtins.float", "numpy.float16", "numpy.float32", "numpy.float64", "numpy.float128", "numpy.longdouble"]
  else if d ∈ ["int8", "int16", "short", "int32", "int"] then ["builtins.int", "numpy.int8", "numpy.int16", "numpy.int32", "numpy.int64"]
  else if d ∈ ["int64", "long"] then ["numpy.int64"]
  else if d = "uint8" then ["numpy.uint8", "numpy.uint16", "numpy.uint32", "numpy.uint64"]
  else if d = "uint16" then ["numpy.uint16", "numpy.uint32", "numpy.uint64"]
  else if d = "uint32" then ["numpy.uint32", "numpy.uint64"]
  else if d = "uint64" then ["numpy.uint64"]
  else if d = "numeric" then ["builtins.float", "numpy.float16", "numpy.float32", "numpy.float64", "numpy.float128", "numpy.longdouble", "builtins.int", "numpy.int8",
    "numpy.int16", "numpy.int32", "numpy.int64", "numpy.uint8", "numpy.uint16", "numpy.uint32", "numpy.uint64"]
  else if d ∈ ["text", "utf", "utf8", "utf-8"] then ["builtins.str"]
  else if d ∈ ["ascii", "bytes"] then ["builtins.bytes"]
  else if d = "bool" then ["builtins.bool", "numpy.bool_"]
  else if d ∈ ["isodatetime", "datetime"] then ["datetime.datetime", "datetime.date"]
  else []

/-- the classes `check_type` looks for -/
def expand (t : String) : List String :=
  if t = "builtins.int" then Docval.intClasses else if t = "builtins.float" then Docval.floatClasses
  else if t = "builtins.bool" then Docval.boolClasses else [t]

theorem takes_iff (ts : List String) (v : Docval.Val) : takes ts v = true ↔ ∃ c ∈ v.mro, c.full ∈ ts.flatMap expand := by
  have h1 : ∀ t, Docval.checkCls v ⟨t, ""⟩ = true ↔ ∃ c ∈ v.mro, c.full ∈ expand t := by
    intro t
    unfold Docval.checkCls expand Docval.isinstanceOf
    simp only
    split
    · simp [List.any_eq_true]
    · split
      · simp [List.any_eq_true]
      · split
        · simp [List.any_eq_true]
        · simp [List.any_eq_true]
  unfold takes
  rw [List.any_eq_true]
  constructor
  · rintro ⟨t, ht, h⟩
    obtain ⟨c, hc, he⟩ := (h1 t).1 h
    exact ⟨c, hc, List.mem_flatMap.2 ⟨t, ht, he⟩⟩
  · rintro ⟨c, hc, h⟩
    obtain ⟨t, ht, he⟩ := List.mem_flatMap.1 h
    exact ⟨t, ht, (h1 t).2 ⟨c, hc, he⟩⟩

/-- for every dtype with a type, what an argument of the dtype takes: the objects of certain classes and of classes derived from them -/
theorem C165_taken_partial (d : String) (ts : List String) (h : typeOfDtype (some d) = .ok ts) (v : Docval.Val) :
    takes ts v = true ↔ ∃ c ∈ v.mro, c.full ∈ accepted d := by
  rw [takes_iff]
  have hall : ∀ p ∈ specDtypeMap, (∀ x ∈ p.2.flatMap expand, x ∈ accepted p.1) ∧ ∀ x ∈ accepted p.1, x ∈ p.2.flatMap expand := by decide +kernel
  have hp : (d, ts) ∈ specDtypeMap := by
    unfold typeOfDtype at h
    simp only at h
    split at h
    · cases h
    · rename_i ts' hts
      cases h
      exact Dict.mem_of_get? hts
  obtain ⟨h1, h2⟩ := hall _ hp
  exact ⟨fun ⟨c, hc, hx⟩ => ⟨c, hc, h1 _ hx⟩, fun ⟨c, hc, hx⟩ => ⟨c, hc, h2 _ hx⟩⟩

example : typeOfDtype (some "uint16") = .ok ["numpy.uint16", "numpy.uint32", "numpy.uint64"] := by decide +kernel

/-- a dtype has a type exactly if it is a valid one other than `uint`, `date`, `object` and `region` -/
theorem C165_defined_partial (d : String) : (∃ ts, typeOfDtype (some d) = .ok ts) ↔ d ∈ validDtypes ∧ d ∉ ["uint", "date", "object", "region"] := by
  have h1 : ∀ p ∈ specDtypeMap, p.1 ∈ validDtypes ∧ p.1 ∉ ["uint", "date", "object", "region"] := by decide +kernel
  have h2 : ∀ d ∈ validDtypes, d ∉ ["uint", "date", "object", "region"] → (typeOfDtype (some d)).toOption.isSome = true := by decide +kernel
  constructor
  · rintro ⟨ts, h⟩
    unfold typeOfDtype at h
    simp only at h
    split at h
    · cases h
    · rename_i ts' hts
      exact h1 _ (Dict.mem_of_get? hts)
  · rintro ⟨h, h'⟩
    have := h2 d h h'
    cases ht : typeOfDtype (some d) with
    | error e => rw [ht] at this; cases this
    | ok ts => exact ⟨ts, rfl⟩

/-- valid dtypes without a type: no class can be generated -/
theorem C165_defined_fails : (∀ d ∈ ["uint", "date", "object", "region"], d ∈ validDtypes ∧ typeOfDtype (some d) = .error .valueError) ∧
    typeOfDtype none = .error .valueError := by decide +kernel

/-- a field of 32 bits takes a NumPy integer of 8 bits, and `True`; one of 64 bits does not take a Python integer -/
theorem C165_precision_fails :
    (∃ ts, typeOfDtype (some "int32") = .ok ts ∧ takes ts (.obj 0 [⟨"numpy.int8", "int8"⟩, ⟨"builtins.object", "object"⟩] none) = true ∧
      takes ts (.obj 0 [⟨"builtins.bool", "bool"⟩, ⟨"builtins.int", "int"⟩, ⟨"builtins.object", "object"⟩] none) = true) ∧
    ∃ ts, typeOfDtype (some "int64") = .ok ts ∧ takes ts (.obj 0 [⟨"builtins.int", "int"⟩, ⟨"builtins.object", "object"⟩] none) = false :=
  ⟨⟨["builtins.int", "numpy.int32", "numpy.int64"], by decide +kernel, by decide +kernel, by decide +kernel⟩,
    ⟨["numpy.int64"], by decide +kernel, by decide +kernel⟩⟩

end Verif.ClassGen

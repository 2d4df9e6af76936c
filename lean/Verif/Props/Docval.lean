import Verif.Lemmas.Docval

/-!
# Properties of `docval`: C03 – C06

`call cfg sig args kwargs` is a call of a docval-decorated function: `.ok ret` is the dict of keyword arguments the
function body receives, `.error` the exception the caller sees.  A Python dict has unique keys, hence the hypothesis
`(Dict.keys kwargs).Nodup`.

The declared order of parameters is `reorder sig` (docval lists required parameters before those with a default, and
publishes that order as the function's signature).
-/

namespace Verif.Docval
open Verif

private def cInt : Cls := ⟨"builtins.int", "int"⟩
private def cStr : Cls := ⟨"builtins.str", "str"⟩
private def cList : Cls := ⟨"builtins.list", "list"⟩
/-- the int object with identity `n` -/
private def i (n : Nat) : Val := .obj n [cInt] none
/-- a string -/
private def st (n : Nat) : Val := .obj n [cStr] none
/-- a list of length 3 -/
private def lst (n : Nat) : Val := .obj n [cList] (some [some 3])
/-- `f(a, b=1, c=2)`, all ints -/
private def sigABC : List Param :=
  [{ name := "a", ty := .cls cInt }, { name := "b", ty := .cls cInt, default := some (i 1) },
   { name := "c", ty := .cls cInt, default := some (i 2) }]

private theorem get?_toRet {cfg : Cfg} {l : List (Param × Val)} (hn : ((l.map Prod.fst).map Param.name).Nodup)
    {p v} (h : (p, v) ∈ l) (ext : Dict String Val) :
    Dict.get? (toRet cfg l ++ ext) p.name = some (delivered cfg p v) := by
  have h1 : (Dict.keys (toRet cfg l)).Nodup := by rw [toRet_keys]; exact hn
  have h2 : Dict.get? (toRet cfg l) p.name = some (delivered cfg p v) := by
    rw [Dict.get?_eq_some_iff h1]
    exact List.mem_map.2 ⟨(p, v), h, rfl⟩
  rw [Dict.get?_append, h2]; rfl

/-- **C03 (binding).** What an accepted call delivers: exactly the declared parameters (plus, with `allow_extra`, the
unmatched keywords); each parameter given by keyword gets its keyword value; the parameters *not* given by keyword, in
declared order, get the positional values in order, and their defaults once these are used up.

`delivered cfg p v` is `v`, except for a required parameter with a shape constraint (see `C03_delivered_partial`). -/
theorem C03_binding (cfg : Cfg) (sig : List Param) (args : List Val) (kwargs ret : Dict String Val)
    (hkw : (Dict.keys kwargs).Nodup) (h : call cfg sig args kwargs = .ok ret) :
    (∀ p ∈ sig, ∀ v, (p.name, v) ∈ kwargs → Dict.get? ret p.name = some (delivered cfg p v)) ∧
    (∀ (j : Nat) p, ((reorder sig).filter (fun p => decide (p.name ∉ Dict.keys kwargs)))[j]? = some p →
      (∀ a, args[j]? = some a → Dict.get? ret p.name = some (delivered cfg p a)) ∧
      (args[j]? = none → ∃ d, p.default = some d ∧ Dict.get? ret p.name = some d)) ∧
    Dict.keys ret = (reorder sig).map Param.name ++
      (if cfg.allowExtra ∧ sig ≠ [] then (Dict.keys kwargs).filter (fun k => decide (k ∉ sig.map Param.name)) else []) := by
  obtain ⟨l, hacc⟩ := call_sound hkw h
  have hfst := assign_fst hacc.assigned
  have hn : ((l.map Prod.fst).map Param.name).Nodup := by rw [hfst]; exact reorder_names_nodup.2 hacc.nodup
  have hfree : (fun p : Param => decide (p.name ∉ Dict.keys kwargs)) = isFree kwargs := by
    funext p
    by_cases hp : p.name ∈ Dict.keys kwargs
    · simp [isFree, hp, Dict.has_iff.2 hp]
    · simp [isFree, hp, Dict.has_false_iff.2 hp]
  refine ⟨?_, ?_, ?_⟩
  · intro p hp v hv
    rw [← mem_reorder, ← hfst, List.mem_map] at hp
    obtain ⟨⟨p', w⟩, hpw, rfl⟩ := hp
    have hg := (Dict.get?_eq_some_iff hkw).2 hv
    have := assign_kw hacc.assigned _ hpw v hg
    simp only at this; subst this
    rw [hacc.ret_eq]; exact get?_toRet hn hpw _
  · intro j p hj
    rw [hfree] at hj
    obtain ⟨h1, h2⟩ := assign_free hacc.assigned j p hj
    refine ⟨fun a ha => ?_, fun ha => ?_⟩
    · rw [hacc.ret_eq]; exact get?_toRet hn (h1 a ha) _
    · obtain ⟨d, hd, hm⟩ := h2 ha
      refine ⟨d, hd, ?_⟩
      rw [hacc.ret_eq, get?_toRet hn hm, delivered_opt hd]
  · rw [hacc.ret_eq]
    unfold Dict.keys
    rw [List.map_append]
    congr 1
    · have := toRet_keys (cfg := cfg) (l := l)
      rw [hfst] at this; exact this
    · split
      · unfold remaining
        rw [List.filter_map]
        congr 1
        apply List.filter_congr
        intro kv _
        have := ((reorder_perm sig).map Param.name).mem_iff (a := kv.1)
        simp only [Function.comp, decide_not, this]
      · rfl

example : call {} sigABC [i 10] [("c", i 30)] = .ok [("a", i 10), ("b", i 1), ("c", i 30)] := by decide +kernel

/-- **C03 (partial).** Binding by position: if no parameter at one of the first `args.length` positions is given by
keyword, then every parameter receives its keyword value, else the positional value *at its own position*, else its
default.  What is missing: see `C03_position_fails`. -/
theorem C03_position_partial (cfg : Cfg) (sig : List Param) (args : List Val) (kwargs ret : Dict String Val)
    (hkw : (Dict.keys kwargs).Nodup)
    (hside : ∀ p ∈ (reorder sig).take args.length, p.default ≠ none → p.name ∉ Dict.keys kwargs)
    (h : call cfg sig args kwargs = .ok ret) (k : Nat) (p : Param) (hp : (reorder sig)[k]? = some p) :
    (∀ v, (p.name, v) ∈ kwargs → Dict.get? ret p.name = some (delivered cfg p v) ∧ args.length ≤ k) ∧
    (p.name ∉ Dict.keys kwargs → ∀ a, args[k]? = some a → Dict.get? ret p.name = some (delivered cfg p a)) ∧
    (p.name ∉ Dict.keys kwargs → args[k]? = none → ∃ d, p.default = some d ∧ Dict.get? ret p.name = some d) := by
  obtain ⟨b1, b2, -⟩ := C03_binding cfg sig args kwargs ret hkw h
  obtain ⟨l, hacc⟩ := call_sound hkw h
  -- every keyword-given parameter sits behind the positional ones
  have hafter : ∀ (ps : List Param) (i0 : Nat), KwAfter kwargs args.length ps i0 →
      ∀ (k : Nat) p, ps[k]? = some p → p.default = none → p.name ∈ Dict.keys kwargs → args.length ≤ i0 + k := by
    intro ps
    induction ps with
    | nil => intro i0 _ k p hk; simp at hk
    | cons q ps ih =>
      intro i0 hka k p hk hd hm
      cases k with
      | zero => simp only [List.getElem?_cons_zero, Option.some.injEq] at hk; subst hk; exact hka.1 hd hm
      | succ k =>
        simp only [List.getElem?_cons_succ] at hk
        have := ih _ hka.2 k p hk hd hm; omega
  have hall : ∀ (k : Nat) p, (reorder sig)[k]? = some p → p.name ∈ Dict.keys kwargs → args.length ≤ k := by
    intro k p hk hm
    by_cases hd : p.default = none
    · have := hafter _ 0 hacc.kwAfter k p hk hd hm; omega
    · by_contra hlt
      have hlt : k < args.length := by omega
      refine hside p ?_ hd hm
      rw [List.mem_iff_getElem?]
      exact ⟨k, by rw [List.getElem?_take, if_pos hlt]; exact hk⟩
  have hmem : p ∈ sig := mem_reorder.1 (List.mem_of_getElem? hp)
  -- position among the parameters not given by keyword
  have hfilter : ∀ (ps : List Param) (k : Nat) p, ps[k]? = some p → p.name ∉ Dict.keys kwargs →
      ∃ j, j ≤ k ∧ (ps.filter (fun p => decide (p.name ∉ Dict.keys kwargs)))[j]? = some p ∧
        ((∀ m q, m < k → ps[m]? = some q → q.name ∉ Dict.keys kwargs) → j = k) ∧
        (∀ n, (∀ m q, m < n → ps[m]? = some q → q.name ∉ Dict.keys kwargs) → n ≤ k → n ≤ j) := by
    intro ps
    induction ps with
    | nil => intro k p hk; simp at hk
    | cons q ps ih =>
      intro k p hk hm
      cases k with
      | zero =>
        simp only [List.getElem?_cons_zero, Option.some.injEq] at hk; subst hk
        exact ⟨0, Nat.le_refl _, by simp [hm], fun _ => rfl, fun n _ hn => hn⟩
      | succ k =>
        simp only [List.getElem?_cons_succ] at hk
        obtain ⟨j, hj, hg, he, hn⟩ := ih k p hk hm
        by_cases hq : q.name ∈ Dict.keys kwargs
        · refine ⟨j, by omega, by rw [List.filter_cons_of_neg (by simp [hq])]; exact hg, fun hc => absurd hq (hc 0 q (by omega) (by simp)), ?_⟩
          intro n hc hle
          cases n with
          | zero => omega
          | succ n => exact absurd hq (hc 0 q (by omega) (by simp))
        · refine ⟨j + 1, by omega, by rw [List.filter_cons_of_pos (by simp [hq])]; exact hg, fun hc => ?_, ?_⟩
          · rw [he (fun m r hmk hr => hc (m + 1) r (by omega) (by simpa using hr))]
          · intro n hc hle
            cases n with
            | zero => omega
            | succ n =>
              have := hn n (fun m r hmk hr => hc (m + 1) r (by omega) (by simpa using hr)) (by omega)
              omega
  refine ⟨?_, ?_, ?_⟩
  · intro v hv
    exact ⟨b1 p hmem v hv, hall k p hp (Dict.mem_keys_of_mem hv)⟩
  · intro hm a ha
    have hlt : k < args.length := by
      by_contra hc; rw [List.getElem?_eq_none (by omega)] at ha; simp at ha
    obtain ⟨j, -, hg, he, -⟩ := hfilter _ k p hp hm
    have : j = k := he (fun m q hmk hq hc => by have := hall m q hq hc; omega)
    subst this
    exact (b2 _ p hg).1 a ha
  · intro hm ha
    have hle : args.length ≤ k := by simpa using ha
    obtain ⟨j, -, hg, -, hn⟩ := hfilter _ k p hp hm
    have : args.length ≤ j := hn _ (fun m q hmk hq hc => by have := hall m q hq hc; omega) hle
    exact (b2 _ p hg).2 (by simpa using this)

example : (∀ p ∈ (reorder sigABC).take 2, p.default ≠ none → p.name ∉ Dict.keys [("c", i 5)]) ∧
    call {} sigABC [i 10, i 20] [("c", i 5)] = .ok [("a", i 10), ("b", i 20), ("c", i 5)] := by
  constructor
  · intro p hp; simp [reorder, sigABC] at hp; rcases hp with rfl | rfl <;> simp [Dict.keys]
  · decide +kernel

/-- **C03 fails in full**: with `f(a, b=1, c=2)`, the call `f(10, 20, b=5)` gives `b` twice (20 by position, 5 by
keyword).  It is not rejected: 20 slides over to `c`. -/
theorem C03_position_fails :
    call {} sigABC [i 10, i 20] [("b", i 5)] = .ok [("a", i 10), ("b", i 5), ("c", i 20)] := by decide +kernel

/-- **C03 (partial).** The value received is the value given unless the parameter is required, has a shape constraint
and the value given has no shape of its own (then docval looks for an attribute named like the parameter). -/
theorem C03_delivered_partial (cfg : Cfg) (p : Param) (v : Val)
    (h : p.default ≠ none ∨ p.shape = none ∨ cfg.enforceShape = false ∨ (∃ n m s, v = .obj n m s) ∨ v = .none ∨
      (∃ w, v = .wrapped w)) : delivered cfg p v = v := by
  unfold delivered
  rcases h with h | h | h | ⟨n, m, s, rfl⟩ | rfl | ⟨w, rfl⟩
  · cases hd : p.default with
    | none => exact absurd hd h
    | some d => rfl
  · rw [h]; cases p.default <;> rfl
  · cases p.default <;> cases p.shape <;> cases v <;> simp [h]
  · cases p.default <;> cases p.shape <;> cases s <;> simp [unpack]
  · cases p.default <;> cases p.shape <;> simp [unpack]
  · cases p.default <;> cases p.shape <;> rfl

example : delivered {} { name := "data", ty := .any, shape := some (.single [none]) } (lst 1) = lst 1 := by decide

/-- **C03 fails in full** (second reason): a required parameter `data` with a shape constraint, given an object without
shape whose attribute `data` is a list: the function receives the list, not the object. -/
theorem C03_delivered_fails :
    call {} [{ name := "data", ty := .any, shape := some (.single [none]) }]
      [.objAttr 7 [⟨"TimeSeries", "TimeSeries"⟩] "data" (lst 1)] [] = .ok [("data", lst 1)] := by decide +kernel

/-! ### C04: types -/

/-- `v` is an instance of the class called `c` -/
def InstanceOf (v : Val) (c : String) : Prop := ∃ k ∈ v.mro, k.full = c

/-- `v` (not None) is of type `t`: the documented meaning of docval types. -/
inductive HasType (ms : Macros) (v : Val) : Ty → Prop
  | any : HasType ms v .any
  /-- `int`, `float`, `bool` stand for the Python and the numpy classes -/
  | int {c : Cls} : c.full = "builtins.int" → (∃ k ∈ intClasses, InstanceOf v k) → HasType ms v (.cls c)
  | float {c : Cls} : c.full = "builtins.float" → (∃ k ∈ floatClasses, InstanceOf v k) → HasType ms v (.cls c)
  | bool {c : Cls} : c.full = "builtins.bool" → (∃ k ∈ boolClasses, InstanceOf v k) → HasType ms v (.cls c)
  /-- any other class: instance of it -/
  | cls {c : Cls} : c.full ∉ ["builtins.int", "builtins.float", "builtins.bool"] → InstanceOf v c.full →
      HasType ms v (.cls c)
  /-- a macro: one of its classes -/
  | macro {s cs c} : Dict.get? ms s = some cs → c ∈ cs → HasType ms v (.cls c) → HasType ms v (.str s)
  | sUint : Dict.get? ms "uint" = none → (∃ k ∈ uintClasses, InstanceOf v k) → HasType ms v (.str "uint")
  | sInt : Dict.get? ms "int" = none → (∃ k ∈ intClasses, InstanceOf v k) → HasType ms v (.str "int")
  | sFloat : Dict.get? ms "float" = none → (∃ k ∈ floatClasses, InstanceOf v k) → HasType ms v (.str "float")
  | sBool : Dict.get? ms "bool" = none → (∃ k ∈ boolClasses, InstanceOf v k) → HasType ms v (.str "bool")
  /-- a class by (qualified) name -/
  | sName {s} {k : Cls} : Dict.get? ms s = none → s ∉ ["uint", "int", "float", "bool"] → k ∈ v.mro →
      (k.full = s ∨ k.name = s) → HasType ms v (.str s)
  /-- a list of alternatives -/
  | alt {ts t} : t ∈ ts → HasType ms v t → HasType ms v (.alts ts)

private theorem isinstanceOf_iff {v : Val} {cs : List String} :
    isinstanceOf v cs = true ↔ ∃ k ∈ cs, InstanceOf v k := by
  unfold isinstanceOf InstanceOf
  simp only [List.any_eq_true, List.contains_iff_mem]
  constructor
  · rintro ⟨c, h1, h2⟩; exact ⟨c.full, h2, c, h1, rfl⟩
  · rintro ⟨k, h1, c, h2, rfl⟩; exact ⟨c, h2, h1⟩

private theorem checkCls_iff {ms : Macros} {v : Val} {c : Cls} : checkCls v c = true ↔ HasType ms v (.cls c) := by
  unfold checkCls
  constructor
  · intro h
    split at h
    · exact .int ‹_› (isinstanceOf_iff.1 h)
    · split at h
      · exact .float ‹_› (isinstanceOf_iff.1 h)
      · split at h
        · exact .bool ‹_› (isinstanceOf_iff.1 h)
        · refine .cls (by simp [*]) ?_
          obtain ⟨k, hk, hi⟩ := isinstanceOf_iff.1 h
          simp at hk; exact hk ▸ hi
  · intro h
    cases h with
    | int h1 h2 => simp [h1, isinstanceOf_iff.2 h2]
    | float h1 h2 => simp [h1, isinstanceOf_iff.2 h2]
    | bool h1 h2 => simp [h1, isinstanceOf_iff.2 h2]
    | cls h1 h2 =>
      simp only [List.mem_cons, List.not_mem_nil, or_false, not_or] at h1
      simp only [h1.1, h1.2.1, h1.2.2, if_false]
      exact isinstanceOf_iff.2 ⟨_, by simp, h2⟩

private theorem checkStr_iff {ms : Macros} {v : Val} {s : String} : checkStr ms v s = true ↔ HasType ms v (.str s) := by
  unfold checkStr
  constructor
  · intro h
    cases hm : Dict.get? ms s with
    | some cs =>
      simp only [hm, List.any_eq_true] at h
      obtain ⟨c, h1, h2⟩ := h
      exact .macro hm h1 (checkCls_iff.1 h2)
    | none =>
      simp only [hm] at h
      split at h
      · subst s; exact .sUint hm (isinstanceOf_iff.1 h)
      · split at h
        · subst s; exact .sInt hm (isinstanceOf_iff.1 h)
        · split at h
          · subst s; exact .sFloat hm (isinstanceOf_iff.1 h)
          · split at h
            · subst s; exact .sBool hm (isinstanceOf_iff.1 h)
            · simp only [List.any_eq_true, Bool.or_eq_true, decide_eq_true_eq] at h
              obtain ⟨k, h1, h2⟩ := h
              exact .sName hm (by simp [*]) h1 h2
  · intro h
    cases h with
    | «macro» h1 h2 h3 => simp only [h1, List.any_eq_true]; exact ⟨_, h2, checkCls_iff.2 h3⟩
    | sUint h1 h2 => simp [h1, isinstanceOf_iff.2 h2]
    | sInt h1 h2 => simp [h1, isinstanceOf_iff.2 h2]
    | sFloat h1 h2 => simp [h1, isinstanceOf_iff.2 h2]
    | sBool h1 h2 => simp [h1, isinstanceOf_iff.2 h2]
    | sName h1 h2 h3 h4 =>
      simp only [List.mem_cons, List.not_mem_nil, or_false, not_or] at h2
      simp only [h1, h2.1, h2.2.1, h2.2.2.1, h2.2.2.2, if_false, List.any_eq_true, Bool.or_eq_true,
        decide_eq_true_eq]
      exact ⟨_, h3, h4⟩

mutual
private theorem checkTyObj_iff {ms : Macros} {v : Val} (t : Ty) : checkTyObj ms v t = true ↔ HasType ms v t := by
  match t with
  | .any => unfold checkTyObj; exact ⟨fun _ => .any, fun _ => rfl⟩
  | .cls c => unfold checkTyObj; exact checkCls_iff
  | .str s => unfold checkTyObj; exact checkStr_iff
  | .alts ts =>
    unfold checkTyObj
    rw [checkTyAny_iff ts]
    constructor
    · rintro ⟨t, ht, h2⟩
      exact .alt ht h2
    · intro h
      cases h with
      | alt h1 h2 => exact ⟨_, h1, h2⟩

private theorem checkTyAny_iff {ms : Macros} {v : Val} (ts : List Ty) :
    checkTyAny ms v ts = true ↔ ∃ t ∈ ts, HasType ms v t := by
  match ts with
  | [] => simp [checkTyAny]
  | t :: ts => unfold checkTyAny; rw [Bool.or_eq_true, checkTyObj_iff t, checkTyAny_iff ts]; simp
end

/-- `None` may be given for `p` -/
def AllowsNone (p : Param) : Prop := p.default = some .none ∨ (p.default ≠ none ∧ p.allowNone = true)

/-- the value given for `p` is of the declared type; a term-set wrapper counts as its content -/
def TypeOk (ms : Macros) (p : Param) (v : Val) : Prop :=
  (unwrap v = .none ∧ AllowsNone p) ∨ (unwrap v ≠ .none ∧ HasType ms (unwrap v) p.ty)

private theorem typePass_iff {cfg : Cfg} {p : Param} {v : Val} :
    typePass cfg p v = true ↔ TypeOk cfg.macros p v := by
  unfold typePass TypeOk AllowsNone checkType
  cases hu : unwrap v <;> cases hd : p.default <;> simp [checkTyObj_iff]

/-- `v` is the value given (or defaulted) for the declared parameter `p`: by keyword, or as the positional argument with
the number that `p` has among the parameters not given by keyword, or as default. -/
def Given (sig : List Param) (args : List Val) (kwargs : Dict String Val) (p : Param) (v : Val) : Prop :=
  (p ∈ sig ∧ (p.name, v) ∈ kwargs) ∨
  ∃ j : Nat, ((reorder sig).filter (fun p => decide (p.name ∉ Dict.keys kwargs)))[j]? = some p ∧
    (args[j]? = some v ∨ (args[j]? = none ∧ p.default = some v))

private theorem mem_assign_iff_given {sig : List Param} {args : List Val} {kwargs : Dict String Val} {l}
    (hkw : (Dict.keys kwargs).Nodup) (hn : (sig.map Param.name).Nodup)
    (h : assign kwargs (reorder sig) args = some l) (p : Param) (v : Val) : (p, v) ∈ l ↔ Given sig args kwargs p v := by
  have hfst := assign_fst h
  have hn' : ((l.map Prod.fst).map Param.name).Nodup := by rw [hfst]; exact reorder_names_nodup.2 hn
  have huniq : ∀ w, (p, v) ∈ l → (p, w) ∈ l → v = w := by
    intro w h1 h2
    have hk : (Dict.keys (l.map (fun pv => (pv.1.name, pv.2)))).Nodup := by
      simpa [Dict.keys, Function.comp_def] using hn'
    have e1 := (Dict.get?_eq_some_iff hk).2 (List.mem_map.2 ⟨(p, v), h1, rfl⟩)
    have e2 := (Dict.get?_eq_some_iff hk).2 (List.mem_map.2 ⟨(p, w), h2, rfl⟩)
    simp only at e1 e2
    rw [e1] at e2; simpa using e2
  have hfree : (fun p : Param => decide (p.name ∉ Dict.keys kwargs)) = isFree kwargs := by
    funext p
    by_cases hp : p.name ∈ Dict.keys kwargs
    · simp [isFree, hp, Dict.has_iff.2 hp]
    · simp [isFree, hp, Dict.has_false_iff.2 hp]
  unfold Given
  rw [hfree]
  constructor
  · intro hm
    have hp : p ∈ reorder sig := by rw [← hfst]; exact List.mem_map.2 ⟨_, hm, rfl⟩
    cases hk : Dict.get? kwargs p.name with
    | some w =>
      have := assign_kw h _ hm w hk
      simp only at this; subst this
      exact Or.inl ⟨mem_reorder.1 hp, Dict.mem_of_get? hk⟩
    | none =>
      right
      have : p ∈ (reorder sig).filter (isFree kwargs) := List.mem_filter.2 ⟨hp, isFree_none hk⟩
      obtain ⟨j, hj⟩ := List.mem_iff_getElem?.1 this
      refine ⟨j, hj, ?_⟩
      obtain ⟨h1, h2⟩ := assign_free h j p hj
      cases ha : args[j]? with
      | some a => left; rw [huniq a hm (h1 a ha)]
      | none =>
        right; obtain ⟨d, hd, hmd⟩ := h2 ha
        exact ⟨rfl, by rw [huniq d hm hmd, hd]⟩
  · rintro (⟨hp, hk⟩ | ⟨j, hj, ha | ⟨ha, hd⟩⟩)
    · rw [← mem_reorder, ← hfst, List.mem_map] at hp
      obtain ⟨⟨p', w⟩, hm, rfl⟩ := hp
      have := assign_kw h _ hm v ((Dict.get?_eq_some_iff hkw).2 hk)
      simp only at this; subst this; exact hm
    · exact (assign_free h j p hj).1 v ha
    · obtain ⟨d, hd', hmd⟩ := (assign_free h j p hj).2 ha
      rw [hd] at hd'; simp at hd'; rw [hd']; exact hmd

/-- **C04 (soundness).** If a call is accepted with type checking on, every value given or defaulted for a declared
parameter is of the declared type (or an allowed None). -/
theorem C04_accepted_typed (cfg : Cfg) (sig : List Param) (args : List Val) (kwargs ret : Dict String Val)
    (hkw : (Dict.keys kwargs).Nodup) (hty : cfg.enforceType = true) (h : call cfg sig args kwargs = .ok ret)
    (p : Param) (v : Val) (hv : Given sig args kwargs p v) : TypeOk cfg.macros p v := by
  obtain ⟨l, hacc⟩ := call_sound hkw h
  exact typePass_iff.1 (passes_type (hacc.passes _ ((mem_assign_iff_given hkw hacc.nodup hacc.assigned p v).2 hv)) hty)

example : Given sigABC [i 10] [("c", i 30)] ⟨"c", .cls cInt, some (i 2), false, none, none⟩ (i 30) ∧
    ∃ r, call {} sigABC [i 10] [("c", i 30)] = .ok r :=
  ⟨Or.inl ⟨by simp [sigABC], by simp⟩, [("a", i 10), ("b", i 1), ("c", i 30)], by decide +kernel⟩

/-- The call is formed correctly: no duplicate names in the signature, not too many arguments, every keyword declared
(or extras allowed), every required parameter given something, none given twice. -/
structure FormedOk (cfg : Cfg) (sig : List Param) (args : List Val) (kwargs : Dict String Val) : Prop where
  nodup : (sig.map Param.name).Nodup
  count : args.length + (if cfg.allowExtra then 0 else kwargs.length) ≤ sig.length
  known : cfg.allowExtra = false → ∀ k ∈ Dict.keys kwargs, k ∈ sig.map Param.name
  given : ∀ p ∈ sig, p.default = none → ∃ v, Given sig args kwargs p v
  notTwice : ∀ (k : Nat) p, (reorder sig)[k]? = some p → p.default = none → p.name ∈ Dict.keys kwargs → args.length ≤ k

private theorem kwAfter_of {kwargs : Dict String Val} {n : Nat} : ∀ (ps : List Param) (i0 : Nat),
    (∀ (k : Nat) p, ps[k]? = some p → p.default = none → p.name ∈ Dict.keys kwargs → n ≤ i0 + k) →
    KwAfter kwargs n ps i0 := by
  intro ps
  induction ps with
  | nil => intro _ _; trivial
  | cons p ps ih =>
    intro i0 h
    refine ⟨fun hd hm => by simpa using h 0 p (by simp) hd hm, ih _ (fun k q hk hd hm => ?_)⟩
    have := h (k + 1) q (by simpa using hk) hd hm; omega

private theorem assign_exists {kwargs : Dict String Val} : ∀ (ps : List Param) (as : List Val),
    (∀ (j : Nat) p, (ps.filter (isFree kwargs))[j]? = some p → p.default = none → j < as.length) →
    ∃ l, assign kwargs ps as = some l := by
  intro ps
  induction ps with
  | nil => intro as _; exact ⟨[], rfl⟩
  | cons p ps ih =>
    intro as h
    simp only [assign]
    cases hk : Dict.get? kwargs p.name with
    | some v =>
      rw [List.filter_cons_of_neg (by simp [isFree_some hk])] at h
      obtain ⟨l, hl⟩ := ih as h
      exact ⟨_, by rw [hl]; rfl⟩
    | none =>
      rw [List.filter_cons_of_pos (isFree_none hk)] at h
      cases as with
      | cons a as =>
        obtain ⟨l, hl⟩ := ih as (fun j q hj hd => by
          have := h (j + 1) q (by simpa using hj) hd; simpa using this)
        exact ⟨_, by simp only [hl]; rfl⟩
      | nil =>
        cases hd : p.default with
        | none => have := h 0 p (by simp) hd; simp at this
        | some d =>
          obtain ⟨l, hl⟩ := ih [] (fun j q hj hd => by
            have := h (j + 1) q (by simpa using hj) hd; simp at this)
          exact ⟨_, by rw [hl]; rfl⟩

private theorem wellFormed_of {cfg : Cfg} {sig : List Param} {args : List Val} {kwargs : Dict String Val}
    (h : FormedOk cfg sig args kwargs) : ∃ l, WellFormed cfg sig args kwargs l := by
  have hfree : (fun p : Param => decide (p.name ∉ Dict.keys kwargs)) = isFree kwargs := by
    funext p
    by_cases hp : p.name ∈ Dict.keys kwargs
    · simp [isFree, hp, Dict.has_iff.2 hp]
    · simp [isFree, hp, Dict.has_false_iff.2 hp]
  have hnd : ((reorder sig).filter (isFree kwargs)).Nodup :=
    List.Nodup.filter _ (List.Nodup.of_map _ (reorder_names_nodup.2 h.nodup))
  obtain ⟨l, hl⟩ := assign_exists (kwargs := kwargs) (reorder sig) args (by
    intro j p hj hd
    have hp := List.mem_filter.1 (List.mem_of_getElem? hj)
    obtain ⟨v, hv⟩ := h.given p (mem_reorder.1 hp.1) hd
    rcases hv with ⟨-, hv⟩ | ⟨j', hj', hv⟩
    · have : Dict.has kwargs p.name = true := Dict.has_iff.2 (Dict.mem_keys_of_mem hv)
      simp [isFree, this] at hp
    · rw [hfree] at hj'
      have hlt : j < ((reorder sig).filter (isFree kwargs)).length := by
        by_contra hc; rw [List.getElem?_eq_none (by omega)] at hj; simp at hj
      have : j = j' := (List.getElem?_inj hlt hnd).1 (hj.trans hj'.symm)
      subst this
      rcases hv with hv | ⟨-, hv⟩
      · by_contra hc; rw [List.getElem?_eq_none (by omega)] at hv; simp at hv
      · rw [hd] at hv; simp at hv)
  exact ⟨l, h.nodup, kwAfter_of _ 0 (fun k p hk hd hm => by have := h.notTwice k p hk hd hm; omega), hl, h.known, h.count⟩

/-- **C04 (completeness).** A correctly formed call refused with TypeError has a value that is not of the declared
type. -/
theorem C04_refused_untyped (cfg : Cfg) (sig : List Param) (args : List Val) (kwargs : Dict String Val)
    (hkw : (Dict.keys kwargs).Nodup) (hf : FormedOk cfg sig args kwargs)
    (h : call cfg sig args kwargs = .error .typeError) :
    ∃ p v, p ∈ sig ∧ Given sig args kwargs p v ∧ ¬ TypeOk cfg.macros p v := by
  obtain ⟨l, hw⟩ := wellFormed_of hf
  by_contra hc
  refine call_no_typeError hw (fun pv hpv => ?_) h
  have hg := (mem_assign_iff_given hkw hw.nodup hw.assigned pv.1 pv.2).1 hpv
  have hp : pv.1 ∈ sig := by
    rw [← mem_reorder, ← assign_fst hw.assigned]; exact List.mem_map.2 ⟨_, hpv, rfl⟩
  rw [typePass_iff]
  by_contra hn
  exact hc ⟨pv.1, pv.2, hp, hg, hn⟩

example : call {} sigABC [i 10] [("c", st 3)] = .error .typeError := by decide +kernel

/-! ### C05: nothing is dropped -/

/-- **C05 (partial).** In an accepted call without `allow_extra` every positional value is received, each by a different
parameter (the one with the same number among the parameters not given by keyword), and every keyword value is received
under its name.  With `allow_extra` see `C05_allow_extra_partial` and `C05_dropped_fails`. -/
theorem C05_nothing_dropped_partial (cfg : Cfg) (sig : List Param) (args : List Val) (kwargs ret : Dict String Val)
    (hkw : (Dict.keys kwargs).Nodup) (hx : cfg.allowExtra = false) (h : call cfg sig args kwargs = .ok ret) :
    (∀ (j : Nat) a, args[j]? = some a →
      ∃ p, ((reorder sig).filter (fun p => decide (p.name ∉ Dict.keys kwargs)))[j]? = some p ∧
        Dict.get? ret p.name = some (delivered cfg p a)) ∧
    (∀ kv ∈ kwargs, ∃ p ∈ sig, p.name = kv.1 ∧ Dict.get? ret kv.1 = some (delivered cfg p kv.2)) := by
  obtain ⟨b1, b2, -⟩ := C03_binding cfg sig args kwargs ret hkw h
  obtain ⟨l, hacc⟩ := call_sound hkw h
  constructor
  · intro j a ha
    have hlt : j < args.length := by
      by_contra hc; rw [List.getElem?_eq_none (by omega)] at ha; simp at ha
    -- count the parameters not given by keyword
    have hcount : args.length ≤ ((reorder sig).filter (fun p => decide (p.name ∉ Dict.keys kwargs))).length := by
      have hc := hacc.count
      simp only [hx, Bool.false_eq_true, if_false] at hc
      have h1 : ((reorder sig).filter (fun p => decide (p.name ∈ Dict.keys kwargs))).length ≤ kwargs.length := by
        have hnd : (((reorder sig).filter (fun p => decide (p.name ∈ Dict.keys kwargs))).map Param.name).Nodup :=
          (List.filter_sublist.map _).nodup (reorder_names_nodup.2 hacc.nodup)
        have hsub : ((reorder sig).filter (fun p => decide (p.name ∈ Dict.keys kwargs))).map Param.name
            ⊆ Dict.keys kwargs := by
          intro x hx; obtain ⟨p, hp, rfl⟩ := List.mem_map.1 hx
          simpa using (List.mem_filter.1 hp).2
        have := (hnd.subperm hsub).length_le
        simpa [Dict.keys] using this
      have h2 := List.length_eq_length_filter_add (l := reorder sig) (fun p => decide (p.name ∈ Dict.keys kwargs))
      have h3 : (reorder sig).length = sig.length := (reorder_perm sig).length_eq
      have h4 : (fun p : Param => !decide (p.name ∈ Dict.keys kwargs)) =
          (fun p => decide (p.name ∉ Dict.keys kwargs)) := by funext p; simp
      rw [h4] at h2
      omega
    have hlt' := Nat.lt_of_lt_of_le hlt hcount
    exact ⟨_, List.getElem?_eq_getElem hlt', (b2 j _ (List.getElem?_eq_getElem hlt')).1 a ha⟩
  · intro kv hkv
    obtain ⟨p, hp, he⟩ := List.mem_map.1 (hacc.kwNames hx kv.1 (Dict.mem_keys_of_mem hkv))
    exact ⟨p, hp, he, he ▸ b1 p hp kv.2 (by rw [he]; exact hkv)⟩

example : call {} sigABC [i 10, i 20] [("c", i 5)] = .ok [("a", i 10), ("b", i 20), ("c", i 5)] := by decide +kernel

/-- **C05 (partial).** With `allow_extra` and at least one declared parameter, undeclared keyword values are received
unchanged. -/
theorem C05_allow_extra_partial (cfg : Cfg) (sig : List Param) (args : List Val) (kwargs ret : Dict String Val)
    (hkw : (Dict.keys kwargs).Nodup) (hx : cfg.allowExtra = true) (hs : sig ≠ [])
    (h : call cfg sig args kwargs = .ok ret) (k : String) (v : Val) (hv : (k, v) ∈ kwargs)
    (hk : k ∉ sig.map Param.name) : Dict.get? ret k = some v := by
  obtain ⟨l, hacc⟩ := call_sound hkw h
  have hkr : k ∉ (reorder sig).map Param.name := fun hc => hk (((reorder_perm sig).map Param.name).mem_iff.1 hc)
  rw [hacc.ret_eq, Dict.get?_append]
  have h1 : Dict.get? (toRet cfg l) k = none := by
    rw [Dict.get?_eq_none_iff, toRet_keys, assign_fst hacc.assigned]; exact hkr
  have h2 : (Dict.keys (remaining kwargs (reorder sig))).Nodup := (List.filter_sublist.map _).nodup hkw
  rw [h1, if_pos ⟨hx, hs⟩]
  exact (Dict.get?_eq_some_iff h2).2 (remaining_sub.2 ⟨hv, hkr⟩)

example : call { allowExtra := true } sigABC [i 10] [("zz", st 5)] =
    .ok [("a", i 10), ("b", i 1), ("c", i 2), ("zz", st 5)] := by decide +kernel

/-- **C05 fails in full**: with `allow_extra`, `f(a, b=1)` called `f(10, 20, b=5)` silently drops 20; and a function
without declared parameters drops all extra keywords. -/
theorem C05_dropped_fails :
    call { allowExtra := true } (sigABC.take 2) [i 10, i 20] [("b", i 5)] = .ok [("a", i 10), ("b", i 5)] ∧
    call { allowExtra := true } [] [] [("zz", i 5)] = .ok [] := by decide +kernel

/-! ### C06: shapes -/

/-- A shape matches a declared one: same rank and every declared dimension that is not None equals the actual one. -/
def ShapeMatches (actual : Shape) (declared : List (Option Nat)) : Prop :=
  actual.length = declared.length ∧
  ∀ (k : Nat) d, declared[k]? = some (some d) → actual[k]? = some (some d)

private theorem zip_all (a b : List (Option Nat)) (h : a.length = b.length) :
    (a.zip b).all (fun x => x.2 = x.1 || x.2 = none) = true ↔
      ∀ (k : Nat) d, b[k]? = some (some d) → a[k]? = some (some d) := by
  induction a generalizing b with
  | nil => cases b with
    | nil => simp
    | cons _ _ => simp at h
  | cons x a ih =>
    cases b with
    | nil => simp at h
    | cons y b =>
      simp only [List.length_cons, Nat.add_right_cancel_iff] at h
      rw [List.zip_cons_cons, List.all_cons, Bool.and_eq_true, ih b h]
      constructor
      · rintro ⟨h1, h2⟩ k d hk
        cases k with
        | zero =>
          simp only [List.getElem?_cons_zero, Option.some.injEq] at hk ⊢
          subst hk
          simp at h1; exact h1.symm
        | succ k => exact h2 k d hk
      · intro hh
        refine ⟨?_, fun k d hk => hh (k + 1) d hk⟩
        cases y with
        | none => simp
        | some d => have := hh 0 d rfl; simp at this; simp [this]

/-- **C06.** A shape passes a (non-empty) declared shape iff it matches; it passes a non-empty list of alternatives iff
it matches one of them. -/
theorem C06_shape (actual : Shape) :
    (∀ ds, ds ≠ [] → ∃ b, shapeOkayMulti actual (.single ds) = .ok b ∧ (b = true ↔ ShapeMatches actual ds)) ∧
    (∀ alts, alts ≠ [] → ∃ b, shapeOkayMulti actual (.multi alts) = .ok b ∧
      (b = true ↔ ∃ ds ∈ alts, ShapeMatches actual ds)) := by
  have key : ∀ ds, shapeOkay actual ds = true ↔ ShapeMatches actual ds := by
    intro ds
    unfold shapeOkay ShapeMatches
    by_cases h : actual.length = ds.length
    · simp only [h, if_true, true_and]; exact zip_all actual ds h
    · simp [h]
  constructor
  · intro ds hne
    cases ds with
    | nil => exact absurd rfl hne
    | cons d ds => exact ⟨_, rfl, key _⟩
  · intro alts hne
    cases alts with
    | nil => exact absurd rfl hne
    | cons d ds => exact ⟨_, rfl, by rw [List.any_eq_true]; simp only [key]⟩

example : shapeOkayMulti [some 3, some 2] (.multi [[none], [none, some 2]]) = .ok true := by decide

/-- **C06 (acceptance).** A call giving a shaped object for a shape-constrained parameter is accepted only if the
object's shape matches the declared one. -/
theorem C06_accepted_shape (cfg : Cfg) (sig : List Param) (args : List Val) (kwargs ret : Dict String Val)
    (hkw : (Dict.keys kwargs).Nodup) (hsh : cfg.enforceShape = true) (h : call cfg sig args kwargs = .ok ret)
    (p : Param) (n : Nat) (mro : List Cls) (s : Shape) (hv : Given sig args kwargs p (.obj n mro (some s))) :
    (∀ ds, p.shape = some (.single ds) → ShapeMatches s ds) ∧
    (∀ alts, p.shape = some (.multi alts) → ∃ ds ∈ alts, ShapeMatches s ds) := by
  obtain ⟨l, hacc⟩ := call_sound hkw h
  have hp := hacc.passes _ ((mem_assign_iff_given hkw hacc.nodup hacc.assigned p _).2 hv)
  have key : ∀ ss, p.shape = some ss → shapeOkayMulti s ss = .ok true := by
    intro ss hss
    unfold Passes at hp
    cases hd : p.default with
    | none =>
      simp only [hd, checkReq, unwrap, hss, hsh, if_true, shapeCheck, unpack, bind, Except.bind] at hp
      cases hx : shapeOkayMulti s ss with
      | error e => simp [hx] at hp
      | ok b =>
        simp only [hx, Except.ok.injEq, Prod.mk.injEq] at hp
        cases b with
        | true => rfl
        | false => simp at hp
    | some d =>
      simp only [hd, checkOpt, unwrap, hss, hsh, shapeCheck, unpack, bind, Except.bind] at hp
      cases hx : shapeOkayMulti s ss with
      | error e => simp [hx] at hp
      | ok b =>
        cases b with
        | true => rfl
        | false => simp [hx] at hp
  constructor
  · intro ds hds
    have hk := key _ hds
    have hne : ds ≠ [] := by rintro rfl; simp [shapeOkayMulti] at hk
    obtain ⟨b, hb, hiff⟩ := (C06_shape s).1 ds hne
    rw [hb] at hk; simp at hk; exact hiff.1 hk
  · intro alts hds
    have hk := key _ hds
    have hne : alts ≠ [] := by rintro rfl; simp [shapeOkayMulti] at hk
    obtain ⟨b, hb, hiff⟩ := (C06_shape s).2 alts hne
    rw [hb] at hk; simp at hk; exact hiff.1 hk

example : call {} [{ name := "data", ty := .any, shape := some (.single [some 3]) }] [lst 1] [] = .ok [("data", lst 1)] ∧
    call {} [{ name := "data", ty := .any, shape := some (.single [some 2]) }] [lst 1] [] = .error .valueError := by
  decide +kernel

/-! ### C69: enumerated values -/

/-- The value (inside its `TermSetWrapper`, if any) is one of the enumerated ones; `None` is let through for parameters
with a default. -/
def EnumOk (p : Param) (v : Val) : Prop :=
  ∀ vs, p.enum = some vs → ∃ w, (v = .wrapped w ∨ (v = w ∧ ∀ u, v ≠ .wrapped u)) ∧ (w ∈ vs ∨ (w = .none ∧ p.default ≠ none))

private theorem unwrap_spec (v : Val) : v = .wrapped (unwrap v) ∨ (v = unwrap v ∧ ∀ u, v ≠ .wrapped u) := by
  cases v <;> simp [unwrap]

private theorem enumOk_iff {p : Param} {v : Val} : EnumOk p v ↔
    ∀ vs, p.enum = some vs → (unwrap v ∈ vs ∨ (unwrap v = .none ∧ p.default ≠ none)) := by
  unfold EnumOk
  refine forall_congr' fun vs => forall_congr' fun _ => ?_
  constructor
  · rintro ⟨w, hw | ⟨hw, hn⟩, h⟩
    · subst hw; exact h
    · have : unwrap v = w := by
        rw [← hw]; cases v <;> first | rfl | exact absurd rfl (hn _)
      rw [this]; exact h
  · intro h; exact ⟨unwrap v, unwrap_spec v, h⟩

private theorem passes_noShape {cfg : Cfg} {p : Param} {v : Val} (hs : p.shape = none) :
    Passes cfg p v ↔ (cfg.enforceType = true → typePass cfg p v = true) ∧
      ∀ vs, p.enum = some vs → (unwrap v ∈ vs ∨ (unwrap v = .none ∧ p.default ≠ none)) := by
  unfold Passes
  cases hd : p.default with
  | none =>
    have hw : ∀ v : Val, (match v with | .wrapped g => Val.wrapped g | _ => unwrap v) = v := by intro v; cases v <;> rfl
    simp only [checkReq, hs, bind, Except.bind, delivered, hd, List.nil_append, typePass]
    cases he : p.enum with
    | none =>
      cases ht : cfg.enforceType <;> cases hc : checkType cfg.macros (unwrap v) p.ty false <;> simp [enumCheck, he] <;>
        exact hw v
    | some vs =>
      cases ht : cfg.enforceType <;> cases hc : checkType cfg.macros (unwrap v) p.ty false <;> simp [enumCheck, he] <;>
        exact fun _ => hw v
  | some d =>
    simp only [checkOpt, hs, bind, Except.bind, List.nil_append, typePass, hd]
    cases he : p.enum with
    | none =>
      cases ht : cfg.enforceType <;>
        cases hc : checkType cfg.macros (unwrap v) p.ty (decide (d = Val.none) || p.allowNone) <;> simp [enumCheck, he]
    | some vs =>
      by_cases hn : unwrap v = .none <;> cases ht : cfg.enforceType <;>
        cases hc : checkType cfg.macros (unwrap v) p.ty (decide (d = Val.none) || p.allowNone) <;>
        simp_all [enumCheck]

/-- **C69 (soundness).** If a call is accepted, every value given or defaulted for a parameter that declares `enum` (and no
shape) is one of the enumerated values; only parameters with a default may receive `None` instead. -/
theorem C69_accepted_enum (cfg : Cfg) (sig : List Param) (args : List Val) (kwargs ret : Dict String Val)
    (hkw : (Dict.keys kwargs).Nodup) (h : call cfg sig args kwargs = .ok ret)
    (p : Param) (v : Val) (hs : p.shape = none) (hv : Given sig args kwargs p v) : EnumOk p v := by
  obtain ⟨l, hacc⟩ := call_sound hkw h
  have := hacc.passes _ ((mem_assign_iff_given hkw hacc.nodup hacc.assigned p v).2 hv)
  exact enumOk_iff.2 ((passes_noShape hs).1 this).2

/-- **C69 (completeness).** A correctly formed call to a function without shape constraints, all of whose values are of the
declared types and among the enumerated ones, is accepted (if positional arguments are allowed or not used). -/
theorem C69_all_ok_accepted (cfg : Cfg) (sig : List Param) (args : List Val) (kwargs : Dict String Val)
    (hkw : (Dict.keys kwargs).Nodup) (hf : FormedOk cfg sig args kwargs) (hsh : ∀ p ∈ sig, p.shape = none)
    (hpos : args = [] ∨ cfg.allowPos ≠ .error)
    (hok : ∀ p ∈ sig, ∀ v, Given sig args kwargs p v → TypeOk cfg.macros p v ∧ EnumOk p v) :
    ∃ ret, call cfg sig args kwargs = .ok ret := by
  obtain ⟨l, hw⟩ := wellFormed_of hf
  refine call_complete hw hpos (fun pv hpv => ?_)
  have hg := (mem_assign_iff_given hkw hw.nodup hw.assigned pv.1 pv.2).1 hpv
  have hp : pv.1 ∈ sig := by
    rw [← mem_reorder, ← assign_fst hw.assigned]; exact List.mem_map.2 ⟨_, hpv, rfl⟩
  obtain ⟨h1, h2⟩ := hok _ hp _ hg
  exact (passes_noShape (hsh _ hp)).2 ⟨fun _ => typePass_iff.2 h1, enumOk_iff.1 h2⟩

example : call {} [{ name := "q", ty := .any, enum := some [i 1, i 2] }] [i 2] [] = .ok [("q", i 2)] ∧
    call {} [{ name := "q", ty := .any, enum := some [i 1, i 2] }] [i 3] [] = .error .valueError := by
  decide +kernel

/-- The excluded case of C06: an empty declared shape makes every call with a shaped value raise IndexError. -/
theorem C06_empty_shape_fails :
    call {} [{ name := "data", ty := .any, shape := some (.single []) }] [lst 1] [] = .error .indexError := by
  decide +kernel

end Verif.Docval

import Verif.Lemmas.NamesMap

/-!
# C144–C149: the names which an `ObjectMapper` gives to specs
-/

namespace Verif.Names
open Verif

/-! ## C144: names made from types -/

/-- C144: the name keeps the letters of the type: without underscores it is the type in small letters, with an `s` appended if there may be
many and the type does not end with an `s`.  There are no capitals in it. -/
theorem C144_letters (t : Name) (many : Bool) :
    ((letters (convertDtName t many) = (letters t).map Char.toLower) ∨
      (many = true ∧ letters (convertDtName t many) = (letters t).map Char.toLower ++ ['s'])) ∧
    (many = false → letters (convertDtName t many) = (letters t).map Char.toLower) ∧
    (many = true → t ≠ [] → (convertDtName t many).getLast? = some 's') ∧
    ∀ c ∈ convertDtName t many, c.isUpper = false := by
  have hup : ∀ c ∈ snake t, c.isUpper = false := by
    intro c hc
    obtain ⟨d, -, rfl⟩ := List.mem_map.1 hc
    exact toLower_not_upper d
  unfold convertDtName
  split
  · rename_i h
    refine ⟨.inr ⟨h.2, ?_⟩, fun e => ?_, fun _ _ => by simp, ?_⟩
    · rw [letters_append, snake_letters]
      rfl
    · rw [h.2] at e
      cases e
    · intro c hc
      rcases List.mem_append.1 hc with hc | hc
      · exact hup c hc
      · rw [List.mem_singleton.1 hc]
        decide
  · rename_i h
    refine ⟨.inl (snake_letters t), fun _ => snake_letters t, fun hm _ => ?_, hup⟩
    by_cases hs : (snake t).getLast? = some 's'
    · exact hs
    · exact (h ⟨hs, hm⟩).elim

/-- C144: words that each begin with a capital are joined by one underscore, in small letters -/
theorem C144_words (w : Word) (ws : List Word) :
    convertDtName (camel (w :: ws)) false = List.intercalate ['_'] ((w :: ws).map (fun v => v.text.map Char.toLower)) := by
  have h : ∀ (ws : List Word) (x : Name), x ++ (ws.map (fun v => '_' :: v.text.map Char.toLower)).flatten =
      List.intercalate ['_'] (x :: ws.map (fun v => v.text.map Char.toLower)) := by
    intro ws
    induction ws with
    | nil => intro x; simp [List.intercalate]
    | cons v ws ih =>
      intro x
      have := ih (v.text.map Char.toLower)
      simp only [List.map_cons, List.flatten_cons, List.cons_append, this]
      simp [List.intercalate, List.intersperse]
  unfold convertDtName
  rw [if_neg (by rintro ⟨-, h⟩; cases h), snake_camel]
  exact h ws _

/-- C144: a type without capitals is its own name -/
theorem C144_plain (t : Name) (h : ∀ c ∈ t, c.isUpper = false) : convertDtName t false = t := by
  unfold convertDtName
  rw [if_neg (by rintro ⟨-, h⟩; cases h), snake_plain h]

/-- C144 fails: different types can have the same name -/
theorem C144_injective_fails :
    (∃ t u, t ≠ u ∧ convertDtName t false = convertDtName u false) ∧
    ∃ t u, t ≠ u ∧ convertDtName t true = convertDtName u true ∧ convertDtName t false ≠ convertDtName u false :=
  ⟨⟨"TimeSeries".toList, "time_series".toList, by decide +kernel, by decide +kernel⟩,
   "Unit".toList, "Units".toList, by decide +kernel, by decide +kernel, by decide +kernel⟩

example : convertDtName "TimeSeries".toList false = "time_series".toList ∧ convertDtName "ElectricalSeries".toList true = "electrical_series".toList ∧
    convertDtName "NWBFile".toList false = "nwb_file".toList ∧ convertDtName "VectorData".toList true = "vector_datas".toList ∧
    convertDtName "my_type".toList false = "my_type".toList ∧ convertDtName "ABCDef2Ghi".toList false = "abc_def2_ghi".toList :=
  ⟨by decide +kernel, by decide +kernel, by decide +kernel, by decide +kernel, by decide +kernel, by decide +kernel⟩

/-- C144 fails: where the words of a type are separated by underscores already, another underscore is added -/
theorem C144_underscores_fails : convertDtName "Time_Series".toList false = "time__series".toList := by decide +kernel

/-- the words of the example -/
def wTime : Word := ⟨'T', ['i', 'm', 'e'], by decide, by decide, by decide⟩
/-- the words of the example -/
def wSeries : Word := ⟨'S', ['e', 'r', 'i', 'e', 's'], by decide, by decide, by decide⟩

example : camel [wTime, wSeries] = "TimeSeries".toList ∧
    List.intercalate ['_'] ([wTime, wSeries].map (fun v => v.text.map Char.toLower)) = "time_series".toList := by decide +kernel

/-! ## C145: get_attr_names -/

/-- C145: the names are those of the paths to the specs below a type, not into groups and datasets that have a type themselves, joined with
two underscores; no name occurs twice -/
theorem C145_keys (n : Node) :
    (Dict.keys (attrNames n)).Nodup ∧
    ∀ k, k ∈ Dict.keys (attrNames n) ↔ ∃ p i, At n p i ∧ List.intercalate ['_', '_'] p = k := by
  refine ⟨attrNames_nodup n, fun k => ?_⟩
  constructor
  · intro h
    cases hk : Dict.get? (attrNames n) k with
    | none => exact (Dict.get?_eq_none_iff.1 hk h).elim
    | some i =>
      obtain ⟨p, hp, e⟩ := (assignments_iff n k i).1 (assign_mem hk)
      exact ⟨p, i, hp, by rw [← join_eq]; exact e⟩
  · rintro ⟨p, i, hp, e⟩
    rw [← join_eq] at e
    obtain ⟨w, hw⟩ := assign_some ((assignments_iff n k i).2 ⟨p, hp, e⟩)
    exact Dict.mem_keys_of_mem (Dict.mem_of_get? hw)

/-- C145: the spec of a name is at a path of that name -/
theorem C145_value (n : Node) (k : Name) (i : Nat) (h : Dict.get? (attrNames n) k = some i) :
    ∃ p, At n p i ∧ List.intercalate ['_', '_'] p = k := by
  obtain ⟨p, hp, e⟩ := (assignments_iff n k i).1 (assign_mem h)
  exact ⟨p, hp, by rw [← join_eq]; exact e⟩

/-- C145 for specs whose names differ: every spec has the name of its path.  Without the condition a spec can have no name
(`C145_complete_fails`). -/
theorem C145_complete_partial (n : Node)
    (hu : ∀ p q i j, At n p i → At n q j → List.intercalate ['_', '_'] p = List.intercalate ['_', '_'] q → i = j) (p : List Name) (i : Nat)
    (h : At n p i) : Dict.get? (attrNames n) (List.intercalate ['_', '_'] p) = some i := by
  rw [← join_eq]
  refine (assign_iff ?_ _ _).2 ((assignments_iff n _ i).2 ⟨p, h, rfl⟩)
  intro k v w h1 h2
  obtain ⟨p1, a1, e1⟩ := (assignments_iff n _ _).1 h1
  obtain ⟨p2, a2, e2⟩ := (assignments_iff n _ _).1 h2
  exact hu p1 p2 v w a1 a2 (by rw [← join_eq, ← join_eq, e1, e2])

/-- a leaf: an attribute, or a dataset or link without sub-specs -/
def leaf (i : Nat) (name : Option Name) (type : Name) (many typed : Bool) : Node := .mk i name type many typed [] [] [] []

/-- a type with an attribute, an untyped group holding a dataset, and groups of a type -/
def egType : Node := .mk 0 none "MyType".toList false true [leaf 1 (some "unit".toList) [] false false] []
  [.mk 2 (some "general".toList) [] false false [] [leaf 3 (some "lab".toList) [] false false] [] [], leaf 4 none "TimeSeries".toList true true] []

/-- a type with an attribute and a dataset of the same name -/
def egClash : Node := .mk 0 none "MyType".toList false true [leaf 1 (some "unit".toList) [] false false]
  [leaf 2 (some "unit".toList) [] false false] [] []

/-- a type with any number of groups of a type and of links to it -/
def egLinks : Node := .mk 0 none "MyType".toList false true [] [] [leaf 1 none "Unit".toList true true] [leaf 2 none "Unit".toList true false]

/-- a type with an attribute that has the name of a nested one -/
def egNested : Node := .mk 0 none "MyType".toList false true []
  [.mk 1 (some "a".toList) [] false false [leaf 2 (some "b".toList) [] false false] [] [] []] [] [leaf 3 (some "a__b".toList) "T".toList false false]

example : attrNames egType = [("unit".toList, 1), ("general".toList, 2), ("general__lab".toList, 3), ("time_series".toList, 4)] := by
  decide +kernel

example : At egType ["general".toList, "lab".toList] 3 :=
  ⟨.mk 2 (some "general".toList) [] false false [] [leaf 3 (some "lab".toList) [] false false] [] [], by simp [egType, Node.subs],
    .sub rfl (by simp [Node.subs]) (.self (leaf 3 (some "lab".toList) [] false false))⟩

/-- C145 fails: of two specs with one name only the last is named, and the other one is mapped to no attribute: an attribute and a dataset, groups
and links of one type, a nested spec and another one -/
theorem C145_complete_fails :
    (∃ p, At egClash p 1 ∧ ∀ k, Dict.get? (attrNames egClash) k ≠ some 1) ∧ getAttribute (init egClash) 1 = none ∧
    (∃ p, At egLinks p 1 ∧ ∀ k, Dict.get? (attrNames egLinks) k ≠ some 1) ∧ getAttribute (init egLinks) 1 = none ∧
    (∃ p, At egNested p 2 ∧ ∀ k, Dict.get? (attrNames egNested) k ≠ some 2) ∧ getAttribute (init egNested) 2 = none := by
  have h1 : attrNames egClash = [("unit".toList, 2)] := by decide +kernel
  have h2 : attrNames egLinks = [("units".toList, 2)] := by decide +kernel
  have h3 : attrNames egNested = [("a".toList, 1), ("a__b".toList, 3)] := by decide +kernel
  have key : ∀ (d : Dict Name Nat) (i : Nat), (∀ p ∈ d, p.2 ≠ i) → ∀ k, Dict.get? d k ≠ some i :=
    fun d i h k e => h _ (Dict.mem_of_get? e) rfl
  refine ⟨⟨_, ⟨leaf 1 (some "unit".toList) [] false false, by simp [egClash, Node.subs], .self _⟩, ?_⟩, by decide +kernel,
    ⟨_, ⟨leaf 1 none "Unit".toList true true, by simp [egLinks, Node.subs], .self _⟩, ?_⟩, by decide +kernel,
    ⟨_, ⟨.mk 1 (some "a".toList) [] false false [leaf 2 (some "b".toList) [] false false] [] [] [], by simp [egNested, Node.subs],
      .sub rfl (by simp [Node.subs]) (.self (leaf 2 (some "b".toList) [] false false))⟩, ?_⟩, by decide +kernel⟩
  · rw [h1]
    exact key _ _ (by decide)
  · rw [h2]
    exact key _ _ (by decide)
  · rw [h3]
    exact key _ _ (by decide)

/-! ## C146: when the names differ -/

/-- C146: if in the type and in each untyped spec below it the names of the sub-specs differ, and no name ends with an underscore or has two in a
row, then different specs have different names, so that each has one -/
theorem C146_distinct (n : Node) (hd : ∀ x, Inside n x → (x.subs.map Node.own).Nodup) (hp : ∀ x, Inside n x → ∀ c ∈ x.subs, Plain c.own)
    (p : List Name) (i : Nat) (h : At n p i) :
    Dict.get? (attrNames n) (List.intercalate ['_', '_'] p) = some i ∧
    ∀ q j, At n q j → List.intercalate ['_', '_'] p = List.intercalate ['_', '_'] q → p = q ∧ i = j := by
  have key : ∀ p q i j, At n p i → At n q j → List.intercalate ['_', '_'] p = List.intercalate ['_', '_'] q → p = q ∧ i = j := by
    intro p q i j h1 h2 e
    rw [← join_eq, ← join_eq] at e
    have := join_inj p q (at_ne h1) (at_ne h2) (at_plain hp h1) (at_plain hp h2) e
    subst this
    exact ⟨rfl, at_unique hd h1 h2⟩
  exact ⟨C145_complete_partial n (fun p q i j h1 h2 e => (key p q i j h1 h2 e).2) p i h, fun q j h2 e => key p q i j h h2 e⟩

/-- C146: the names made from types in camel case are of this kind -/
theorem C146_types (w : Word) (ws : List Word) (many : Bool) :
    (convertDtName (camel (w :: ws)) many).getLast? ≠ some '_' ∧ ¬ ['_', '_'] <:+: convertDtName (camel (w :: ws)) many :=
  convert_camel_plain w ws many

/-- C146 fails without the condition on the names -/
theorem C146_underscores_fails : ∃ n, (∀ x, Inside n x → (x.subs.map Node.own).Nodup) ∧ ∃ p i, At n p i ∧
    ∀ k, Dict.get? (attrNames n) k ≠ some i := by
  refine ⟨egNested, ?_, _, _, C145_complete_fails.2.2.2.2.1.choose_spec.1, C145_complete_fails.2.2.2.2.1.choose_spec.2⟩
  intro x hx
  have hl : ∀ l, l = leaf 2 (some "b".toList) [] false false ∨ l = leaf 3 (some "a__b".toList) "T".toList false false →
      ∀ x, Inside l x → (x.subs.map Node.own).Nodup := by
    intro l hl x hx
    have e : l.subs = [] := by rcases hl with rfl | rfl <;> rfl
    cases hx with
    | refl => rw [e]; simp
    | sub hc => rw [e] at hc; cases hc
  cases hx with
  | refl => decide +kernel
  | sub hc ht h =>
    simp only [egNested, Node.subs, List.nil_append, List.append_nil, List.cons_append, List.mem_cons, List.not_mem_nil, or_false] at hc
    rcases hc with rfl | rfl
    · cases h with
      | refl => decide +kernel
      | sub hc ht h =>
        simp only [Node.subs, List.append_nil, List.mem_cons, List.not_mem_nil, or_false] at hc
        exact hl _ (.inl hc) x h
    · exact hl _ (.inr rfl) x h

example : Plain "time_series".toList ∧ ¬ Plain "a__b".toList ∧ ¬ Plain "a_".toList := by
  refine ⟨⟨by decide +kernel, by decide +kernel⟩, fun h => h.2 (by decide +kernel), fun h => h.1 (by decide +kernel)⟩

/-! ## C147: the mapping made by the constructor -/

/-- C147: the mapper maps each name of `get_attr_names` to its spec, as attribute and as constructor argument, and nothing else -/
theorem C147_names (n : Node) (k : Name) :
    getAttrSpec (init n) k = Dict.get? (attrNames n) k ∧ getCargSpec (init n) k = Dict.get? (attrNames n) k :=
  ⟨init_attr n k, init_carg n k⟩

/-- C147: if each spec occurs once in the type, the two directions of the mapping agree, for attributes and for constructor arguments -/
theorem C147_inverse (n : Node) (hid : ∀ p q i, At n p i → At n q i → p = q) (s : Nat) (k : Name) :
    (getAttribute (init n) s = some k ↔ getAttrSpec (init n) k = some s) ∧
    (getCarg (init n) s = some k ↔ getCargSpec (init n) k = some s) := by
  rw [init_attribute, init_const_arg, init_attr, init_carg]
  exact ⟨attribute_iff hid s k, attribute_iff hid s k⟩

/-- C147 for types whose specs have different names (C146): each spec is mapped to the attribute named like its path.  Without the conditions a
spec can be mapped to none (`C145_complete_fails`). -/
theorem C147_complete_partial (n : Node) (hid : ∀ p q i, At n p i → At n q i → p = q)
    (hd : ∀ x, Inside n x → (x.subs.map Node.own).Nodup) (hp : ∀ x, Inside n x → ∀ c ∈ x.subs, Plain c.own)
    (p : List Name) (i : Nat) (h : At n p i) :
    getAttribute (init n) i = some (List.intercalate ['_', '_'] p) ∧ getCarg (init n) i = some (List.intercalate ['_', '_'] p) := by
  have := (C146_distinct n hd hp p i h).1
  refine ⟨((C147_inverse n hid i _).1).2 ?_, ((C147_inverse n hid i _).2).2 ?_⟩
  · rw [init_attr]; exact this
  · rw [init_carg]; exact this

/-- C147 fails: a spec object used at two places is mapped to the last of its names only, although both names are mapped to it -/
theorem C147_shared_fails : ∃ n s k, getAttrSpec (init n) k = some s ∧ getAttribute (init n) s ≠ some k :=
  ⟨.mk 0 none [] false true [] [] [.mk 1 (some "a".toList) [] false false [leaf 9 (some "x".toList) [] false false] [] [] [],
    .mk 2 (some "b".toList) [] false false [leaf 9 (some "x".toList) [] false false] [] [] []] [], 9, "a__x".toList,
    by decide +kernel, by decide +kernel⟩

example : getAttribute (init egType) 3 = some "general__lab".toList ∧ getCarg (init egType) 4 = some "time_series".toList ∧
    getAttrSpec (init egType) "unit".toList = some 1 ∧ getCargSpec (init egType) "unit".toList = some 1 :=
  ⟨by decide +kernel, by decide +kernel, by decide +kernel, by decide +kernel⟩

/-! ## C148: changing the mapping -/

/-- any calls one after the other -/
def run (m : Mapper) (ops : List Op) : Mapper := ops.foldl step m

theorem run_append (m : Mapper) (a b : List Op) : run m (a ++ b) = run (run m a) b := List.foldl_append ..

/-- the name given to a spec by a call, if the call changes it: `some none` if it is taken away -/
def attrOf (s : Nat) : Op → Option (Option Name)
  | .mapAttr a t => if t = s then some (some a) else none
  | .mapConstArg _ _ => none
  | .mapSpec a t => if t = s then some (some a) else none
  | .unmap t => if t = s then some none else none

/-- the same for the argument of the constructor -/
def cargOf (s : Nat) : Op → Option (Option Name)
  | .mapAttr _ _ => none
  | .mapConstArg a t => if t = s then some (some a) else none
  | .mapSpec a t => if t = s then some (some a) else none
  | .unmap t => if t = s then some none else none

/-- the spec that a call gives to the name of an attribute -/
def specOf (a : Name) : Op → Option Nat
  | .mapAttr b s => if b = a then some s else none
  | .mapSpec b s => if b = a then some s else none
  | _ => none

theorem step_attribute (m : Mapper) (o : Op) (s : Nat) : getAttribute (step m o) s = (attrOf s o).getD (getAttribute m s) := by
  cases o with
  | mapAttr a t =>
    show Dict.get? (Dict.set m.spec2attr t a) s = (if t = s then some (some a) else none).getD (getAttribute m s)
    by_cases h : t = s
    · subst h; simp
    · rw [if_neg h, Dict.get?_set_ne (Ne.symm h)]; rfl
  | mapConstArg a t => rfl
  | mapSpec a t =>
    show Dict.get? (Dict.set m.spec2attr t a) s = (if t = s then some (some a) else none).getD (getAttribute m s)
    by_cases h : t = s
    · subst h; simp
    · rw [if_neg h, Dict.get?_set_ne (Ne.symm h)]; rfl
  | unmap t =>
    show Dict.get? (Dict.del m.spec2attr t) s = (if t = s then some none else none).getD (getAttribute m s)
    by_cases h : t = s
    · subst h; simp
    · rw [if_neg h, Dict.get?_del_ne (Ne.symm h)]; rfl

theorem step_carg (m : Mapper) (o : Op) (s : Nat) : getCarg (step m o) s = (cargOf s o).getD (getCarg m s) := by
  cases o with
  | mapAttr a t => rfl
  | mapConstArg a t =>
    show Dict.get? (Dict.set m.spec2carg t a) s = (if t = s then some (some a) else none).getD (getCarg m s)
    by_cases h : t = s
    · subst h; simp
    · rw [if_neg h, Dict.get?_set_ne (Ne.symm h)]; rfl
  | mapSpec a t =>
    show Dict.get? (Dict.set m.spec2carg t a) s = (if t = s then some (some a) else none).getD (getCarg m s)
    by_cases h : t = s
    · subst h; simp
    · rw [if_neg h, Dict.get?_set_ne (Ne.symm h)]; rfl
  | unmap t =>
    show Dict.get? (Dict.del m.spec2carg t) s = (if t = s then some none else none).getD (getCarg m s)
    by_cases h : t = s
    · subst h; simp
    · rw [if_neg h, Dict.get?_del_ne (Ne.symm h)]; rfl

theorem step_spec (m : Mapper) (o : Op) (a : Name) : getAttrSpec (step m o) a = (specOf a o).or (getAttrSpec m a) := by
  cases o with
  | mapAttr b t =>
    show Dict.get? (Dict.set m.attr2spec b t) a = (if b = a then some t else none).or (getAttrSpec m a)
    by_cases h : b = a
    · subst h; simp
    · rw [if_neg h, Dict.get?_set_ne (Ne.symm h)]; rfl
  | mapConstArg b t => rfl
  | mapSpec b t =>
    show Dict.get? (Dict.set m.attr2spec b t) a = (if b = a then some t else none).or (getAttrSpec m a)
    by_cases h : b = a
    · subst h; simp
    · rw [if_neg h, Dict.get?_set_ne (Ne.symm h)]; rfl
  | unmap t => rfl

theorem run_attribute_other : ∀ (ops : List Op) (m : Mapper) (s : Nat), (∀ o ∈ ops, attrOf s o = none) → getAttribute (run m ops) s = getAttribute m s
  | [], _, _, _ => rfl
  | o :: ops, m, s, h => by
    rw [show run m (o :: ops) = run (step m o) ops from rfl, run_attribute_other ops _ s (fun x hx => h x (List.mem_cons_of_mem _ hx)),
      step_attribute, h o (by simp)]
    rfl

theorem run_carg_other : ∀ (ops : List Op) (m : Mapper) (s : Nat), (∀ o ∈ ops, cargOf s o = none) → getCarg (run m ops) s = getCarg m s
  | [], _, _, _ => rfl
  | o :: ops, m, s, h => by
    rw [show run m (o :: ops) = run (step m o) ops from rfl, run_carg_other ops _ s (fun x hx => h x (List.mem_cons_of_mem _ hx)),
      step_carg, h o (by simp)]
    rfl

theorem run_spec_other : ∀ (ops : List Op) (m : Mapper) (a : Name), (∀ o ∈ ops, specOf a o = none) → getAttrSpec (run m ops) a = getAttrSpec m a
  | [], _, _, _ => rfl
  | o :: ops, m, a, h => by
    rw [show run m (o :: ops) = run (step m o) ops from rfl, run_spec_other ops _ a (fun x hx => h x (List.mem_cons_of_mem _ hx)),
      step_spec, h o (by simp)]
    rfl

/-- C148: after any calls the attribute of a spec is the one given by the last call that maps or unmaps the spec, or that of the constructor if
there is no such call; the same for constructor arguments -/
theorem C148_last (m : Mapper) (pre post : List Op) (o : Op) (s : Nat) :
    (∀ v, attrOf s o = some v → (∀ x ∈ post, attrOf s x = none) → getAttribute (run m (pre ++ o :: post)) s = v) ∧
    (∀ v, cargOf s o = some v → (∀ x ∈ post, cargOf s x = none) → getCarg (run m (pre ++ o :: post)) s = v) ∧
    ((∀ x ∈ post, attrOf s x = none) → getAttribute (run m post) s = getAttribute m s) ∧
    ((∀ x ∈ post, cargOf s x = none) → getCarg (run m post) s = getCarg m s) := by
  refine ⟨fun v hv h => ?_, fun v hv h => ?_, run_attribute_other post m s, run_carg_other post m s⟩
  · rw [run_append, show run (run m pre) (o :: post) = run (step (run m pre) o) post from rfl, run_attribute_other _ _ _ h, step_attribute, hv]
    rfl
  · rw [run_append, show run (run m pre) (o :: post) = run (step (run m pre) o) post from rfl, run_carg_other _ _ _ h, step_carg, hv]
    rfl

/-- C148: after any calls the spec of an attribute is the one of the last call that maps this attribute -/
theorem C148_spec (m : Mapper) (pre post : List Op) (o : Op) (a : Name) (s : Nat) (h : specOf a o = some s) (hp : ∀ x ∈ post, specOf a x = none) :
    getAttrSpec (run m (pre ++ o :: post)) a = some s := by
  rw [run_append, show run (run m pre) (o :: post) = run (step (run m pre) o) post from rfl, run_spec_other _ _ _ hp, step_spec, h]
  rfl

/-- the spec that a call gives to the name of an argument of the constructor -/
def cspecOf (a : Name) : Op → Option Nat
  | .mapConstArg b s => if b = a then some s else none
  | .mapSpec b s => if b = a then some s else none
  | _ => none

theorem step_cspec (m : Mapper) (o : Op) (a : Name) : getCargSpec (step m o) a = (cspecOf a o).or (getCargSpec m a) := by
  cases o with
  | mapConstArg b t =>
    show Dict.get? (Dict.set m.carg2spec b t) a = (if b = a then some t else none).or (getCargSpec m a)
    by_cases h : b = a
    · subst h; simp
    · rw [if_neg h, Dict.get?_set_ne (Ne.symm h)]; rfl
  | mapAttr b t => rfl
  | mapSpec b t =>
    show Dict.get? (Dict.set m.carg2spec b t) a = (if b = a then some t else none).or (getCargSpec m a)
    by_cases h : b = a
    · subst h; simp
    · rw [if_neg h, Dict.get?_set_ne (Ne.symm h)]; rfl
  | unmap t => rfl

theorem run_cspec_other : ∀ (ops : List Op) (m : Mapper) (a : Name), (∀ o ∈ ops, cspecOf a o = none) → getCargSpec (run m ops) a = getCargSpec m a
  | [], _, _, _ => rfl
  | o :: ops, m, a, h => by
    rw [show run m (o :: ops) = run (step m o) ops from rfl, run_cspec_other ops _ a (fun x hx => h x (List.mem_cons_of_mem _ hx)),
      step_cspec, h o (by simp)]
    rfl

/-- C148: the same for the spec of an argument of the constructor -/
theorem C148_carg_spec (m : Mapper) (pre post : List Op) (o : Op) (a : Name) (s : Nat) (h : cspecOf a o = some s) (hp : ∀ x ∈ post, cspecOf a x = none) :
    getCargSpec (run m (pre ++ o :: post)) a = some s ∧ getCargSpec (run m post) a = getCargSpec m a := by
  refine ⟨?_, run_cspec_other post m a hp⟩
  rw [run_append, show run (run m pre) (o :: post) = run (step (run m pre) o) post from rfl, run_cspec_other _ _ _ hp, step_cspec, h]
  rfl

/-- each call gives a spec a name that no other spec has at that moment -/
def Fresh : Mapper → List Op → Prop
  | _, [] => True
  | m, o :: ops => (∀ a s, specOf a o = some s → ∀ t, getAttribute m t = some a → t = s) ∧ Fresh (step m o) ops

/-- C148 for calls that give a spec a name no other spec has: the spec of the attribute of a spec is the spec itself.  The converse is not
true (`C148_unmap_fails`), nor is this for other calls (`C148_taken_fails`). -/
theorem C148_inverse_partial : ∀ (ops : List Op) (m : Mapper), (∀ s a, getAttribute m s = some a → getAttrSpec m a = some s) → Fresh m ops →
    ∀ s a, getAttribute (run m ops) s = some a → getAttrSpec (run m ops) a = some s
  | [], _, h, _ => h
  | o :: ops, m, h, hf => by
    refine C148_inverse_partial ops (step m o) ?_ hf.2
    intro s a hs
    rw [step_attribute] at hs
    rw [step_spec]
    cases hso : specOf a o with
    | some t =>
      cases hao : attrOf s o with
      | none =>
        rw [hao] at hs
        rw [hf.1 a t hso s hs]
        rfl
      | some v =>
        rw [hao] at hs
        have hs : v = some a := hs
        subst hs
        cases o with
        | mapAttr b u =>
          by_cases hu : u = s
          · by_cases hb : b = a
            · simp [specOf, hb] at hso
              rw [← hso, hu]
              rfl
            · simp [specOf, hb] at hso
          · simp [attrOf, hu] at hao
        | mapSpec b u =>
          by_cases hu : u = s
          · by_cases hb : b = a
            · simp [specOf, hb] at hso
              rw [← hso, hu]
              rfl
            · simp [specOf, hb] at hso
          · simp [attrOf, hu] at hao
        | mapConstArg b u => simp [attrOf] at hao
        | unmap u => simp [specOf] at hso
    | none =>
      cases hao : attrOf s o with
      | none =>
        rw [hao] at hs
        exact h s a hs
      | some v =>
        rw [hao] at hs
        have hs : v = some a := hs
        subst hs
        cases o with
        | mapAttr b u =>
          by_cases hu : u = s
          · simp [attrOf, hu] at hao
            simp [specOf, hao] at hso
          · simp [attrOf, hu] at hao
        | mapSpec b u =>
          by_cases hu : u = s
          · simp [attrOf, hu] at hao
            simp [specOf, hao] at hso
          · simp [attrOf, hu] at hao
        | mapConstArg b u => simp [attrOf] at hao
        | unmap u =>
          by_cases hu : u = s
          · simp [attrOf, hu] at hao
          · simp [attrOf, hu] at hao

/-- C148 fails: after `unmap` the attribute and the constructor argument are still mapped to the spec, and after `map_attr` with another name the
old attribute is -/
theorem C148_unmap_fails : ∃ n s k,
    (getAttribute (run (init n) [.unmap s]) s = none ∧ getAttrSpec (run (init n) [.unmap s]) k = some s ∧
      getCargSpec (run (init n) [.unmap s]) k = some s) ∧
    ∃ b, b ≠ k ∧ getAttribute (run (init n) [.mapAttr b s]) s = some b ∧ getAttrSpec (run (init n) [.mapAttr b s]) k = some s :=
  ⟨egType, 1, "unit".toList, ⟨by decide +kernel, by decide +kernel, by decide +kernel⟩, "other".toList, by decide +kernel, by decide +kernel,
    by decide +kernel⟩

/-- C148 fails: if a spec is mapped to the attribute of another one, both specs have the attribute -/
theorem C148_taken_fails : ∃ n s t k, s ≠ t ∧ getAttribute (run (init n) [.mapAttr k t]) s = some k ∧
    getAttribute (run (init n) [.mapAttr k t]) t = some k ∧ getAttrSpec (run (init n) [.mapAttr k t]) k ≠ some s :=
  ⟨egType, 1, 3, "unit".toList, by decide, by decide +kernel, by decide +kernel, by decide +kernel⟩

example : (∀ s a, getAttribute (init egType) s = some a → getAttrSpec (init egType) a = some s) ∧
    Fresh (init egType) [.unmap 3, .mapSpec "lab".toList 3] := by
  have hs : (init egType).spec2attr = [(1, "unit".toList), (2, "general".toList), (3, "general__lab".toList), (4, "time_series".toList)] := by
    decide +kernel
  have ha : (init egType).attr2spec = [("unit".toList, 1), ("general".toList, 2), ("general__lab".toList, 3), ("time_series".toList, 4)] := by
    decide +kernel
  refine ⟨fun s a h => ?_, fun a s h => by simp [specOf] at h, fun a s h t ht => ?_, trivial⟩
  · unfold getAttribute at h
    rw [hs] at h
    unfold getAttrSpec
    rw [ha]
    have hm := Dict.mem_of_get? h
    simp only [List.mem_cons, Prod.mk.injEq, List.not_mem_nil, or_false] at hm
    rcases hm with ⟨rfl, rfl⟩ | ⟨rfl, rfl⟩ | ⟨rfl, rfl⟩ | ⟨rfl, rfl⟩ <;> decide +kernel
  · have e : specOf a (.mapSpec "lab".toList 3) = if "lab".toList = a then some 3 else none := rfl
    rw [e] at h
    split at h
    · rename_i ha
      have ht : Dict.get? (Dict.del (init egType).spec2attr 3) t = some a := ht
      rw [hs] at ht
      have hm := Dict.mem_of_get? ht
      rw [← ha] at hm
      revert hm
      rw [show Dict.del [(1, "unit".toList), (2, "general".toList), (3, "general__lab".toList), (4, "time_series".toList)] 3 =
        [(1, "unit".toList), (2, "general".toList), (4, "time_series".toList)] from by decide +kernel]
      simp
    · cases h

/-! ## C149: functions of a mapper class for arguments and attributes -/

/-- C149: along classes that derive from each other the function used for a constructor argument is the last one decorated for it, in the most
derived class that has one; with no such function there is none.  The same for attributes. -/
theorem C149_derived (pre post : List (List Member)) (ms ms' : List Member) (m : Member) (a : String) :
    (m.mark = some (true, a) → (∀ x ∈ ms', x.mark ≠ some (true, a)) → (∀ c ∈ post, ∀ x ∈ c, x.mark ≠ some (true, a)) →
      overrideCarg (gatherChain (pre ++ (ms ++ m :: ms') :: post)) a = some m.func) ∧
    (m.mark = some (false, a) → (∀ x ∈ ms', x.mark ≠ some (false, a)) → (∀ c ∈ post, ∀ x ∈ c, x.mark ≠ some (false, a)) →
      overrideAttr (gatherChain (pre ++ (ms ++ m :: ms') :: post)) a = some m.func) ∧
    ((∀ c ∈ pre, ∀ x ∈ c, x.mark ≠ some (true, a)) → overrideCarg (gatherChain pre) a = none) ∧
    ((∀ c ∈ pre, ∀ x ∈ c, x.mark ≠ some (false, a)) → overrideAttr (gatherChain pre) a = none) := by
  have hflat : ∀ (k : Bool) (cs : List (List Member)), (∀ c ∈ cs, ∀ x ∈ c, x.mark ≠ some (k, a)) → ∀ x ∈ cs.flatten, x.mark ≠ some (k, a) := by
    intro k cs h x hx
    obtain ⟨c, hc, hxc⟩ := List.mem_flatten.1 hx
    exact h c hc x hxc
  have hcat : gatherChain (pre ++ (ms ++ m :: ms') :: post) =
      gather (gatherOne (gather ⟨[], []⟩ (pre.flatten ++ ms)) m) (ms' ++ post.flatten) := by
    unfold gatherChain
    rw [gatherChain_flatten]
    simp [gather]
  refine ⟨fun hm h1 h2 => ?_, fun hm h1 h2 => ?_, fun h => ?_, fun h => ?_⟩
  · unfold overrideCarg
    rw [hcat, gather_cargs _ _ _ (fun x hx => (List.mem_append.1 hx).elim (h1 x) (hflat true post h2 x))]
    simp [gatherOne, hm]
  · unfold overrideAttr
    rw [hcat, gather_attrs _ _ _ (fun x hx => (List.mem_append.1 hx).elim (h1 x) (hflat false post h2 x))]
    simp [gatherOne, hm]
  · unfold overrideCarg gatherChain
    rw [gatherChain_flatten, gather_cargs _ _ _ (hflat true pre h)]
    rfl
  · unfold overrideAttr gatherChain
    rw [gatherChain_flatten, gather_attrs _ _ _ (hflat false pre h)]
    rfl

/-- C149 fails: a method that overrides a decorated one without the decorator is not used; one decorated for another argument is used for that, but
the old one stays in use for the old argument -/
theorem C149_override_fails :
    (∃ base derived : Member, base.name = derived.name ∧ ∃ a, overrideCarg (gatherChain [[base], [derived]]) a = some base.func ∧
      base.func ≠ derived.func) ∧
    ∃ base derived : Member, base.name = derived.name ∧ ∃ a b, a ≠ b ∧ overrideCarg (gatherChain [[base], [derived]]) b = some derived.func ∧
      overrideCarg (gatherChain [[base], [derived]]) a = some base.func :=
  ⟨⟨⟨"get_name", some (true, "name"), 1⟩, ⟨"get_name", none, 2⟩, rfl, "name", by decide +kernel, by decide⟩,
   ⟨"f", some (true, "x"), 1⟩, ⟨"f", some (true, "y"), 2⟩, rfl, "x", "y", by decide, by decide +kernel, by decide +kernel⟩

/-- C149 fails: a class with two bases uses the functions of the first base only -/
theorem C149_bases_fails : ∃ (base first second own : List Member) (a : String),
    overrideCarg (gatherChain [base, second]) a ≠ none ∧ overrideCarg (gather (gatherChain [base, first]) own) a = none :=
  ⟨[⟨"get_container_name", some (true, "name"), 0⟩], [], [⟨"g", some (true, "x"), 1⟩], [], "x", by decide +kernel, by decide +kernel⟩

example : overrideCarg (gatherChain [[⟨"get_container_name", some (true, "name"), 0⟩], [⟨"f", some (true, "x"), 1⟩, ⟨"g", some (false, "x"), 2⟩],
    [⟨"h", some (true, "x"), 3⟩]]) "x" = some 3 ∧
    overrideAttr (gatherChain [[⟨"get_container_name", some (true, "name"), 0⟩], [⟨"f", some (true, "x"), 1⟩, ⟨"g", some (false, "x"), 2⟩],
    [⟨"h", some (true, "x"), 3⟩]]) "x" = some 2 := ⟨by decide +kernel, by decide +kernel⟩

end Verif.Names

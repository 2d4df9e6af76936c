import Verif.Lemmas.ClassGen

/-! # What the constructor of a generated class does -/

namespace Verif.ClassGen
open Verif

variable {V : Type}

/-- the fields declared by a class and those it is derived from, those of the bases first -/
def declared : Cls V → List (String × FSpec V)
  | .container => []
  | .gen p s => declared p ++ newFields s

/-- their names -/
def fieldsOf (c : Cls V) : List String := (declared c).map (fun p => p.1)

/-- the fields have names of their own; those of many containers have no fixed value -/
def Clean (c : Cls V) : Prop :=
  (fieldsOf c).Nodup ∧ (∀ x ∈ fieldsOf c, x ∉ containerAttrs) ∧ ∀ p ∈ declared c, p.2.many = true → p.2.value = none

theorem fieldsOf_gen (p : Cls V) (s : TSpec V) : fieldsOf (.gen p s) = fieldsOf p ++ (newFields s).map (fun q => q.1) := by
  simp [fieldsOf, declared]

theorem Clean.parent {p : Cls V} {s : TSpec V} (h : Clean (.gen p s)) : Clean p := by
  obtain ⟨h1, h2, h3⟩ := h
  rw [fieldsOf_gen] at h1 h2
  exact ⟨(List.nodup_append.1 h1).1, fun x hx => h2 x (List.mem_append.2 (.inl hx)), fun q hq => h3 q (List.mem_append.2 (.inl hq))⟩

theorem Clean.new_nodup {p : Cls V} {s : TSpec V} (h : Clean (.gen p s)) : ((newFields s).map (fun q => q.1)).Nodup := by
  have := h.1
  rw [fieldsOf_gen] at this
  exact (List.nodup_append.1 this).2.1

theorem Clean.disjoint {p : Cls V} {s : TSpec V} (h : Clean (.gen p s)) {x : String} {f : FSpec V} (hf : (x, f) ∈ newFields s) : x ∉ fieldsOf p := by
  intro hx
  have := h.1
  rw [fieldsOf_gen] at this
  exact (List.nodup_append.1 this).2.2 x hx x (List.mem_map.2 ⟨_, hf, rfl⟩) rfl

theorem not_readonly {x : String} (h : x ∉ containerAttrs) : x ∉ readonlyNames := fun hx => h (List.mem_append.2 (.inl hx))
theorem not_name {x : String} (h : x ∉ containerAttrs) : x ≠ "name" := by
  rintro rfl
  exact h (by decide)

theorem lookup_none : ∀ {c : Cls V} {x : String}, x ∉ fieldsOf c → x ∉ readonlyNames → lookup c x = none
  | .container, x, _, hr => by unfold lookup; rw [if_neg hr]
  | .gen p s, x, hx, hr => by
    rw [fieldsOf_gen] at hx
    unfold lookup
    rw [lookup_none (fun h => hx (List.mem_append.2 (.inl h))) hr]
    simp only
    rw [Dict.get?_eq_none_iff.2 (fun h => hx (List.mem_append.2 (.inr h)))]

theorem lookup_declared : ∀ {c : Cls V}, Clean c → ∀ {x : String} {f : FSpec V}, (x, f) ∈ declared c → lookup c x = some (propOf f)
  | .container, _, x, f, hf => by cases hf
  | .gen p s, hc, x, f, hf => by
    unfold lookup
    rcases List.mem_append.1 hf with hf | hf
    · rw [lookup_declared hc.parent hf]
    · have hx : x ∈ fieldsOf (.gen p s) := by rw [fieldsOf_gen]; exact List.mem_append.2 (.inr (List.mem_map.2 ⟨_, hf, rfl⟩))
      rw [lookup_none (hc.disjoint hf) (not_readonly (hc.2.1 x hx))]
      simp only
      rw [Dict.get?_of_mem hc.new_nodup hf]

theorem arg_known : ∀ {c : Cls V} {x : String}, x ∈ c.argNames → x = "name" ∨ ∃ f, (x, f) ∈ declared c ∧ (f.many || f.value.isNone) = true
  | .container, x, h => by left; simpa [Cls.argNames, Cls.args, nameArg] using h
  | .gen p s, x, h => by
    obtain ⟨h | ⟨f, hf, e⟩, -⟩ := (mem_argNames p s x).1 h
    · rcases arg_known h with h | ⟨f, hf, e⟩
      · exact .inl h
      · exact .inr ⟨f, List.mem_append.2 (.inl hf), e⟩
    · exact .inr ⟨f, List.mem_append.2 (.inr hf), e⟩

theorem open_none {c : Cls V} (hc : Clean c) {x : String} {f : FSpec V} (hf : (x, f) ∈ declared c) (h : (f.many || f.value.isNone) = true) :
    f.value = none := by
  cases hm : f.many with
  | true => exact hc.2.2 _ hf hm
  | false => rw [hm] at h; simpa using h

theorem declared_unique {c : Cls V} (hc : Clean c) {x : String} {f g : FSpec V} (hf : (x, f) ∈ declared c) (hg : (x, g) ∈ declared c) : f = g := by
  have h1 := Dict.get?_of_mem hc.1 hf
  have h2 := Dict.get?_of_mem hc.1 hg
  rw [h1] at h2
  exact Option.some.inj h2

theorem fieldArg_mem : ∀ {c : Cls V}, Clean c → ∀ {x : String} {f : FSpec V}, (x, f) ∈ declared c → f.value = none → fieldArg x f ∈ c.args
  | .container, _, x, f, hf, _ => by cases hf
  | .gen p s, hc, x, f, hf, hv => by
    have hx : x ∉ containerAttrs := hc.2.1 x (List.mem_map.2 ⟨_, hf, rfl⟩)
    have hne := not_name hx
    unfold Cls.args
    apply reorder_mem.2
    apply setDefaultName_mem _ (fun e => (hne e).elim)
    apply fixName_mem _ (fun e => (hne e).elim)
    rcases List.mem_append.1 hf with hf | hf
    · apply addFields_other (fieldArg_mem hc.parent hf hv)
      intro g hg
      exact (hc.disjoint hg (List.mem_map.2 ⟨_, hf, rfl⟩)).elim
    · exact addFields_mem _ hc.new_nodup hf (by simp [hv])

theorem field_argName {c : Cls V} (hc : Clean c) {x : String} {f : FSpec V} (hf : (x, f) ∈ declared c) (hv : f.value = none) : x ∈ c.argNames :=
  List.mem_map.2 ⟨_, fieldArg_mem hc hf hv, rfl⟩

theorem not_parent_arg {p : Cls V} {s : TSpec V} (hc : Clean (.gen p s)) {x : String} {f : FSpec V} (hf : (x, f) ∈ newFields s) : x ∉ p.argNames := by
  intro h
  rcases arg_known h with h | ⟨g, hg, -⟩
  · exact not_name (hc.2.1 x (by rw [fieldsOf_gen]; exact List.mem_append.2 (.inr (List.mem_map.2 ⟨_, hf, rfl⟩)))) h
  · exact hc.disjoint hf (List.mem_map.2 ⟨_, hg, rfl⟩)

theorem mem_attrsToSet {p : Cls V} {s : TSpec V} (hc : Clean (.gen p s)) {x : String} :
    x ∈ attrsToSet p.argNames s ↔ ∃ f, (x, f) ∈ newFields s ∧ f.value = none := by
  unfold attrsToSet
  constructor
  · intro h
    obtain ⟨⟨y, f⟩, hq, rfl⟩ := List.mem_map.1 h
    obtain ⟨h1, h2⟩ := List.mem_filter.1 hq
    simp only [Bool.and_eq_true] at h2
    exact ⟨f, h1, Option.isNone_iff_eq_none.1 h2.1⟩
  · rintro ⟨f, hf, hv⟩
    refine List.mem_map.2 ⟨(x, f), List.mem_filter.2 ⟨hf, ?_⟩, rfl⟩
    simp [hv, not_parent_arg hc hf]

theorem attrsToSet_nodup {p : Cls V} {s : TSpec V} (hc : Clean (.gen p s)) : (attrsToSet p.argNames s).Nodup :=
  List.Pairwise.sublist (List.Sublist.map _ List.filter_sublist) hc.new_nodup

theorem mem_manyFields {s : TSpec V} {x : String} : x ∈ manyFields s ↔ ∃ f, (x, f) ∈ newFields s ∧ f.many = true := by
  unfold manyFields
  constructor
  · intro h
    obtain ⟨⟨y, f⟩, hq, rfl⟩ := List.mem_map.1 h
    obtain ⟨h1, h2⟩ := List.mem_filter.1 hq
    exact ⟨f, h1, h2⟩
  · rintro ⟨f, hf, hv⟩
    exact List.mem_map.2 ⟨(x, f), List.mem_filter.2 ⟨hf, hv⟩, rfl⟩

/-! ## Setting fields -/

theorem addNames_eq {d d' : Dict String V} {cs : List (String × V)} (h : addNames d cs = .ok d') : d' = d ++ cs := by
  induction cs generalizing d with
  | nil => cases h; simp
  | cons c cs ih =>
    obtain ⟨n, v⟩ := c
    unfold addNames at h
    split at h
    · cases h
    · rename_i hn
      rw [ih h, Dict.set_of_not_mem (fun hk => hn (Dict.has_iff.2 hk))]
      simp

theorem addNames_ok {d : Dict String V} {cs : List (String × V)} (h : (Dict.keys (d ++ cs)).Nodup) : addNames d cs = .ok (d ++ cs) := by
  induction cs generalizing d with
  | nil => simp [addNames]
  | cons c cs ih =>
    obtain ⟨n, v⟩ := c
    have hn : n ∉ Dict.keys d := by
      intro hk
      simp only [Dict.keys, List.map_append, List.map_cons] at h hk
      exact (List.nodup_append.1 h).2.2 n hk n (by simp) rfl
    unfold addNames
    rw [if_neg (by rw [Dict.has_iff]; exact hn), Dict.set_of_not_mem hn, ih (by simpa using h)]
    simp

/-- what a field has stored when a value has been set -/
def setOutcome : Prop' → Val V → Option (Stored V)
  | .multi, .many cs => some (.dict cs)
  | .multi, _ => none
  | _, .none => none
  | _, v => some (.plain v)

theorem setField_spec {self : Cls V} {st st' : St V} {x : String} {v : Val V} {q : Prop'} (hq : lookup self x = some q) (hx : Dict.get? st.fields x = none)
    (h : setField self st x v = .ok st') : Dict.get? st'.fields x = setOutcome q v ∧ (∀ y, y ≠ x → Dict.get? st'.fields y = Dict.get? st.fields y) ∧
      st'.name = st.name ∧ st'.calls = st.calls ∧ (q = .multi → ∀ w n, v ≠ .one w n) := by
  unfold setField at h
  rw [hq] at h
  cases q with
  | readonly => cases h
  | plain r =>
    simp only at h
    cases v with
    | none => cases h; exact ⟨hx, fun _ _ => rfl, rfl, rfl, by simp⟩
    | one w n =>
      simp only [Bool.false_eq_true, if_false] at h
      split at h
      · split at h
        · cases h
        · cases h
          exact ⟨Dict.get?_set_self, fun y hy => Dict.get?_set_ne hy, rfl, rfl, by simp⟩
      · cases h
    | many cs =>
      simp only [Bool.false_eq_true, if_false] at h
      split at h
      · split at h
        · cases h
        · cases h
          exact ⟨Dict.get?_set_self, fun y hy => Dict.get?_set_ne hy, rfl, rfl, by simp⟩
      · cases h
  | multi =>
    cases v with
    | none => cases h; exact ⟨hx, fun _ _ => rfl, rfl, rfl, by simp⟩
    | one w n => cases h
    | many cs =>
      simp only at h
      unfold addList at h
      split at h
      · cases h
      · rename_i d hd
        cases h
        have : d = cs := by rw [addNames_eq hd]; simp [stored, hx]
        subst this
        exact ⟨Dict.get?_set_self, fun y hy => Dict.get?_set_ne hy, rfl, rfl, by simp⟩

theorem setLoop_spec {self : Cls V} (q : String → Prop') : ∀ {xs : List (String × Val V)} {st st' : St V}, (xs.map (fun p => p.1)).Nodup →
    (∀ p ∈ xs, lookup self p.1 = some (q p.1)) → (∀ p ∈ xs, Dict.get? st.fields p.1 = none) → setLoop self xs st = .ok st' →
    (∀ p ∈ xs, Dict.get? st'.fields p.1 = setOutcome (q p.1) p.2) ∧ (∀ y, y ∉ xs.map (fun p => p.1) → Dict.get? st'.fields y = Dict.get? st.fields y) ∧
      st'.name = st.name ∧ st'.calls = st.calls ∧ ∀ p ∈ xs, q p.1 = .multi → ∀ w n, p.2 ≠ .one w n
  | [], st, st', _, _, _, h => by cases h; exact ⟨by simp, fun _ _ => rfl, rfl, rfl, by simp⟩
  | (x, v) :: xs, st, st', hn, hq, hx, h => by
    rw [List.map_cons, List.nodup_cons] at hn
    unfold setLoop at h
    split at h
    · cases h
    · rename_i st1 h1
      obtain ⟨a1, a2, a3, a4, a5⟩ := setField_spec (hq (x, v) (by simp)) (hx (x, v) (by simp)) h1
      obtain ⟨b1, b2, b3, b4, b5⟩ := setLoop_spec q hn.2 (fun p hp => hq p (List.mem_cons_of_mem _ hp)) (fun p hp => by
        rw [a2 p.1 (fun e => hn.1 (List.mem_map.2 ⟨p, hp, e⟩))]
        exact hx p (List.mem_cons_of_mem _ hp)) h
      refine ⟨?_, ?_, by rw [b3, a3], by rw [b4, a4], ?_⟩
      · intro p hp
        rcases List.mem_cons.1 hp with rfl | hp
        · rw [b2 _ hn.1]; exact a1
        · exact b1 p hp
      · intro y hy
        rw [List.map_cons, List.mem_cons, not_or] at hy
        rw [b2 y hy.2, a2 y hy.1]
      · intro p hp
        rcases List.mem_cons.1 hp with rfl | hp
        · exact a5
        · exact b5 p hp

theorem setLoop_ok {self : Cls V} : ∀ {xs : List (String × Val V)} {st : St V}, (xs.map (fun p => p.1)).Nodup →
    (∀ p ∈ xs, Dict.get? st.fields p.1 = none) →
    (∀ p ∈ xs, ∀ t : St V, Dict.get? t.fields p.1 = none → ∃ t', setField self t p.1 p.2 = .ok t') → 
    (∀ p ∈ xs, ∃ q, lookup self p.1 = some q) → ∃ st', setLoop self xs st = .ok st'
  | [], st, _, _, _, _ => ⟨st, rfl⟩
  | (x, v) :: xs, st, hn, hx, hs, hl => by
    rw [List.map_cons, List.nodup_cons] at hn
    obtain ⟨t, ht⟩ := hs (x, v) (by simp) st (hx _ (by simp))
    obtain ⟨q, hq⟩ := hl (x, v) (by simp)
    obtain ⟨-, a2, -, -, -⟩ := setField_spec hq (hx (x, v) (by simp)) ht
    obtain ⟨st', h'⟩ := setLoop_ok (st := t) hn.2 (fun p hp => by
        rw [a2 p.1 (fun e => hn.1 (List.mem_map.2 ⟨p, hp, e⟩))]
        exact hx p (List.mem_cons_of_mem _ hp)) (fun p hp => hs p (List.mem_cons_of_mem _ hp)) (fun p hp => hl p (List.mem_cons_of_mem _ hp))
    exact ⟨st', by unfold setLoop; simp only [ht, h']⟩

theorem setFixed_spec : ∀ {fs : List (String × FSpec V)} {st : St V}, (fs.map (fun p => p.1)).Nodup →
    (∀ p ∈ fs, Dict.get? (setFixed fs st).fields p.1 = match p.2.value with | some v => some (.plain v) | none => Dict.get? st.fields p.1) ∧
      (∀ y, y ∉ fs.map (fun p => p.1) → Dict.get? (setFixed fs st).fields y = Dict.get? st.fields y) ∧
      (setFixed fs st).name = st.name ∧ (setFixed fs st).calls = st.calls
  | [], st, _ => ⟨by simp, fun _ _ => rfl, rfl, rfl⟩
  | (x, f) :: fs, st, hn => by
    rw [List.map_cons, List.nodup_cons] at hn
    unfold setFixed
    cases hv : f.value with
    | none =>
      simp only
      obtain ⟨b1, b2, b3, b4⟩ := setFixed_spec (st := st) hn.2
      refine ⟨?_, ?_, b3, b4⟩
      · intro p hp
        rcases List.mem_cons.1 hp with rfl | hp
        · simp only [hv]; exact b2 _ hn.1
        · exact b1 p hp
      · intro y hy
        rw [List.map_cons, List.mem_cons, not_or] at hy
        exact b2 y hy.2
    | some w =>
      simp only
      obtain ⟨b1, b2, b3, b4⟩ := setFixed_spec (st := ⟨st.name, Dict.set st.fields x (.plain w), st.calls⟩) hn.2
      refine ⟨?_, ?_, b3, b4⟩
      · intro p hp
        rcases List.mem_cons.1 hp with rfl | hp
        · simp only [hv]; rw [b2 _ hn.1]; exact Dict.get?_set_self
        · rw [b1 p hp]
          cases p.2.value with
          | some _ => rfl
          | none => exact Dict.get?_set_ne (fun e => hn.1 (List.mem_map.2 ⟨p, hp, e⟩))
      · intro y hy
        rw [List.map_cons, List.mem_cons, not_or] at hy
        rw [b2 y hy.2]
        exact Dict.get?_set_ne hy.1

theorem callPost_spec (post skip : Bool) (kw : Dict String (Val V)) (st : St V) : (callPost post skip kw st).fields = st.fields ∧
    (callPost post skip kw st).name = st.name ∧
    (callPost post skip kw st).calls = if post && !skip then st.calls ++ [(kw, st.fields)] else st.calls := by
  unfold callPost
  split <;> exact ⟨rfl, rfl, rfl⟩

/-- what `add_x` has stored -/
def addOutcome (old : Option (Stored V)) (v : Val V) : Option (Stored V) := match v with
  | .none => old
  | .many cs => some (.dict ((match old with | some (.dict d) => d | _ => []) ++ cs))
  | .one w (some n) => some (.dict ((match old with | some (.dict d) => d | _ => []) ++ [(n, w)]))
  | .one _ none => none

theorem addMany_spec {st st' : St V} {x : String} {v : Val V} (hv : v ≠ .none) (h : addMany st x v = .ok st') :
    Dict.get? st'.fields x = addOutcome (Dict.get? st.fields x) v ∧ (∀ y, y ≠ x → Dict.get? st'.fields y = Dict.get? st.fields y) ∧
      st'.name = st.name ∧ st'.calls = st.calls := by
  have key : ∀ cs, addList st x cs = .ok st' → Dict.get? st'.fields x = some (.dict (stored st x ++ cs)) ∧
      (∀ y, y ≠ x → Dict.get? st'.fields y = Dict.get? st.fields y) ∧ st'.name = st.name ∧ st'.calls = st.calls := by
    intro cs h
    unfold addList at h
    split at h
    · cases h
    · rename_i d hd
      cases h
      rw [addNames_eq hd]
      exact ⟨Dict.get?_set_self, fun y hy => Dict.get?_set_ne hy, rfl, rfl⟩
  cases v with
  | none => exact (hv rfl).elim
  | many cs => exact key cs h
  | one w n =>
    cases n with
    | none => cases h
    | some n => exact key [(n, w)] h

theorem addLoop_spec {kw : Dict String (Val V)} : ∀ {xs : List String} {st st' : St V}, xs.Nodup → addLoop kw xs st = .ok st' →
    (∀ x ∈ xs, Dict.get? st'.fields x = match Dict.get? kw x with | none => Dict.get? st.fields x | some v => addOutcome (Dict.get? st.fields x) v) ∧
      (∀ y, y ∉ xs → Dict.get? st'.fields y = Dict.get? st.fields y) ∧ st'.name = st.name ∧ st'.calls = st.calls
  | [], st, st', _, h => by cases h; exact ⟨by simp, fun _ _ => rfl, rfl, rfl⟩
  | x :: xs, st, st', hn, h => by
    rw [List.nodup_cons] at hn
    have step : ∃ st1, addLoop kw xs st1 = .ok st' ∧
        (Dict.get? st1.fields x = match Dict.get? kw x with | none => Dict.get? st.fields x | some v => addOutcome (Dict.get? st.fields x) v) ∧
        (∀ y, y ≠ x → Dict.get? st1.fields y = Dict.get? st.fields y) ∧ st1.name = st.name ∧ st1.calls = st.calls := by
      unfold addLoop at h
      cases hk : Dict.get? kw x with
      | none => rw [hk] at h; exact ⟨st, h, rfl, fun _ _ => rfl, rfl, rfl⟩
      | some v =>
        rw [hk] at h
        by_cases hv : v = .none
        · subst hv
          exact ⟨st, h, rfl, fun _ _ => rfl, rfl, rfl⟩
        · have h' : ∃ st1, addMany st x v = .ok st1 ∧ addLoop kw xs st1 = .ok st' := by
            cases v with
            | none => exact (hv rfl).elim
            | one w n =>
              simp only at h
              split at h
              · cases h
              · rename_i st1 h1; exact ⟨st1, h1, h⟩
            | many cs =>
              simp only at h
              split at h
              · cases h
              · rename_i st1 h1; exact ⟨st1, h1, h⟩
          obtain ⟨st1, h1, h2⟩ := h'
          obtain ⟨a1, a2, a3, a4⟩ := addMany_spec hv h1
          exact ⟨st1, h2, a1, a2, a3, a4⟩
    obtain ⟨st1, h1, a1, a2, a3, a4⟩ := step
    obtain ⟨b1, b2, b3, b4⟩ := addLoop_spec hn.2 h1
    refine ⟨?_, ?_, by rw [b3, a3], by rw [b4, a4]⟩
    · intro y hy
      rcases List.mem_cons.1 hy with rfl | hy
      · rw [b2 _ hn.1]; exact a1
      · rw [b1 y hy, a2 y (fun e => hn.1 (e ▸ hy))]
    · intro y hy
      rw [List.mem_cons, not_or] at hy
      rw [b2 y hy.2, a2 y hy.1]

/-! ## The constructor -/

/-- the value an argument has in the end: the one given, or the default -/
def bound (kw : Dict String (Val V)) (x : String) (f : FSpec V) : Val V := (Dict.get? kw x).getD f.dflt

/-- what the field has stored in the end -/
def outcome (f : FSpec V) (v : Val V) : Option (Stored V) := match f.value with
  | some w => some (.plain w)
  | none => if f.many then (match v with
      | .many cs => some (.dict cs)
      | .one w (some n) => some (.dict [(n, w)])
      | _ => none)
    else (match v with
      | .none => none
      | v => some (.plain v))

theorem bindOne_some {a : Arg V} {v w : Val V} (h : bindOne a (some v) = .ok w) : w = v := by
  unfold bindOne at h
  cases v with
  | none =>
    simp only at h
    split at h
    · cases h; rfl
    · cases h
  | one _ _ => simp only at h; split at h <;> cases h; rfl
  | many _ => simp only at h; split at h <;> cases h; rfl

theorem bind_bound {c : Cls V} (hc : Clean c) {kw b : Dict String (Val V)} (h : bind c.args kw = .ok b) {x : String} {f : FSpec V} (hf : (x, f) ∈ declared c)
    (hv : f.value = none) : Dict.get? b x = some (bound kw x f) := by
  obtain ⟨-, -, h3⟩ := bind_get h (args_nodup c)
  obtain ⟨v, h4, h5⟩ := h3 _ (fieldArg_mem hc hf hv)
  have h4 : bindOne (fieldArg x f) (Dict.get? kw x) = .ok v := h4
  have h5 : Dict.get? b x = some v := h5
  rw [h5]
  congr 1
  unfold bound
  cases hk : Dict.get? kw x with
  | some w => rw [hk] at h4; exact bindOne_some h4
  | none =>
    rw [hk] at h4
    unfold bindOne fieldArg at h4
    simp only at h4
    split at h4
    · cases h4
    · rename_i d hd
      cases h4
      split at hd
      · cases hd; rfl
      · cases hd

/-- the constructor of the base and the new fields -/
theorem body_spec {post : Bool} {self : Cls V} {base : Dict String (Val V) → St V → Except Err (St V)} {p : Cls V} {s : TSpec V}
    (hc : Clean (.gen p s)) {kw : Dict String (Val V)} {skip : Bool} {st st' : St V} (hl : ∀ q ∈ declared (.gen p s), lookup self q.1 = some (propOf q.2))
    (hbase : ∀ k t t', base k t = .ok t' → ∀ y, y ∉ fieldsOf p → Dict.get? t'.fields y = Dict.get? t.fields y)
    (hst : ∀ x ∈ fieldsOf (.gen p s), Dict.get? st.fields x = none)
    (h : body post self base p.argNames s kw skip st = .ok st') :
    ∃ st1, base ((forceName s.name kw).filter (fun q => !(attrsToSet p.argNames s).contains q.1 && p.argNames.contains q.1)) st = .ok st1 ∧
      (∀ q ∈ newFields s, Dict.get? st'.fields q.1 = match q.2.value with
        | some w => some (.plain w)
        | none => setOutcome (propOf q.2) ((Dict.get? kw q.1).getD .none)) ∧
      (∀ y, y ∉ (newFields s).map (fun q => q.1) → Dict.get? st'.fields y = Dict.get? st1.fields y) ∧ st'.name = st1.name ∧
      (st'.calls = if post && !skip then st1.calls ++ [(kw, st'.fields)] else st1.calls) ∧
      ∀ q ∈ newFields s, q.2.value = none → q.2.many = true → ∀ w n, (Dict.get? kw q.1).getD .none ≠ .one w n := by
  unfold body at h
  split at h
  · cases h
  · rename_i st1 h1
    split at h
    · cases h
    · rename_i st2 h2
      cases h
      refine ⟨st1, h1, ?_⟩
      have hmem : ∀ q ∈ newFields s, q ∈ declared (.gen p s) := fun q hq => List.mem_append.2 (.inr hq)
      have hnm : ∀ q ∈ newFields s, q.1 ∈ fieldsOf (.gen p s) := fun q hq => List.mem_map.2 ⟨q, hmem q hq, rfl⟩
      have hst1 : ∀ q ∈ newFields s, Dict.get? st1.fields q.1 = none := by
        intro q hq
        rw [hbase _ _ _ h1 q.1 (hc.disjoint (f := q.2) hq)]
        exact hst _ (hnm q hq)
      have hkeys : ((attrsToSet p.argNames s).map (fun x => (x, (Dict.get? (forceName s.name kw) x).getD .none))).map (fun q => q.1) =
          attrsToSet p.argNames s := by
        rw [List.map_map]
        exact List.map_id' _
      obtain ⟨a1, a2, a3, a4, a5⟩ := setLoop_spec (fun x => ((Dict.get? (newFields s) x).map propOf).getD .readonly)
        (by rw [hkeys]; exact attrsToSet_nodup hc) (by
          intro q hq
          obtain ⟨x, hx, rfl⟩ := List.mem_map.1 hq
          obtain ⟨f, hf, hv⟩ := (mem_attrsToSet hc).1 hx
          simp only
          rw [hl _ (hmem _ hf), Dict.get?_of_mem hc.new_nodup hf]
          rfl) (by
          intro q hq
          obtain ⟨x, hx, rfl⟩ := List.mem_map.1 hq
          obtain ⟨f, hf, hv⟩ := (mem_attrsToSet hc).1 hx
          exact hst1 _ hf) h2
      obtain ⟨b1, b2, b3, b4⟩ := setFixed_spec (fs := newFields s) (st := st2) hc.new_nodup
      obtain ⟨c1, c2, c3⟩ := callPost_spec post skip kw (setFixed (newFields s) st2)
      rw [c1]
      refine ⟨?_, ?_, by rw [c2, b3, a3], by rw [c3, b4, a4], ?_⟩
      · intro q hq
        rw [b1 q hq]
        cases hv : q.2.value with
        | some w => rfl
        | none =>
          simp only
          have hin : q.1 ∈ attrsToSet p.argNames s := (mem_attrsToSet hc).2 ⟨q.2, hq, hv⟩
          rw [a1 (q.1, (Dict.get? (forceName s.name kw) q.1).getD .none) (List.mem_map.2 ⟨q.1, hin, rfl⟩)]
          simp only
          rw [Dict.get?_of_mem (v := q.2) hc.new_nodup hq, get_forceName]
          have hne := not_name (hc.2.1 _ (hnm q hq))
          cases s.name with
          | none => rfl
          | some w => simp only [hne, if_false]; rfl
      · intro y hy
        rw [b2 y hy, a2 y]
        rw [hkeys]
        intro hy'
        obtain ⟨f, hf, -⟩ := (mem_attrsToSet hc).1 hy'
        exact hy (List.mem_map.2 ⟨_, hf, rfl⟩)
      · intro q hq hv hm
        have hin : q.1 ∈ attrsToSet p.argNames s := (mem_attrsToSet hc).2 ⟨q.2, hq, hv⟩
        have := a5 (q.1, (Dict.get? (forceName s.name kw) q.1).getD .none) (List.mem_map.2 ⟨q.1, hin, rfl⟩) (by
          simp only
          rw [Dict.get?_of_mem (v := q.2) hc.new_nodup hq]
          simp [propOf, hm])
        rw [get_forceName] at this
        have hne := not_name (hc.2.1 _ (hnm q hq))
        cases hn : s.name with
        | none => rw [hn] at this; exact this
        | some w => rw [hn] at this; simpa only [hne, if_false] using this

/-- the arguments that the constructor of the base gets -/
theorem get_pass {p : Cls V} {s : TSpec V} (hc : Clean (.gen p s)) (kw : Dict String (Val V)) (x : String) :
    Dict.get? ((forceName s.name kw).filter (fun q => !(attrsToSet p.argNames s).contains q.1 && p.argNames.contains q.1)) x =
      if x ∈ p.argNames then Dict.get? (forceName s.name kw) x else none := by
  rw [get_filter (q := fun y => !(attrsToSet p.argNames s).contains y && p.argNames.contains y)]
  by_cases hx : x ∈ p.argNames
  · rw [if_pos hx, if_pos]
    have : x ∉ attrsToSet p.argNames s := by
      intro h
      obtain ⟨f, hf, -⟩ := (mem_attrsToSet hc).1 h
      exact not_parent_arg hc hf hx
    simp [this, hx]
  · rw [if_neg hx, if_neg]
    simp [hx]

theorem outcome_set {f : FSpec V} (hv : f.value = none) (v : Val V) (h : f.many = true → ∀ w n, v ≠ .one w (some n)) :
    setOutcome (propOf f) v = outcome f v := by
  unfold outcome propOf
  rw [hv]
  cases hm : f.many with
  | true =>
    cases v with
    | none => rfl
    | many cs => rfl
    | one w n =>
      cases n with
      | none => rfl
      | some n => exact (h hm w n rfl).elim
  | false => cases v <;> rfl

theorem setField_other {self : Cls V} {st st' : St V} {x : String} {v : Val V} (h : setField self st x v = .ok st') {y : String} (hy : y ≠ x) :
    Dict.get? st'.fields y = Dict.get? st.fields y := by
  unfold setField at h
  split at h
  · cases h; rfl
  · cases h
  · cases v with
    | none => cases h; rfl
    | one w n =>
      simp only [Bool.false_eq_true, if_false] at h
      split at h
      · split at h
        · cases h
        · cases h; exact Dict.get?_set_ne hy
      · cases h
    | many cs =>
      simp only [Bool.false_eq_true, if_false] at h
      split at h
      · split at h
        · cases h
        · cases h; exact Dict.get?_set_ne hy
      · cases h
  · cases v with
    | none => cases h; rfl
    | one w n => cases h
    | many cs =>
      simp only at h
      unfold addList at h
      split at h
      · cases h
      · cases h; exact Dict.get?_set_ne hy

theorem setLoop_other {self : Cls V} : ∀ {xs : List (String × Val V)} {st st' : St V}, setLoop self xs st = .ok st' → ∀ {y : String},
    y ∉ xs.map (fun p => p.1) → Dict.get? st'.fields y = Dict.get? st.fields y
  | [], st, st', h, y, _ => by cases h; rfl
  | (x, v) :: xs, st, st', h, y, hy => by
    rw [List.map_cons, List.mem_cons, not_or] at hy
    unfold setLoop at h
    split at h
    · cases h
    · rename_i st1 h1
      rw [setLoop_other h hy.2, setField_other h1 hy.1]

theorem body_other {post : Bool} {self : Cls V} {base : Dict String (Val V) → St V → Except Err (St V)} {p : Cls V} {s : TSpec V}
    (hc : Clean (.gen p s)) {kw : Dict String (Val V)} {skip : Bool} {st st' : St V}
    (hbase : ∀ k t t', base k t = .ok t' → ∀ y, y ∉ fieldsOf p → Dict.get? t'.fields y = Dict.get? t.fields y)
    (h : body post self base p.argNames s kw skip st = .ok st') {y : String} (hy : y ∉ fieldsOf (.gen p s)) :
    Dict.get? st'.fields y = Dict.get? st.fields y := by
  rw [fieldsOf_gen, List.mem_append, not_or] at hy
  unfold body at h
  split at h
  · cases h
  · rename_i st1 h1
    split at h
    · cases h
    · rename_i st2 h2
      cases h
      rw [(callPost_spec _ _ _ _).1, (setFixed_spec hc.new_nodup).2.1 y hy.2, setLoop_other h2, hbase _ _ _ h1 y hy.1]
      rw [List.map_map]
      intro hy'
      have : y ∈ attrsToSet p.argNames s := by simpa using hy'
      obtain ⟨f, hf, -⟩ := (mem_attrsToSet hc).1 this
      exact hy.2 (List.mem_map.2 ⟨_, hf, rfl⟩)

theorem manyFields_nodup {p : Cls V} {s : TSpec V} (hc : Clean (.gen p s)) : (manyFields s).Nodup :=
  List.Pairwise.sublist (List.Sublist.map _ List.filter_sublist) hc.new_nodup

theorem init_other {common post : Bool} {self : Cls V} : ∀ {c : Cls V} {kw : Dict String (Val V)} {skip : Bool} {st st' : St V}, Clean c →
    init common post self c kw skip st = .ok st' → ∀ y, y ∉ fieldsOf c → Dict.get? st'.fields y = Dict.get? st.fields y
  | .container, kw, skip, st, st', _, h => by
    unfold init at h
    split at h
    · cases h
    · cases h
      exact fun _ _ => rfl
  | .gen p s, kw, skip, st, st', hc, h => by
    intro y hy
    have hb : ∀ k t t', init common post self p k false t = .ok t' → ∀ y, y ∉ fieldsOf p → Dict.get? t'.fields y = Dict.get? t.fields y :=
      fun k t t' h => init_other hc.parent h
    unfold init at h
    split at h
    · cases h
    · split at h
      · exact body_other hc hb h hy
      · split at h
        · cases h
        · split at h
          · cases h
          · split at h
            · cases h
            · rename_i st1 h1
              split at h
              · cases h
              · rename_i st2 h2
                cases h
                rw [(callPost_spec _ _ _ _).1, (addLoop_spec (manyFields_nodup hc) h2).2.1 y, body_other hc hb h1 hy]
                intro hy'
                obtain ⟨f, hf, -⟩ := mem_manyFields.1 hy'
                exact hy (by rw [fieldsOf_gen]; exact List.mem_append.2 (.inr (List.mem_map.2 ⟨_, hf, rfl⟩)))

theorem outcome_fixed {f : FSpec V} {w : Val V} (h : f.value = some w) (v : Val V) : outcome f v = some (.plain w) := by
  unfold outcome; rw [h]

/-- what the constructor of the base gets for a field of it -/
theorem pass_bound {p : Cls V} {s : TSpec V} (hc : Clean (.gen p s)) {b : Dict String (Val V)} {x : String} {f : FSpec V} (hf : (x, f) ∈ declared p)
    (hv : f.value = none) {v : Val V} (hb : Dict.get? b x = some v) :
    bound ((forceName s.name b).filter (fun q => !(attrsToSet p.argNames s).contains q.1 && p.argNames.contains q.1)) x f = v := by
  unfold bound
  rw [get_pass hc, if_pos (field_argName hc.parent hf hv), get_forceName]
  have hne : x ≠ "name" := not_name (hc.parent.2.1 x (List.mem_map.2 ⟨_, hf, rfl⟩))
  cases s.name with
  | none => simp only; rw [hb]; rfl
  | some w => simp only [hne, if_false]; rw [hb]; rfl

theorem bound_bind {c : Cls V} (hc : Clean c) {kw b : Dict String (Val V)} (h : bind c.args kw = .ok b) {x : String} {f : FSpec V} (hf : (x, f) ∈ declared c)
    (hv : f.value = none) : bound b x f = bound kw x f := by
  rw [bound, bind_bound hc h hf hv]; rfl

theorem init_fields {common post : Bool} {self : Cls V} : ∀ {c : Cls V} {kw : Dict String (Val V)} {skip : Bool} {st st' : St V}, Clean c →
    (∀ q ∈ declared c, lookup self q.1 = some (propOf q.2)) → init common post self c kw skip st = .ok st' →
    (∀ x ∈ fieldsOf c, Dict.get? st.fields x = none) → ∀ q ∈ declared c, Dict.get? st'.fields q.1 = outcome q.2 (bound kw q.1 q.2)
  | .container, kw, skip, st, st', _, _, _, _ => fun q hq => by cases hq
  | .gen p s, kw, skip, st, st', hc, hl, h, hst => by
    have hlp : ∀ q ∈ declared p, lookup self q.1 = some (propOf q.2) := fun q hq => hl q (List.mem_append.2 (.inl hq))
    have hstp : ∀ x ∈ fieldsOf p, Dict.get? st.fields x = none := fun x hx => hst x (by rw [fieldsOf_gen]; exact List.mem_append.2 (.inl hx))
    have hb : ∀ k t t', init common post self p k false t = .ok t' → ∀ y, y ∉ fieldsOf p → Dict.get? t'.fields y = Dict.get? t.fields y :=
      fun k t t' h => init_other hc.parent h
    have hold : ∀ {x : String} {f : FSpec V}, (x, f) ∈ declared p → x ∉ (newFields s).map (fun q => q.1) := by
      intro x f hf hx
      obtain ⟨⟨y, g⟩, hg, e⟩ := List.mem_map.1 hx
      simp only at e
      subst e
      exact hc.disjoint hg (List.mem_map.2 ⟨_, hf, rfl⟩)
    unfold init at h
    split at h
    · cases h
    · rename_i b hbind
      split at h
      · obtain ⟨st1, h1, h2, h3, -, -, h6⟩ := body_spec hc hl hb hst h
        intro q hq
        obtain ⟨x, f⟩ := q
        rcases List.mem_append.1 hq with hp | hn
        · rw [h3 x (hold hp)]
          have := init_fields hc.parent hlp h1 hstp (x, f) hp
          simp only at this
          rw [this]
          cases hv : f.value with
          | some w => rw [outcome_fixed hv, outcome_fixed hv]
          | none => rw [pass_bound hc hp hv (bind_bound hc hbind hq hv)]
        · rw [h2 _ hn]
          cases hv : f.value with
          | some w => rw [outcome_fixed hv]
          | none =>
            simp only
            have h6 := h6 _ hn hv
            simp only at h6
            rw [bind_bound hc hbind hq hv] at h6 ⊢
            exact outcome_set hv _ (fun hm w n => h6 hm w (some n))
      · split at h
        · cases h
        · split at h
          · cases h
          · rename_i b' hbind'
            split at h
            · cases h
            · rename_i st1' hbody
              split at h
              · cases h
              · rename_i st2 hadd
                cases h
                obtain ⟨st1, h1, h2, h3, -, -, h6⟩ := body_spec hc hl hb hst hbody
                obtain ⟨c1, c2, -, -⟩ := addLoop_spec (manyFields_nodup hc) hadd
                rw [(callPost_spec _ _ _ _).1]
                intro q hq
                obtain ⟨x, f⟩ := q
                have hbx : f.value = none → Dict.get? b x = some (bound kw x f) := fun hv => bind_bound hc hbind hq hv
                have hbx' : f.value = none → Dict.get? b' x =
                    some (if (manyFields s).contains x then (if bound kw x f matches .none then .none else .many []) else bound kw x f) := by
                  intro hv
                  rw [bind_bound hc hbind' hq hv, bound, get_emptied, hbx hv]
                  rfl
                rcases List.mem_append.1 hq with hp | hn
                · have hm : x ∉ manyFields s := fun hx => by
                    obtain ⟨g, hg, -⟩ := mem_manyFields.1 hx
                    exact hold hp (List.mem_map.2 ⟨_, hg, rfl⟩)
                  simp only
                  rw [c2 x hm, h3 x (hold hp)]
                  have := init_fields hc.parent hlp h1 hstp (x, f) hp
                  simp only at this
                  rw [this]
                  cases hv : f.value with
                  | some w => rw [outcome_fixed hv, outcome_fixed hv]
                  | none =>
                    rw [pass_bound hc hp hv (hbx' hv)]
                    simp [hm]
                · cases hv : f.value with
                  | some w =>
                    have hm : x ∉ manyFields s := fun hx => by
                      obtain ⟨g, hg, e⟩ := mem_manyFields.1 hx
                      have := declared_unique hc (List.mem_append.2 (.inr hg)) hq
                      subst this
                      rw [hc.2.2 _ hq e] at hv
                      cases hv
                    simp only
                    rw [c2 x hm, h2 _ hn, outcome_fixed hv]
                    simp only [hv]
                  | none =>
                    have h6 := h6 _ hn hv
                    have hbx := hbx hv
                    have hbx' := hbx' hv
                    have h2 := h2 _ hn
                    simp only [hv] at h2 h6 ⊢
                    rw [hbx'] at h2
                    cases hm : f.many with
                    | true =>
                      have hmem : x ∈ manyFields s := mem_manyFields.2 ⟨f, hn, hm⟩
                      rw [c1 x hmem, hbx, h2]
                      unfold outcome propOf
                      rw [hv, hm]
                      simp only [List.contains_iff_mem.2 hmem, if_true]
                      cases bound kw x f with
                      | none => rfl
                      | many cs => rfl
                      | one w n => cases n <;> rfl
                    | false =>
                      have hmem : x ∉ manyFields s := fun hx => by
                        obtain ⟨g, hg, e⟩ := mem_manyFields.1 hx
                        have := declared_unique hc (List.mem_append.2 (.inr hg)) hq
                        subst this
                        rw [hm] at e
                        cases e
                      rw [c2 x hmem, h2]
                      have hcn : (manyFields s).contains x = false := by simpa using hmem
                      simp only [hcn, Bool.false_eq_true, if_false, Option.getD_some]
                      exact outcome_set hv _ (fun e => by rw [hm] at e; cases e)

end Verif.ClassGen

import Verif.Lemmas.ClassGenName

/-! # When the constructor of a generated class succeeds -/

namespace Verif.ClassGen
open Verif

variable {V : Type}

/-- the value suits the field: `None` for optional ones without another default; else of a type and shape that the argument takes, and with the name required;
or containers with names of their own; a single container if the constructor is the one for many -/
def Fits (common : Bool) (f : FSpec V) : Val V → Prop
  | .none => optional f.levels = true ∧ f.dflt = .none
  | .many cs => if f.many then (cs.map (fun c => c.1)).Nodup else f.ok (.many cs) = true ∧ f.reqName = none
  | .one v n => f.ok (.one v n) = true ∧ if f.many then common = false ∧ n ≠ none else ∀ r, f.reqName = some r → n = some r

/-- what is asked of the arguments -/
def Accepts (common : Bool) (c : Cls V) (kw : Dict String (Val V)) : Prop :=
  (∀ x ∈ Dict.keys kw, (x = "name" ∧ fixedName c = none) ∨ ∃ f, (x, f) ∈ declared c ∧ f.value = none) ∧
    (∀ q ∈ declared c, q.2.value = none → (Dict.get? kw q.1 = none → optional q.2.levels = true) ∧ Fits common q.2 (bound kw q.1 q.2)) ∧
    (fixedName c = none → ∃ v, boundName c kw = .one v none)

theorem arg_unique {as : List (Arg V)} (hn : (as.map (fun a => a.name)).Nodup) {a b : Arg V} (ha : a ∈ as) (hb : b ∈ as) (h : a.name = b.name) : a = b := by
  induction as with
  | nil => cases ha
  | cons c as ih =>
    rw [List.map_cons, List.nodup_cons] at hn
    rcases List.mem_cons.1 ha with ea | ha
    · rcases List.mem_cons.1 hb with eb | hb
      · rw [ea, eb]
      · exact (hn.1 (List.mem_map.2 ⟨b, hb, by rw [← h, ea]⟩)).elim
    · rcases List.mem_cons.1 hb with eb | hb
      · exact (hn.1 (List.mem_map.2 ⟨a, ha, by rw [h, eb]⟩)).elim
      · exact ih hn.2 ha hb

theorem args_known {c : Cls V} (hc : Clean c) {a : Arg V} (ha : a ∈ c.args) :
    (a = nameArgOf c ∧ fixedName c = none) ∨ ∃ x f, (x, f) ∈ declared c ∧ f.value = none ∧ a = fieldArg x f := by
  have hin : a.name ∈ c.argNames := List.mem_map.2 ⟨a, ha, rfl⟩
  rcases arg_known hin with h | ⟨f, hf, h⟩
  · have hfix := (name_arg_iff hc).1 (h ▸ hin)
    exact .inl ⟨arg_unique (args_nodup c) ha (nameArg_mem hc hfix) h, hfix⟩
  · have hv := open_none hc hf h
    exact .inr ⟨_, f, hf, hv, arg_unique (args_nodup c) ha (fieldArg_mem hc hf hv) rfl⟩

theorem fits_ok {common : Bool} {f : FSpec V} {v : Val V} (h : Fits common f v) (hv : v ≠ .none) (x : String) : (fieldArg x f).ok v = true := by
  cases v with
  | none => exact (hv rfl).elim
  | many cs =>
    unfold Fits at h
    unfold fieldArg
    cases hm : f.many with
    | true => simp
    | false => rw [hm] at h; simp [h.1]
  | one w n => exact h.1

/-- an argument with a value that suits -/
theorem bindOne_fits {common : Bool} {f : FSpec V} {x : String} {g : Option (Val V)} (hr : g = none → optional f.levels = true)
    (hf : Fits common f (g.getD f.dflt)) : bindOne (fieldArg x f) g = .ok (g.getD f.dflt) := by
  cases g with
  | none => simp [bindOne, fieldArg, hr rfl]
  | some v =>
    cases v with
    | none => simp [bindOne, fieldArg, hf.1, hf.2]
    | many cs =>
      simp only [Option.getD_some] at hf ⊢
      simp only [bindOne]
      rw [if_pos (fits_ok hf (by simp) x)]
    | one w n =>
      simp only [Option.getD_some] at hf ⊢
      simp only [bindOne]
      rw [if_pos (fits_ok hf (by simp) x)]

/-- `docval` accepts such arguments -/
theorem bind_accepts {c : Cls V} (hc : Clean c) {kw : Dict String (Val V)} (hk : ∀ x ∈ Dict.keys kw, x ∈ c.argNames)
    (hf : ∀ x f, (x, f) ∈ declared c → f.value = none → ∃ v, bindOne (fieldArg x f) (Dict.get? kw x) = .ok v)
    (hn : fixedName c = none → ∃ v, boundName c kw = .one v none) : ∃ b, bind c.args kw = .ok b := by
  refine bind_ok hk ?_
  intro a ha
  rcases args_known hc ha with ⟨e, hfix⟩ | ⟨x, f, h, hv, e⟩
  · obtain ⟨v, hv⟩ := hn hfix
    subst e
    refine ⟨.one v none, ?_⟩
    show bindOne (nameArgOf c) (Dict.get? kw "name") = _
    unfold boundName at hv
    cases hg : Dict.get? kw "name" with
    | some w =>
      rw [hg] at hv
      simp only [Option.getD_some] at hv
      subst hv
      rfl
    | none =>
      rw [hg] at hv
      unfold bindOne nameArgOf
      cases hd : defaultName c with
      | none => rw [hd] at hv; cases hv
      | some d => rw [hd] at hv; simpa using hv
  · subst e
    exact hf x f h hv

theorem key_of_get {d : Dict String (Val V)} {x : String} {v : Val V} (h : Dict.get? d x = some v) : x ∈ Dict.keys d :=
  List.mem_map.2 ⟨_, Dict.mem_of_get? h, rfl⟩

theorem pass_keys {p : Cls V} {s : TSpec V} {kw : Dict String (Val V)} {x : String} (h : x ∈ Dict.keys (pass p s kw)) : x ∈ p.argNames := by
  obtain ⟨q, hq, rfl⟩ := List.mem_map.1 h
  have := (List.mem_filter.1 hq).2
  simp only [Bool.and_eq_true, List.contains_iff_mem] at this
  exact this.2

/-- the base accepts what it is given -/
theorem pass_accepts {common : Bool} {p : Cls V} {s : TSpec V} (hc : Clean (.gen p s)) {kw b : Dict String (Val V)} (ha : Accepts common (.gen p s) kw)
    (hb : ∀ x f, (x, f) ∈ declared p → f.value = none → Dict.get? b x = some (bound kw x f))
    (hn : fixedName (.gen p s) = none → Dict.get? b "name" = some (boundName (.gen p s) kw)) : Accepts common p (pass p s b) := by
  refine ⟨?_, ?_, ?_⟩
  · intro x hx
    have hin := pass_keys hx
    rcases arg_known hin with e | ⟨f, hf, h⟩
    · exact .inl ⟨e, (name_arg_iff hc.parent).1 (e ▸ hin)⟩
    · exact .inr ⟨f, hf, open_none hc.parent hf h⟩
  · rintro ⟨x, f⟩ hq hv
    have h1 := ha.2.1 (x, f) (List.mem_append.2 (.inl hq)) hv
    have h2 := pass_bound hc hq hv (hb x f hq hv)
    refine ⟨?_, ?_⟩
    · intro h
      exfalso
      have hne : x ≠ "name" := not_name (hc.parent.2.1 x (List.mem_map.2 ⟨_, hq, rfl⟩))
      simp only [pass] at h
      rw [get_pass hc, if_pos (field_argName hc.parent hq hv), get_forceName] at h
      cases hs : s.name with
      | none => rw [hs] at h; simp only at h; rw [hb x f hq hv] at h; cases h
      | some w => rw [hs] at h; simp only [hne, if_false] at h; rw [hb x f hq hv] at h; cases h
    · simp only [pass]
      rw [h2]
      exact h1.2
  · intro hp
    have hin : "name" ∈ p.argNames := (name_arg_iff hc.parent).2 hp
    unfold boundName
    rw [pass, get_pass hc, if_pos hin, get_forceName]
    cases hs : s.name with
    | some v => exact ⟨v, by simp⟩
    | none =>
      have hfix : fixedName (.gen p s) = none := by rw [fixedName_gen, hp]; exact hs
      obtain ⟨v, hv⟩ := ha.2.2 hfix
      refine ⟨v, ?_⟩
      simp only
      rw [hn hfix, hv]
      rfl

/-- setting a field to a value that suits -/
theorem setField_ok {self : Cls V} {st : St V} {x : String} {f : FSpec V} {v : Val V} (hl : lookup self x = some (propOf f)) (hv : f.value = none)
    (hx : Dict.get? st.fields x = none) (hm : f.many = true → v = .none ∨ ∃ cs, v = .many cs ∧ (cs.map (fun c => c.1)).Nodup)
    (hp : f.many = false → ∃ common, Fits common f v) : ∃ st', setField self st x v = .ok st' := by
  have hhas : Dict.has st.fields x = false := by
    rw [Bool.eq_false_iff]
    intro h
    exact (Dict.get?_eq_none_iff.1 hx) (Dict.has_iff.1 h)
  unfold setField
  rw [hl]
  unfold propOf
  cases hmm : f.many with
  | true =>
    rcases hm hmm with e | ⟨cs, e, hn⟩
    · subst e; exact ⟨st, rfl⟩
    · subst e
      simp only [if_true]
      unfold addList
      have : stored st x = [] := by simp [stored, hx]
      rw [this, addNames_ok (by simpa [Dict.keys] using hn)]
      exact ⟨_, rfl⟩
  | false =>
    obtain ⟨common, hf⟩ := hp hmm
    simp only [hv, Option.isSome_none, Bool.false_eq_true, if_false]
    cases v with
    | none => exact ⟨st, rfl⟩
    | many cs =>
      unfold Fits at hf
      simp only [hmm, Bool.false_eq_true, if_false] at hf
      simp only [nameOk, hf.2, if_true, hhas, Bool.false_eq_true, if_false]
      exact ⟨_, rfl⟩
    | one w n =>
      unfold Fits at hf
      simp only [hmm, Bool.false_eq_true, if_false] at hf
      have : nameOk f.reqName (.one w n) = true := by
        unfold nameOk
        cases hr : f.reqName with
        | none => rfl
        | some r => rw [hf.2 r hr]; simp
      simp only [this, if_true, hhas, Bool.false_eq_true, if_false]
      exact ⟨_, rfl⟩

/-- the body succeeds if the base does -/
theorem body_ok {post : Bool} {self : Cls V} {base : Dict String (Val V) → St V → Except Err (St V)} {p : Cls V} {s : TSpec V} (hc : Clean (.gen p s))
    {kw : Dict String (Val V)} {skip : Bool} {st st1 : St V} (hl : ∀ q ∈ declared (.gen p s), lookup self q.1 = some (propOf q.2))
    (h1 : base (pass p s kw) st = .ok st1) (hst : ∀ q ∈ newFields s, Dict.get? st1.fields q.1 = none)
    (hm : ∀ q ∈ newFields s, q.2.value = none → q.2.many = true → ∃ v, Dict.get? kw q.1 = some v ∧ (v = .none ∨ ∃ cs, v = .many cs ∧ (cs.map (fun c => c.1)).Nodup))
    (hp : ∀ q ∈ newFields s, q.2.value = none → q.2.many = false → ∃ v, Dict.get? kw q.1 = some v ∧ ∃ common, Fits common q.2 v) :
    ∃ st', body post self base p.argNames s kw skip st = .ok st' := by
  have hkeys : ((attrsToSet p.argNames s).map (fun x => (x, (Dict.get? (forceName s.name kw) x).getD .none))).map (fun q => q.1) =
      attrsToSet p.argNames s := by
    rw [List.map_map]
    exact List.map_id' _
  have hmem : ∀ q ∈ newFields s, q ∈ declared (.gen p s) := fun q hq => List.mem_append.2 (.inr hq)
  have hget : ∀ x f, (x, f) ∈ newFields s → Dict.get? (forceName s.name kw) x = Dict.get? kw x := by
    intro x f hf
    rw [get_forceName]
    have hne := new_name_ne hc hf
    cases s.name with
    | none => rfl
    | some w => simp only [hne, if_false]
  obtain ⟨st2, h2⟩ := setLoop_ok (self := self) (st := st1)
    (xs := (attrsToSet p.argNames s).map (fun x => (x, (Dict.get? (forceName s.name kw) x).getD .none)))
    (by rw [hkeys]; exact attrsToSet_nodup hc) (by
      intro q hq
      obtain ⟨x, hx, rfl⟩ := List.mem_map.1 hq
      obtain ⟨f, hf, -⟩ := (mem_attrsToSet hc).1 hx
      exact hst _ hf) (by
      intro q hq t ht
      obtain ⟨x, hx, rfl⟩ := List.mem_map.1 hq
      obtain ⟨f, hf, hv⟩ := (mem_attrsToSet hc).1 hx
      refine setField_ok (hl _ (hmem _ hf)) hv ht ?_ ?_
      · intro hmm
        obtain ⟨v, hg, h⟩ := hm _ hf hv hmm
        simp only at hg ⊢
        rw [hget x f hf, hg]
        exact h
      · intro hmm
        obtain ⟨v, hg, h⟩ := hp _ hf hv hmm
        simp only at hg ⊢
        rw [hget x f hf, hg]
        exact h) (by
      intro q hq
      obtain ⟨x, hx, rfl⟩ := List.mem_map.1 hq
      obtain ⟨f, hf, hv⟩ := (mem_attrsToSet hc).1 hx
      exact ⟨_, hl _ (hmem _ hf)⟩)
  refine ⟨callPost post skip kw (setFixed (newFields s) st2), ?_⟩
  unfold body
  rw [show base ((forceName s.name kw).filter (fun q => !(attrsToSet p.argNames s).contains q.1 && p.argNames.contains q.1)) st = .ok st1 from h1]
  simp only
  rw [h2]

theorem addLoop_ok {kw : Dict String (Val V)} : ∀ {xs : List String} {st : St V}, xs.Nodup → (∀ x ∈ xs, stored st x = []) →
    (∀ x ∈ xs, ∀ v, Dict.get? kw x = some v → v = .none ∨ (∃ cs, v = .many cs ∧ (cs.map (fun c => c.1)).Nodup) ∨ ∃ w n, v = .one w (some n)) →
    ∃ st', addLoop kw xs st = .ok st'
  | [], st, _, _, _ => ⟨st, rfl⟩
  | x :: xs, st, hn, hs, hv => by
    rw [List.nodup_cons] at hn
    have hrest := fun y (hy : y ∈ xs) => hv y (List.mem_cons_of_mem _ hy)
    unfold addLoop
    cases hk : Dict.get? kw x with
    | none => exact addLoop_ok hn.2 (fun y hy => hs y (List.mem_cons_of_mem _ hy)) hrest
    | some v =>
      have key : v ≠ .none → ∃ st1, addMany st x v = .ok st1 := by
        intro hne
        rcases hv x (by simp) v hk with e | ⟨cs, e, hnd⟩ | ⟨w, n, e⟩
        · exact (hne e).elim
        · subst e
          show ∃ st1, addList st x cs = .ok st1
          unfold addList
          rw [hs x (by simp), addNames_ok (by simpa [Dict.keys] using hnd)]
          exact ⟨_, rfl⟩
        · subst e
          show ∃ st1, addList st x [(n, w)] = .ok st1
          unfold addList
          rw [hs x (by simp), addNames_ok (by simp [Dict.keys])]
          exact ⟨_, rfl⟩
      cases v with
      | none => exact addLoop_ok hn.2 (fun y hy => hs y (List.mem_cons_of_mem _ hy)) hrest
      | one w n =>
        obtain ⟨st1, h1⟩ := key (by simp)
        simp only [h1]
        refine addLoop_ok hn.2 (fun y hy => ?_) hrest
        unfold stored
        rw [(addMany_spec (by simp) h1).2.1 y (fun e => hn.1 (e ▸ hy))]
        exact hs y (List.mem_cons_of_mem _ hy)
      | many cs =>
        obtain ⟨st1, h1⟩ := key (by simp)
        simp only [h1]
        refine addLoop_ok hn.2 (fun y hy => ?_) hrest
        unfold stored
        rw [(addMany_spec (by simp) h1).2.1 y (fun e => hn.1 (e ▸ hy))]
        exact hs y (List.mem_cons_of_mem _ hy)

theorem fits_many {common : Bool} {f : FSpec V} {v : Val V} (hm : f.many = true) (h : Fits common f v) :
    v = .none ∨ (∃ cs, v = .many cs ∧ (cs.map (fun c => c.1)).Nodup) ∨ (common = false ∧ ∃ w n, v = .one w (some n)) := by
  cases v with
  | none => exact .inl rfl
  | many cs => unfold Fits at h; rw [hm] at h; exact .inr (.inl ⟨cs, rfl, h⟩)
  | one w n =>
    unfold Fits at h
    rw [hm] at h
    obtain ⟨-, h1, h2⟩ := h
    cases n with
    | none => exact (h2 rfl).elim
    | some n => exact .inr (.inr ⟨h1, w, n, rfl⟩)

theorem accepts_keys {common : Bool} {c : Cls V} (hc : Clean c) {kw : Dict String (Val V)} (ha : Accepts common c kw) : ∀ x ∈ Dict.keys kw, x ∈ c.argNames := by
  intro x hx
  rcases ha.1 x hx with ⟨e, h⟩ | ⟨f, hf, hv⟩
  · subst e; exact (name_arg_iff hc).2 h
  · exact field_argName hc hf hv

theorem init_ok {common post : Bool} {self : Cls V} : ∀ {c : Cls V} {kw : Dict String (Val V)} {st : St V}, Clean c →
    (∀ q ∈ declared c, lookup self q.1 = some (propOf q.2)) → (∀ x ∈ fieldsOf c, Dict.get? st.fields x = none) → Accepts common c kw →
    ∃ st', init common post self c kw false st = .ok st'
  | .container, kw, st, hc, _, _, ha => by
    obtain ⟨b, hb⟩ := bind_accepts hc (accepts_keys hc ha) (fun x f h => by cases h) ha.2.2
    have hb : bind [nameArg V] kw = .ok b := hb
    exact ⟨_, by unfold init; rw [hb]⟩
  | .gen p s, kw, st, hc, hl, hst, ha => by
    have hlp : ∀ q ∈ declared p, lookup self q.1 = some (propOf q.2) := fun q hq => hl q (List.mem_append.2 (.inl hq))
    have hstp : ∀ x ∈ fieldsOf p, Dict.get? st.fields x = none := fun x hx => hst x (by rw [fieldsOf_gen]; exact List.mem_append.2 (.inl hx))
    obtain ⟨b, hb⟩ := bind_accepts hc (accepts_keys hc ha)
      (fun x f h hv => ⟨_, bindOne_fits (ha.2.1 (x, f) h hv).1 (ha.2.1 (x, f) h hv).2⟩) ha.2.2
    have hbget : ∀ x f, (x, f) ∈ declared (.gen p s) → f.value = none → Dict.get? b x = some (bound kw x f) := fun x f hf hv => bind_bound hc hb hf hv
    have hin : ∀ q, q ∈ newFields s → q ∈ declared (.gen p s) := fun q hq => List.mem_append.2 (.inr hq)
    have hnew : ∀ st1 : St V, ∀ k, init common post self p k false st = .ok st1 → ∀ q ∈ newFields s, Dict.get? st1.fields q.1 = none := by
      intro st1 k h1 q hq
      rw [init_other hc.parent h1 q.1 (hc.disjoint (f := q.2) hq)]
      exact hst _ (List.mem_map.2 ⟨q, hin q hq, rfl⟩)
    unfold init
    rw [hb]
    simp only
    split
    · rename_i hcm
      obtain ⟨st1, h1⟩ := init_ok (post := post) hc.parent hlp hstp (pass_accepts hc ha
        (fun x f hf hv => hbget x f (List.mem_append.2 (.inl hf)) hv) (fun hfix => bind_name hc hfix hb))
      refine body_ok hc hl h1 (hnew st1 _ h1) ?_ ?_
      · intro q hq hv hm
        refine ⟨_, hbget q.1 q.2 (hin q hq) hv, ?_⟩
        rcases fits_many hm (ha.2.1 q (hin q hq) hv).2 with h | h | ⟨h, -⟩
        · exact .inl h
        · exact .inr h
        · rw [h, Bool.false_or, List.isEmpty_iff] at hcm
          have := mem_manyFields.2 ⟨q.2, hq, hm⟩
          rw [hcm] at this
          cases this
      · intro q hq hv _
        exact ⟨_, hbget q.1 q.2 (hin q hq) hv, common, (ha.2.1 q (hin q hq) hv).2⟩
    · simp only [Bool.false_eq_true, if_false]
      have hem : ∀ x f, (x, f) ∈ declared (.gen p s) → f.value = none → Dict.get? (emptied (manyFields s) b) x =
          some (if (manyFields s).contains x then (if bound kw x f matches .none then .none else .many []) else bound kw x f) := by
        intro x f hf hv
        rw [get_emptied, hbget x f hf hv]
        rfl
      have hmany : ∀ x f, (x, f) ∈ declared (.gen p s) → ((manyFields s).contains x = true → f.many = true) := by
        intro x f hf hx
        obtain ⟨g, hg, e⟩ := mem_manyFields.1 (List.contains_iff_mem.1 hx)
        rw [declared_unique hc hf (hin _ hg)]
        exact e
      have hnm : "name" ∉ manyFields s := fun hx => by
        obtain ⟨f, hf, -⟩ := mem_manyFields.1 hx
        exact new_name_ne hc hf rfl
      have hbn : fixedName (.gen p s) = none → boundName (.gen p s) (emptied (manyFields s) b) = boundName (.gen p s) kw := by
        intro hfix
        rw [boundName, get_emptied, bind_name hc hfix hb]
        simp [hnm]
      obtain ⟨b', hb'⟩ := bind_accepts (kw := emptied (manyFields s) b) hc (by
          intro x hx
          rw [keys_emptied] at hx
          rw [(bind_get hb (args_nodup _)).2.1] at hx
          exact hx) (by
          intro x f hf hv
          have hfit := (ha.2.1 (x, f) hf hv).2
          rw [hem x f hf hv]
          cases hx : (manyFields s).contains x with
          | false =>
            simp only [Bool.false_eq_true, if_false]
            exact ⟨_, bindOne_fits (common := common) (g := some (bound kw x f)) (by simp) hfit⟩
          | true =>
            have hm := hmany x f hf hx
            simp only [if_true]
            simp only at hfit
            cases hv' : bound kw x f with
            | none =>
              rw [hv'] at hfit
              exact ⟨_, bindOne_fits (common := common) (g := some .none) (by simp) hfit⟩
            | many cs =>
              exact ⟨_, bindOne_fits (common := common) (g := some (.many [])) (by simp) (by simp [Fits, hm])⟩
            | one w n =>
              exact ⟨_, bindOne_fits (common := common) (g := some (.many [])) (by simp) (by simp [Fits, hm])⟩) (by
          intro hfix
          rw [hbn hfix]
          exact ha.2.2 hfix)
      rw [hb']
      simp only
      have hb'get : ∀ x f, (x, f) ∈ declared (.gen p s) → f.value = none → Dict.get? b' x =
          some (if (manyFields s).contains x then (if bound kw x f matches .none then .none else .many []) else bound kw x f) := by
        intro x f hf hv
        rw [bind_bound hc hb' hf hv, bound, hem x f hf hv]
        rfl
      obtain ⟨st1, h1⟩ := init_ok (post := post) hc.parent hlp hstp (pass_accepts (b := b') hc ha
        (fun x f hf hv => by
          rw [hb'get x f (List.mem_append.2 (.inl hf)) hv]
          have : x ∉ manyFields s := fun hx => by
            obtain ⟨g, hg, -⟩ := mem_manyFields.1 hx
            exact hc.disjoint hg (List.mem_map.2 ⟨_, hf, rfl⟩)
          simp [this]) (fun hfix => by rw [bind_name hc hfix hb', hbn hfix]))
      obtain ⟨st2, h2⟩ := body_ok (post := post) (skip := true) (base := fun k t => init common post self p k false t) hc hl h1 (hnew st1 _ h1) (by
          intro q hq hv hm
          refine ⟨_, hb'get q.1 q.2 (hin q hq) hv, ?_⟩
          have : (manyFields s).contains q.1 = true := List.contains_iff_mem.2 (mem_manyFields.2 ⟨q.2, hq, hm⟩)
          simp only [this, if_true]
          cases bound kw q.1 q.2 with
          | none => exact .inl rfl
          | many cs => exact .inr ⟨[], rfl, by simp⟩
          | one w n => exact .inr ⟨[], rfl, by simp⟩) (by
          intro q hq hv hm
          refine ⟨_, hb'get q.1 q.2 (hin q hq) hv, common, ?_⟩
          have : (manyFields s).contains q.1 = false := by
            rw [Bool.eq_false_iff]
            intro hx
            have := hmany q.1 q.2 (hin q hq) hx
            rw [hm] at this
            cases this
          simp only [this, Bool.false_eq_true, if_false]
          exact (ha.2.1 q (hin q hq) hv).2)
      rw [h2]
      simp only
      obtain ⟨st1', -, e2, -, -, -, -⟩ := body_spec hc hl (fun k t t' h => init_other hc.parent h) hst h2
      obtain ⟨st3, h3⟩ := addLoop_ok (kw := b) (st := st2) (manyFields_nodup hc) (by
          intro x hx
          obtain ⟨f, hf, hm⟩ := mem_manyFields.1 hx
          have hv : f.value = none := hc.2.2 _ (hin _ hf) hm
          have e2 := e2 (x, f) hf
          simp only [hv] at e2
          rw [hb'get x f (hin _ hf) hv] at e2
          simp only [List.contains_iff_mem.2 hx, if_true, Option.getD_some, propOf, hm] at e2
          unfold stored
          rw [e2]
          cases bound kw x f <;> rfl) (by
          intro x hx v hgv
          obtain ⟨f, hf, hm⟩ := mem_manyFields.1 hx
          have hv : f.value = none := hc.2.2 _ (hin _ hf) hm
          rw [hbget x f (hin _ hf) hv] at hgv
          cases hgv
          rcases fits_many hm (ha.2.1 (x, f) (hin _ hf) hv).2 with h | h | ⟨-, w, n, h⟩
          · exact .inl h
          · exact .inr (.inl h)
          · exact .inr (.inr ⟨w, n, h⟩))
      rw [h3]
      exact ⟨_, rfl⟩

end Verif.ClassGen

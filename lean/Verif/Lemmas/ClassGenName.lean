import Verif.Lemmas.ClassGenInit

/-! # Names of new objects, calls of `post_init_method`, and when a constructor succeeds -/

namespace Verif.ClassGen
open Verif

variable {V : Type}

/-- the fixed name: the one of the base, if it has one -/
def fixedName : Cls V → Option V
  | .container => none
  | .gen p s => match fixedName p with
    | some v => some v
    | none => s.name

/-- the default name: the one of the class, if it has one -/
def defaultName : Cls V → Option V
  | .container => none
  | .gen p s => match s.defaultName with
    | some v => some v
    | none => defaultName p

/-- how many generated classes -/
def depth : Cls V → Nat
  | .container => 0
  | .gen p _ => depth p + 1

theorem fixedName_gen (p : Cls V) (s : TSpec V) : fixedName (.gen p s) = (match fixedName p with
    | some v => some v
    | none => s.name) := rfl

theorem setField_same {self : Cls V} {st st' : St V} {x : String} {v : Val V} (h : setField self st x v = .ok st') :
    st'.name = st.name ∧ st'.calls = st.calls := by
  unfold setField at h
  split at h
  · cases h; exact ⟨rfl, rfl⟩
  · cases h
  · cases v with
    | none => cases h; exact ⟨rfl, rfl⟩
    | one w n =>
      simp only [Bool.false_eq_true, if_false] at h
      split at h
      · split at h <;> cases h
        exact ⟨rfl, rfl⟩
      · cases h
    | many cs =>
      simp only [Bool.false_eq_true, if_false] at h
      split at h
      · split at h <;> cases h
        exact ⟨rfl, rfl⟩
      · cases h
  · cases v with
    | none => cases h; exact ⟨rfl, rfl⟩
    | one w n => cases h
    | many cs =>
      simp only at h
      unfold addList at h
      split at h <;> cases h
      exact ⟨rfl, rfl⟩

theorem setLoop_same {self : Cls V} : ∀ {xs : List (String × Val V)} {st st' : St V}, setLoop self xs st = .ok st' →
    st'.name = st.name ∧ st'.calls = st.calls
  | [], st, st', h => by cases h; exact ⟨rfl, rfl⟩
  | (x, v) :: xs, st, st', h => by
    unfold setLoop at h
    split at h
    · cases h
    · rename_i st1 h1
      obtain ⟨a, b⟩ := setField_same h1
      obtain ⟨c, d⟩ := setLoop_same h
      exact ⟨c.trans a, d.trans b⟩

theorem setFixed_same : ∀ (fs : List (String × FSpec V)) (st : St V), (setFixed fs st).name = st.name ∧ (setFixed fs st).calls = st.calls
  | [], st => ⟨rfl, rfl⟩
  | (x, f) :: fs, st => by
    unfold setFixed
    split
    · exact setFixed_same fs st
    · exact setFixed_same fs _

/-- the arguments given to the constructor of the base -/
def pass (p : Cls V) (s : TSpec V) (kw : Dict String (Val V)) : Dict String (Val V) :=
  (forceName s.name kw).filter (fun q => !(attrsToSet p.argNames s).contains q.1 && p.argNames.contains q.1)

theorem body_same {post : Bool} {self : Cls V} {base : Dict String (Val V) → St V → Except Err (St V)} {p : Cls V} {s : TSpec V}
    {kw : Dict String (Val V)} {skip : Bool} {st st' : St V} (h : body post self base p.argNames s kw skip st = .ok st') :
    ∃ st1, base (pass p s kw) st = .ok st1 ∧ st'.name = st1.name ∧ st'.calls = if post && !skip then st1.calls ++ [(kw, st'.fields)] else st1.calls := by
  unfold body at h
  split at h
  · cases h
  · rename_i st1 h1
    split at h
    · cases h
    · rename_i st2 h2
      cases h
      refine ⟨st1, h1, ?_⟩
      obtain ⟨a3, a4⟩ := setLoop_same h2
      obtain ⟨b3, b4⟩ := setFixed_same (newFields s) st2
      obtain ⟨c1, c2, c3⟩ := callPost_spec post skip kw (setFixed (newFields s) st2)
      rw [c1]
      exact ⟨by rw [c2, b3, a3], by rw [c3, b4, a4]⟩

/-- the ways a constructor of a generated class succeeds -/
theorem init_gen {common post : Bool} {self p : Cls V} {s : TSpec V} {kw : Dict String (Val V)} {skip : Bool} {st st' : St V} (hc : Clean (.gen p s))
    (h : init common post self (.gen p s) kw skip st = .ok st') :
    ∃ b b' st1, bind (Cls.args (.gen p s)) kw = .ok b ∧ (b' = b ∨ bind (Cls.args (.gen p s)) (emptied (manyFields s) b) = .ok b') ∧
      init common post self p (pass p s b') false st = .ok st1 ∧ st'.name = st1.name ∧
      st'.calls = if post && !skip then st1.calls ++ [(b, st'.fields)] else st1.calls := by
  unfold init at h
  split at h
  · cases h
  · rename_i b hb
    split at h
    · obtain ⟨st1, h1, h2, h3⟩ := body_same h
      exact ⟨b, b, st1, hb, .inl rfl, h1, h2, h3⟩
    · split at h
      · cases h
      · rename_i hskip
        split at h
        · cases h
        · rename_i b' hb'
          split at h
          · cases h
          · rename_i st1' hbody
            split at h
            · cases h
            · rename_i st2 hadd
              cases h
              obtain ⟨st1, h1, h2, h3⟩ := body_same hbody
              obtain ⟨-, -, c3, c4⟩ := addLoop_spec (manyFields_nodup hc) hadd
              obtain ⟨d1, d2, d3⟩ := callPost_spec post false b st2
              refine ⟨b, b', st1, hb, .inr hb', h1, by rw [d2, c3, h2], ?_⟩
              rw [d1, d3, c4, h3]
              simp only [Bool.not_true, Bool.and_false, Bool.false_eq_true, if_false, Bool.eq_false_iff.2 hskip]

theorem new_name_ne {p : Cls V} {s : TSpec V} (hc : Clean (.gen p s)) {x : String} {f : FSpec V} (hf : (x, f) ∈ newFields s) : x ≠ "name" :=
  not_name (hc.2.1 x (by rw [fieldsOf_gen]; exact List.mem_append.2 (.inr (List.mem_map.2 ⟨_, hf, rfl⟩))))

theorem name_arg_iff : ∀ {c : Cls V}, Clean c → ("name" ∈ c.argNames ↔ fixedName c = none)
  | .container, _ => by simp [Cls.argNames, Cls.args, nameArg, fixedName]
  | .gen p s, hc => by
    rw [mem_argNames, name_arg_iff hc.parent, fixedName_gen]
    constructor
    · rintro ⟨h | ⟨f, hf, -⟩, h2⟩
      · rw [h]; exact h2 rfl
      · exact (new_name_ne hc hf rfl).elim
    · intro h
      cases hp : fixedName p with
      | some v => rw [hp] at h; cases h
      | none => rw [hp] at h; exact ⟨.inl rfl, fun _ => h⟩

/-- the argument for the name -/
def nameArgOf (c : Cls V) : Arg V := ⟨"name", (nameArg V).ok, (defaultName c).map (fun v => .one v none)⟩

theorem nameArg_mem : ∀ {c : Cls V}, Clean c → fixedName c = none → nameArgOf c ∈ c.args
  | .container, _, _ => by simp [Cls.args, nameArgOf, nameArg, defaultName]
  | .gen p s, hc, h => by
    rw [fixedName_gen] at h
    cases hp : fixedName p with
    | some v => rw [hp] at h; cases h
    | none =>
      rw [hp] at h
      simp only at h
      have h1 : nameArgOf p ∈ fixName s.name (addFields (newFields s) p.args) :=
        fixName_mem (addFields_other (nameArg_mem hc.parent hp) (fun f hf => (new_name_ne hc hf rfl).elim)) (fun _ => h)
      unfold Cls.args
      apply reorder_mem.2
      cases hd : s.defaultName with
      | none =>
        have : nameArgOf (.gen p s) = nameArgOf p := by simp [nameArgOf, defaultName, hd]
        rw [this]
        exact h1
      | some d =>
        refine List.mem_map.2 ⟨nameArgOf p, h1, ?_⟩
        simp [nameArgOf, defaultName, hd]

/-- the name given, or the default -/
def boundName (c : Cls V) (kw : Dict String (Val V)) : Val V :=
  (Dict.get? kw "name").getD (match defaultName c with
    | some d => .one d none
    | none => .none)

theorem bind_name {c : Cls V} (hc : Clean c) (hn : fixedName c = none) {kw b : Dict String (Val V)} (h : bind c.args kw = .ok b) :
    Dict.get? b "name" = some (boundName c kw) := by
  obtain ⟨-, -, h3⟩ := bind_get h (args_nodup c)
  obtain ⟨v, h4, h5⟩ := h3 _ (nameArg_mem hc hn)
  have h4 : bindOne (nameArgOf c) (Dict.get? kw "name") = .ok v := h4
  have h5 : Dict.get? b "name" = some v := h5
  rw [h5]
  congr 1
  unfold boundName
  cases hk : Dict.get? kw "name" with
  | some w => rw [hk] at h4; exact bindOne_some h4
  | none =>
    rw [hk] at h4
    unfold bindOne nameArgOf at h4
    simp only at h4
    cases hd : defaultName c with
    | none => rw [hd] at h4; cases h4
    | some d => rw [hd] at h4; cases h4; rfl

/-- the name of a new object -/
def nameOf (c : Cls V) (kw : Dict String (Val V)) : Val V := match fixedName c with
  | some v => .one v none
  | none => boundName c kw

theorem init_name {common post : Bool} {self : Cls V} : ∀ {c : Cls V} {kw : Dict String (Val V)} {skip : Bool} {st st' : St V}, Clean c →
    init common post self c kw skip st = .ok st' → st'.name = nameOf c kw
  | .container, kw, skip, st, st', hc, h => by
    unfold init at h
    split at h
    · cases h
    · rename_i b hb
      cases h
      have := bind_name (c := .container) hc rfl hb
      simp only
      rw [this]
      rfl
  | .gen p s, kw, skip, st, st', hc, h => by
    obtain ⟨b, b', st1, hb, hb', h1, h2, -⟩ := init_gen hc h
    rw [h2, init_name hc.parent h1]
    unfold nameOf
    cases hp : fixedName p with
    | some v => simp only [fixedName, hp]
    | none =>
      have hin : "name" ∈ p.argNames := (name_arg_iff hc.parent).2 hp
      simp only [fixedName, hp]
      unfold boundName
      rw [pass, get_pass hc, if_pos hin, get_forceName]
      cases hs : s.name with
      | some v => simp
      | none =>
        have hfix : fixedName (.gen p s) = none := by unfold fixedName; rw [hp]; exact hs
        have : Dict.get? b' "name" = some (boundName (.gen p s) kw) := by
          rcases hb' with e | hb'
          · rw [e]; exact bind_name hc hfix hb
          · rw [bind_name hc hfix hb']
            have hm : "name" ∉ manyFields s := fun hx => by
              obtain ⟨f, hf, -⟩ := mem_manyFields.1 hx
              exact new_name_ne hc hf rfl
            rw [boundName, get_emptied, bind_name hc hfix hb]
            simp [hm]
        simp only
        rw [this]
        rfl

theorem init_calls {common post : Bool} {self : Cls V} : ∀ {c : Cls V} {kw : Dict String (Val V)} {skip : Bool} {st st' : St V}, Clean c →
    init common post self c kw skip st = .ok st' →
    st'.calls.length = st.calls.length + (if post then depth c - (if skip then 1 else 0) else 0)
  | .container, kw, skip, st, st', hc, h => by
    unfold init at h
    split at h
    · cases h
    · cases h
      simp [depth]
  | .gen p s, kw, skip, st, st', hc, h => by
    obtain ⟨b, b', st1, -, -, h1, -, h3⟩ := init_gen hc h
    have ih := init_calls hc.parent h1
    rw [h3]
    cases post <;> cases skip <;> simp [depth, ih] <;> omega

theorem init_last {common : Bool} {self p : Cls V} {s : TSpec V} {kw : Dict String (Val V)} {st st' : St V} (hc : Clean (.gen p s))
    (h : init common true self (.gen p s) kw false st = .ok st') :
    ∃ b, bind (Cls.args (.gen p s)) kw = .ok b ∧ st'.calls.getLast? = some (b, st'.fields) := by
  obtain ⟨b, b', st1, hb, -, -, -, h3⟩ := init_gen hc h
  exact ⟨b, hb, by rw [h3]; simp⟩

end Verif.ClassGen

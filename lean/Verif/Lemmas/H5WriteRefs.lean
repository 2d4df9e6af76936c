import Verif.Lemmas.H5Write

/-!
# Lemmas about writing builders to a file: the queue of references
-/

namespace Verif.H5Write
open Verif

/-- there is a group or a dataset at the path, not a link -/
def Hard (f : Dict Path Obj) (q : Path) : Prop :=
  ∃ o, f.get? q = some o ∧ (∀ p, o.kind ≠ .soft p) ∧ ∀ s p, o.kind ≠ .ext s p

theorem resolve_hard {E : Env} {f : Dict Path Obj} {t : Nat} (h : Hard f (getPath E t)) :
    resolve E f t = some (getPath E t) := by
  obtain ⟨o, h1, h2, h3⟩ := h
  unfold resolve
  simp only [h1]

theorem resolve_not {E : Env} {f : Dict Path Obj} {t : Nat} (h : ¬ Hard f (getPath E t)) : resolve E f t = none := by
  unfold resolve
  split
  · rfl
  · rename_i o ho
    split
    · rfl
    · rfl
    · rename_i h1 h2
      exact absurd ⟨o, ho, h1, h2⟩ h

/-- what a call refers to -/
def WData.targets : WData → List Nat
  | .data _ => []
  | .refs l => l
  | .sref t => [t]

/-- what a call needs to find -/
def Call.targets : Call → List Nat
  | .attr _ _ t => [t]
  | .fill _ d _ => d.targets

/-- the object a call is about -/
def Call.path : Call → Path
  | .attr p _ _ => p
  | .fill p _ _ => p

/-- the calls a call leaves -/
def Call.spawn : Call → List Call
  | .attr _ _ _ => []
  | .fill p _ attrs => refCalls p attrs

/-- the kind a dataset has in the end -/
def kindOf (E : Env) : WData → HKind
  | .data d => .data d
  | .refs l => .refs (l.map (getPath E))
  | .sref t => .sref (getPath E t)

/-- setting those attributes that are data -/
def putData : Dict String WAttr → Dict String HVal → Dict String HVal
  | [], a => a
  | (k, .data d) :: l, a => putData l (a.set k (.data d))
  | (_, .ref _) :: l, a => putData l a

/-- what a call does to its object -/
def eff (E : Env) : Call → Obj → Obj
  | .attr _ k t, o => { o with attrs := o.attrs.set k (.ref (getPath E t)) }
  | .fill _ d attrs, o => ⟨kindOf E d, putData attrs o.attrs⟩

/-- change the object at a path, if there is one -/
def modifyAt (f : Dict Path Obj) (p : Path) (g : Obj → Obj) : Dict Path Obj :=
  match f.get? p with
  | none => f
  | some o => f.set p (g o)

theorem resolveAll_hard {E : Env} {f : Dict Path Obj} : ∀ l : List Nat, (∀ t ∈ l, Hard f (getPath E t)) →
    resolveAll E f l = some (l.map (getPath E)) := by
  intro l
  induction l with
  | nil => intro _; rfl
  | cons t l ih =>
    intro h
    simp [resolveAll, resolve_hard (h t (by simp)), ih (fun t ht => h t (List.mem_cons_of_mem _ ht))]

theorem resolveAll_not {E : Env} {f : Dict Path Obj} {t : Nat} (hn : ¬ Hard f (getPath E t)) : ∀ l : List Nat, t ∈ l →
    resolveAll E f l = none := by
  intro l
  induction l with
  | nil => intro h; cases h
  | cons s l ih =>
    intro h
    rcases List.mem_cons.1 h with rfl | h
    · simp [resolveAll, resolve_not hn]
    · simp only [resolveAll, ih h]
      cases resolve E f s <;> rfl

theorem resolveData_hard {E : Env} {f : Dict Path Obj} {d : WData} (h : ∀ t ∈ d.targets, Hard f (getPath E t)) :
    resolveData E f d = some (kindOf E d) := by
  cases d with
  | data s => rfl
  | refs l => simp [resolveData, resolveAll_hard l h, kindOf]
  | sref t => simp [resolveData, resolve_hard (h t (by simp [WData.targets])), kindOf]

theorem resolveData_not {E : Env} {f : Dict Path Obj} {d : WData} {t : Nat} (ht : t ∈ d.targets)
    (h : ¬ Hard f (getPath E t)) : resolveData E f d = none := by
  cases d with
  | data s => simp [WData.targets] at ht
  | refs l => simp [resolveData, resolveAll_not h l ht]
  | sref s =>
    simp only [WData.targets, List.mem_singleton] at ht
    subst ht
    simp [resolveData, resolve_not h]

theorem set_set {f : Dict Path Obj} {p : Path} {a b : Obj} : (f.set p a).set p b = f.set p b := by
  induction f with
  | nil => simp [Dict.set]
  | cons x d ih =>
    obtain ⟨k, v⟩ := x
    simp only [Dict.set]
    split
    · rename_i e; simp [Dict.set, e]
    · rename_i e; simp [Dict.set, e, ih]

theorem setAttributes_at {p : Path} : ∀ (l : Dict String WAttr) (st : St) (o : Obj), st.err = none →
    st.file.get? p = some o →
    setAttributes p l st = { st with
      file := st.file.set p { o with attrs := putData l o.attrs }
      queue := st.queue ++ (refCalls p l).map (fun c => (c, false)) } := by
  intro l
  induction l with
  | nil =>
    intro st o he ho
    have : st.file.set p o = st.file := by
      have key : ∀ d : Dict Path Obj, d.get? p = some o → d.set p o = d := by
        intro d
        induction d with
        | nil => intro h; simp at h
        | cons x d ih =>
          obtain ⟨k, v⟩ := x
          intro h
          simp only [Dict.get?] at h
          simp only [Dict.set]
          split at h
          · rename_i e; cases h; simp [e]
          · rename_i e; simp [e, ih h]
      exact key _ ho
    simp [setAttributes, putData, refCalls, this]
  | cons x l ih =>
    obtain ⟨k, v⟩ := x
    intro st o he ho
    cases v with
    | data d =>
      have h1 : st.setAttr p k (.data d) =
          { st with file := st.file.set p { o with attrs := o.attrs.set k (.data d) } } := by
        simp [St.setAttr, St.modify, he, ho]
      rw [setAttributes, h1, ih _ { o with attrs := o.attrs.set k (.data d) } ?_ ?_]
      · simp [putData, refCalls, set_set]
      · exact he
      · simp
    | ref t =>
      have h1 : st.enqueue (.attr p k t) = { st with queue := st.queue ++ [(.attr p k t, false)] } := by
        simp [St.enqueue, he]
      rw [setAttributes, h1, ih _ o ?_ ?_]
      · simp [putData, refCalls]
      · exact he
      · exact ho

/-- a call that finds what it needs -/
theorem run_ok {E : Env} {c : Call} {st : St} (he : st.err = none) (hp : Hard st.file c.path)
    (ht : ∀ t ∈ c.targets, Hard st.file (getPath E t)) :
    runCall E c st = some { st with
      file := modifyAt st.file c.path (eff E c)
      queue := st.queue ++ c.spawn.map (fun c => (c, false)) } := by
  obtain ⟨o, ho, _⟩ := hp
  cases c with
  | attr p k t =>
    simp only [Call.path] at ho
    simp [runCall, resolve_hard (ht t (by simp [Call.targets])), St.setAttr, St.modify, he, ho, Call.spawn, Call.path,
      modifyAt, eff]
  | fill p d attrs =>
    simp only [Call.path] at ho
    have h1 : st.modify p (fun o => { o with kind := kindOf E d }) =
        { st with file := st.file.set p { o with kind := kindOf E d } } := by
      simp [St.modify, he, ho]
    simp only [runCall, resolveData_hard ht, Option.map_some, h1]
    rw [setAttributes_at attrs _ { o with kind := kindOf E d } ?_ ?_]
    · simp [Call.path, modifyAt, eff, ho, Call.spawn, set_set]
    · exact he
    · simp

/-- a call that does not find what it needs -/
theorem run_none {E : Env} {c : Call} {st : St} {t : Nat} (ht : t ∈ c.targets) (h : ¬ Hard st.file (getPath E t)) :
    runCall E c st = none := by
  cases c with
  | attr p k s =>
    simp only [Call.targets, List.mem_singleton] at ht
    subst ht
    simp [runCall, resolve_not h]
  | fill p d attrs => simp [runCall, resolveData_not ht h]

theorem get?_modifyAt {f : Dict Path Obj} {p q : Path} {g : Obj → Obj} :
    (modifyAt f p g).get? q = if q = p then (f.get? q).map g else f.get? q := by
  unfold modifyAt
  split
  · rename_i h
    split
    · rename_i e; rw [e, h]; rfl
    · rfl
  · rename_i o h
    rw [Dict.get?_set]
    split
    · rename_i e; rw [e, h]; rfl
    · rfl

theorem keys_modifyAt {f : Dict Path Obj} {p : Path} {g : Obj → Obj} :
    Dict.keys (modifyAt f p g) = Dict.keys f := by
  unfold modifyAt
  split
  · rfl
  · rename_i o h
    rw [Dict.keys_set, if_pos (Dict.mem_keys_of_mem (Dict.mem_of_get? h))]

theorem kindOf_hard {E : Env} (d : WData) : (∀ p, kindOf E d ≠ .soft p) ∧ ∀ s p, kindOf E d ≠ .ext s p := by
  cases d <;> simp [kindOf]

theorem hard_modify {E : Env} {f : Dict Path Obj} {c : Call} (hp : Hard f c.path) (q : Path) :
    Hard (modifyAt f c.path (eff E c)) q ↔ Hard f q := by
  by_cases e : q = c.path
  · subst e
    refine ⟨fun _ => hp, fun _ => ?_⟩
    obtain ⟨o, ho, h1, h2⟩ := hp
    refine ⟨eff E c o, by rw [get?_modifyAt]; simp [ho], ?_⟩
    cases c with
    | attr p k t => exact ⟨h1, h2⟩
    | fill p d a => exact kindOf_hard d
  · unfold Hard
    rw [get?_modifyAt]
    simp [e]

/-- carry out the calls -/
def applyAll (E : Env) (f : Dict Path Obj) (l : List Call) : Dict Path Obj :=
  l.foldl (fun f c => modifyAt f c.path (eff E c)) f

/-- nothing is wrong with a call -/
def CallOk (E : Env) (f : Dict Path Obj) (c : Call) : Prop :=
  Hard f c.path ∧ (∀ t ∈ c.targets, Hard f (getPath E t)) ∧ ∀ d ∈ c.spawn, ∀ t ∈ d.targets, Hard f (getPath E t)

theorem spawn_path {c d : Call} (h : d ∈ c.spawn) : d.path = c.path ∧ d.spawn = [] := by
  cases c with
  | attr p k t => simp [Call.spawn] at h
  | fill p dd attrs =>
    simp only [Call.spawn, refCalls, List.mem_filterMap] at h
    obtain ⟨⟨k, v⟩, _, hv⟩ := h
    cases v with
    | data s => simp at hv
    | ref t => simp at hv; subst hv; exact ⟨rfl, rfl⟩

theorem callOk_spawn {E : Env} {f : Dict Path Obj} {c d : Call} (h : CallOk E f c) (hd : d ∈ c.spawn) :
    CallOk E f d := by
  obtain ⟨h1, h2⟩ := spawn_path hd
  exact ⟨by rw [h1]; exact h.1, h.2.2 d hd, fun e he => by rw [h2] at he; cases he⟩

theorem callOk_modify {E : Env} {f : Dict Path Obj} {c d : Call} (hc : CallOk E f c) (hd : CallOk E f d) :
    CallOk E (modifyAt f c.path (eff E c)) d :=
  ⟨(hard_modify hc.1 _).2 hd.1, fun t ht => (hard_modify hc.1 _).2 (hd.2.1 t ht),
    fun e he t ht => (hard_modify hc.1 _).2 (hd.2.2 e he t ht)⟩

/-- the number of turns for the calls of a queue -/
def turns (q : List (Call × Bool)) : Nat := (q.map (fun c => 1 + c.1.spawn.length)).sum

theorem turns_append (a b : List (Call × Bool)) : turns (a ++ b) = turns a + turns b := by
  simp [turns]

theorem spawn_spawn : ∀ l : List Call, (∀ d ∈ l, d.spawn = []) → l.flatMap Call.spawn = [] := by
  intro l
  induction l with
  | nil => intro _; rfl
  | cons d l ih =>
    intro h
    simp [h d (by simp), ih (fun d hd => h d (List.mem_cons_of_mem _ hd))]

theorem turns_spawn (c : Call) : turns (c.spawn.map (fun c => (c, false))) = c.spawn.length := by
  have key : ∀ l : List Call, (∀ d ∈ l, d.spawn = []) → turns (l.map (fun c => (c, false))) = l.length := by
    intro l
    induction l with
    | nil => intro _; rfl
    | cons d l ih =>
      intro h
      have := ih (fun d hd => h d (List.mem_cons_of_mem _ hd))
      simp only [turns, List.map_cons, List.map_map, List.sum_cons, List.length_cons] at this ⊢
      rw [this, h d (by simp)]
      simp
      omega
  exact key _ (fun d hd => (spawn_path hd).2)

/-- If nothing is wrong with the calls, they are all carried out, in order, and then those they leave. -/
theorem drain_ok {E : Env} : ∀ (n : Nat) (st : St), st.err = none → (∀ c ∈ st.queue, CallOk E st.file c.1) →
    turns st.queue < n →
    drain E n st = { st with
      file := applyAll E st.file (st.queue.map Prod.fst ++ (st.queue.map Prod.fst).flatMap Call.spawn)
      queue := [] } := by
  intro n
  induction n with
  | zero => intro st _ _ h; omega
  | succ n ih =>
    intro st he hq hn
    obtain ⟨f, w, q, e⟩ := st
    simp only at he hq hn
    subst he
    cases q with
    | nil => simp [drain, applyAll]
    | cons x q =>
      obtain ⟨c, b⟩ := x
      have hc := hq (c, b) (by simp)
      simp only [drain]
      rw [run_ok (by rfl) hc.1 hc.2.1]
      simp only [Option.isSome_none, Bool.false_eq_true, if_false]
      rw [ih]
      · simp only [applyAll, List.map_cons, List.map_append, List.map_map, List.flatMap_cons, List.flatMap_append,
          List.cons_append, List.foldl_cons, List.foldl_append, Function.comp_def, List.map_id']
        rw [spawn_spawn c.spawn (fun d hd => (spawn_path hd).2)]
        rfl
      · rfl
      · intro d hd
        simp only [List.mem_append, List.mem_map] at hd
        rcases hd with hd | ⟨d', hd', rfl⟩
        · exact callOk_modify hc (hq d (List.mem_cons_of_mem _ hd))
        · exact callOk_modify hc (callOk_spawn hc hd')
      · have h1 := turns_spawn c
        rw [turns_append, h1]
        simp only [turns, List.map_cons, List.sum_cons] at hn ⊢
        omega

/-- A call that cannot find what it needs makes the write fail. -/
theorem drain_bad {E : Env} : ∀ (n : Nat) (st : St), (∀ c ∈ st.queue, Hard st.file c.1.path) →
    (∃ c ∈ st.queue, ∃ d, (d = c.1 ∨ d ∈ c.1.spawn) ∧ ∃ t ∈ d.targets, ¬ Hard st.file (getPath E t)) →
    (drain E n st).err ≠ none := by
  intro n
  induction n with
  | zero =>
    intro st _ _
    simp only [drain, St.raise]
    split
    · rename_i h; intro h'; rw [h'] at h; cases h
    · simp
  | succ n ih =>
    intro st hp hbad
    obtain ⟨f, w, q, e⟩ := st
    simp only at hp hbad
    cases e with
    | some e => simp [drain]
    | none =>
      cases q with
      | nil => obtain ⟨c, hc, _⟩ := hbad; cases hc
      | cons x q =>
        obtain ⟨c, b⟩ := x
        simp only [drain, Option.isSome_none, Bool.false_eq_true, if_false]
        have hc := hp (c, b) (by simp)
        by_cases hall : ∀ t ∈ c.targets, Hard f (getPath E t)
        · rw [run_ok (by rfl) hc hall]
          simp only
          apply ih
          · intro d hd
            simp only [List.mem_append, List.mem_map] at hd
            rcases hd with hd | ⟨d', hd', rfl⟩
            · exact (hard_modify hc _).2 (hp d (List.mem_cons_of_mem _ hd))
            · rw [(spawn_path hd').1]
              exact (hard_modify hc _).2 hc
          · obtain ⟨d, hd, d', hd', t, ht, hnt⟩ := hbad
            have hnt' : ¬ Hard (modifyAt f c.path (eff E c)) (getPath E t) := fun h => hnt ((hard_modify hc _).1 h)
            rcases List.mem_cons.1 hd with rfl | hd
            · rcases hd' with rfl | hd'
              · exact absurd (hall t ht) hnt
              · exact ⟨(d', false), by simp; exact Or.inr hd', d', Or.inl rfl, t, ht, hnt'⟩
            · exact ⟨d, by simp; exact Or.inl hd, d', hd', t, ht, hnt'⟩
        · have : ∃ t ∈ c.targets, ¬ Hard f (getPath E t) :=
            Classical.byContradiction (fun h => hall (fun t ht => Classical.byContradiction (fun h' => h ⟨t, ht, h'⟩)))
          obtain ⟨t, ht, hnt⟩ := this
          rw [run_none ht (by exact hnt)]
          simp only
          split
          · simp [St.raise]
          · apply ih
            · intro d hd
              simp only [List.mem_append, List.mem_singleton] at hd
              rcases hd with hd | rfl
              · exact hp d (List.mem_cons_of_mem _ hd)
              · exact hc
            · exact ⟨(c, true), by simp, c, Or.inl rfl, t, ht, hnt⟩

/-- the number of turns, when calls may fail -/
def turns2 (q : List (Call × Bool)) : Nat :=
  (q.map (fun c => (if c.2 then 1 else 2) + 2 * c.1.spawn.length)).sum

theorem turns2_append (a b : List (Call × Bool)) : turns2 (a ++ b) = turns2 a + turns2 b := by
  simp [turns2]

theorem turns2_spawn (c : Call) : turns2 (c.spawn.map (fun c => (c, false))) = 2 * c.spawn.length := by
  have key : ∀ l : List Call, (∀ d ∈ l, d.spawn = []) → turns2 (l.map (fun c => (c, false))) = 2 * l.length := by
    intro l
    induction l with
    | nil => intro _; rfl
    | cons d l ih =>
      intro h
      have := ih (fun d hd => h d (List.mem_cons_of_mem _ hd))
      simp only [turns2, List.map_cons, List.map_map, List.sum_cons, List.length_cons] at this ⊢
      rw [this, h d (by simp)]
      simp
      omega
  exact key _ (fun d hd => (spawn_path hd).2)

/-- Enough turns are always enough: the only error is that a reference cannot be resolved. -/
theorem drain_runtime {E : Env} : ∀ (n : Nat) (st : St), st.err = none → (∀ c ∈ st.queue, Hard st.file c.1.path) →
    turns2 st.queue < n → (drain E n st).err = none ∨ (drain E n st).err = some .runtime := by
  intro n
  induction n with
  | zero => intro st _ _ h; omega
  | succ n ih =>
    intro st he hp hn
    obtain ⟨f, w, q, e⟩ := st
    simp only at he hp hn
    subst he
    cases q with
    | nil => simp [drain]
    | cons x q =>
      obtain ⟨c, b⟩ := x
      simp only [drain, Option.isSome_none, Bool.false_eq_true, if_false]
      have hc := hp (c, b) (by simp)
      by_cases hall : ∀ t ∈ c.targets, Hard f (getPath E t)
      · rw [run_ok (by rfl) hc hall]
        simp only
        apply ih
        · rfl
        · intro d hd
          simp only [List.mem_append, List.mem_map] at hd
          rcases hd with hd | ⟨d', hd', rfl⟩
          · exact (hard_modify hc _).2 (hp d (List.mem_cons_of_mem _ hd))
          · rw [(spawn_path hd').1]
            exact (hard_modify hc _).2 hc
        · rw [turns2_append, turns2_spawn]
          simp only [turns2, List.map_cons, List.sum_cons] at hn ⊢
          split at hn <;> omega
      · have : ∃ t ∈ c.targets, ¬ Hard f (getPath E t) :=
          Classical.byContradiction (fun h => hall (fun t ht => Classical.byContradiction (fun h' => h ⟨t, ht, h'⟩)))
        obtain ⟨t, ht, hnt⟩ := this
        rw [run_none ht (by exact hnt)]
        simp only
        split
        · simp [St.raise]
        · rename_i hb
          apply ih
          · rfl
          · intro d hd
            simp only [List.mem_append, List.mem_singleton] at hd
            rcases hd with hd | rfl
            · exact hp d (List.mem_cons_of_mem _ hd)
            · exact hc
          · rw [turns2_append]
            simp only [turns2, List.map_cons, List.sum_cons, List.map_nil, List.sum_nil, if_true, hb] at hn ⊢
            simp at hn
            omega

/-! ## What the calls make of an object -/

theorem get?_applyAll {E : Env} {q : Path} : ∀ (l : List Call) (f : Dict Path Obj),
    (applyAll E f l).get? q = (f.get? q).map (fun o => (l.filter (fun c => c.path = q)).foldl (fun o c => eff E c o) o) := by
  intro l
  induction l with
  | nil => intro f; simp [applyAll]
  | cons c l ih =>
    intro f
    have h1 : applyAll E f (c :: l) = applyAll E (modifyAt f c.path (eff E c)) l := rfl
    rw [h1, ih, get?_modifyAt]
    by_cases hq : q = c.path
    · subst hq
      simp [Option.map_map, Function.comp_def]
    · have : ¬ c.path = q := fun e => hq e.symm
      simp [hq, this]

theorem keys_applyAll {E : Env} : ∀ (l : List Call) (f : Dict Path Obj), Dict.keys (applyAll E f l) = Dict.keys f := by
  intro l
  induction l with
  | nil => intro f; rfl
  | cons c l ih =>
    intro f
    have h1 : applyAll E f (c :: l) = applyAll E (modifyAt f c.path (eff E c)) l := rfl
    rw [h1, ih, keys_modifyAt]

end Verif.H5Write

import Verif.Lemmas.TypeMap

/-!
# Properties of `TypeMap`

Example catalog used throughout: namespace `core` with type `Base` and type `Sub` inheriting from it; namespace `ext`
that includes both and adds `Ref`, which inherits from `Sub` and refers to `Base`; `Node` refers to itself.
-/

namespace Verif.TypeMap

def exCore : Dict Str SpecT :=
  [("Base", .group none (some "Base") [] []), ("Sub", .group (some "Base") (some "Sub") [] [.dataset (some "Base") none []])]

def exCat : Dict Str (Dict Str SpecT) :=
  [("core", exCore),
   ("ext", exCore ++ [("Ref", .group (some "Sub") (some "Ref") ["Base"] []),
     ("Node", .group none (some "Node") ["Node"] []), ("Alien", .group none (some "Alien") [] [])])]

/-- `Container`, `Data` and three user classes: 2, its subclass 3, and 4 -/
def ex0 : St := run 10 (init exCat 100) [.define [0], .define [2, 0], .define [0]]

/-- the dependencies `load_namespaces` reports for `ext` -/
def exDeps : List (Str × Str × Str) := [("ext", "core", "Base"), ("ext", "core", "Sub")]

def okIs {α : Type} [DecidableEq α] (r : Except Err α) (a : α) : Bool :=
  match r with
  | .ok b => decide (b = a)
  | .error _ => false

def errIs {α : Type} (r : Except Err α) (e : Err) : Bool :=
  match r with
  | .ok _ => false
  | .error e' => decide (e' = e)

/-! ## C58 which class, which type -/

/-- The class of a type is the class most recently registered for it, whatever is called in between: lookups, class
generation, mapper registration, loading other namespaces, registrations of other types. -/
theorem C58_class_most_recent (f g : Nat) (st : St) (hi : Inv st) (k : Key) (c : Cls) (hc : c < st.next) (spec : SpecT)
    (hs : getSpec st.cat k = .ok spec) (ops : List Op) (hv : Valid f (step f st (.reg k c)) ops)
    (hops : ∀ op ∈ ops, Spares k op) :
    (getDt (g + 1) (run f st (.reg k c :: ops)) k).2 = .ok c := by
  have h1 : entry (step f st (.reg k c)).ct k = some (.cls c) := by
    simp only [step]
    refine register_entry_ok st k (.cls c) () ?_
    unfold register
    rw [hs]
  obtain ⟨_, b, _⟩ := step_spec f st hi (.reg k c) (fun k' c' he => by cases he; exact hc)
  obtain ⟨_, _, i3⟩ := run_spec f ops (step f st (.reg k c)) b hv
  have h2 := i3 k c hops h1
  have : run f st (.reg k c :: ops) = run f (step f st (.reg k c)) ops := rfl
  rw [this, getDt_of_cls h2]

example : (getDt 1 (run 10 ex0 [.reg ("core", "Base") 2, .reg ("core", "Base") 4, .get ("core", "Sub"),
    .regMap 3 101, .mapB (some "core") (some "Sub"), .reg ("core", "Sub") 3, .load exCat exDeps]) ("core", "Base")).2
    = .ok 4 :=
  C58_class_most_recent 10 0 (run 10 ex0 [.reg ("core", "Base") 2])
    (run_spec 10 [.define [0], .define [2, 0], .define [0], .reg ("core", "Base") 2] (init exCat 100) (init_inv _ _)
      (by simp only [Valid]; decide +kernel)).2.1 ("core", "Base") 4 (by decide +kernel) _ rfl
    [.get ("core", "Sub"), .regMap 3 101, .mapB (some "core") (some "Sub"), .reg ("core", "Sub") 3, .load exCat exDeps]
    (by simp only [Valid]; decide +kernel) (by
      intro op hop
      simp only [List.mem_cons, List.not_mem_nil, or_false] at hop
      rcases hop with rfl | rfl | rfl | rfl | rfl
      · trivial
      · trivial
      · trivial
      · simp [Spares]
      · simp only [Spares]; decide)

/-- The type of a class never changes once it has one. -/
theorem C58_type_stable (f : Nat) (st : St) (hi : Inv st) (ops : List Op) (hv : Valid f st ops) (c : Cls) (k : Key)
    (h : st.dts.get? (.cls c) = some k) : (run f st ops).dts.get? (.cls c) = some k :=
  (run_spec f ops st hi hv).1.dts _ _ h

/-- An object is written as the type first registered for the nearest class in its method resolution order that was
ever registered.  `a` is that class, first registered (after `pre`) for `k`; the classes before it in the method
resolution order of `c` are never given a type. -/
theorem C58_type_first (f : Nat) (st : St) (hi : Inv st) (pre post : List Op) (a : Cls) (k : Key) (c : Cls)
    (before after : List Cls) (hv : Valid f st (pre ++ .reg k a :: post)) (spec : SpecT)
    (hs : getSpec (run f st pre).cat k = .ok spec)
    (hfirst : (run f st pre).dts.get? (.cls a) = none)
    (hmro : (run f st (pre ++ .reg k a :: post)).mro c = before ++ a :: after)
    (hbefore : ∀ b ∈ before, (run f st (pre ++ .reg k a :: post)).dts.get? (.cls b) = none) :
    clsDt (run f st (pre ++ .reg k a :: post)).dts ((run f st (pre ++ .reg k a :: post)).mro c) = some k := by
  have hsplit : ∀ (l1 l2 : List Op) (s : St), Valid f s (l1 ++ l2) → Valid f s l1 ∧ Valid f (run f s l1) l2 := by
    intro l1
    induction l1 with
    | nil => intro l2 s h; exact ⟨trivial, h⟩
    | cons o l1 ih =>
      intro l2 s h
      obtain ⟨h1, h2⟩ := valid_cons (ops := l1 ++ l2) h
      obtain ⟨i1, i2⟩ := ih l2 (step f s o) h2
      refine ⟨?_, i2⟩
      cases o with
      | reg k' c' => exact ⟨h1 k' c' rfl, i1⟩
      | define => exact i1
      | regMap => exact i1
      | get => exact i1
      | mapC => exact i1
      | mapB => exact i1
      | load => exact i1
  obtain ⟨hv1, hv2⟩ := hsplit pre (.reg k a :: post) st hv
  obtain ⟨_, hi1, _⟩ := run_spec f pre st hi hv1
  obtain ⟨hv3, hv4⟩ := valid_cons hv2
  obtain ⟨_, hi2, _⟩ := step_spec f (run f st pre) hi1 (.reg k a) hv3
  have hd : (step f (run f st pre) (.reg k a)).dts.get? (.cls a) = some k := by
    simp only [step, register, hs, setDefault_get?, hfirst]
    rfl
  have hfin := (run_spec f post _ hi2 hv4).1.dts _ _ hd
  have hrun : run f st (pre ++ .reg k a :: post) = run f (step f (run f st pre) (.reg k a)) post := by
    simp [run, List.foldl_append]
  rw [hmro]
  generalize hS : run f st (pre ++ .reg k a :: post) = S at *
  rw [← hrun] at hfin
  clear hmro
  induction before with
  | nil =>
    simp only [List.nil_append, clsDt]
    rw [hfin]
  | cons b before ih =>
    simp only [List.cons_append, clsDt]
    rw [hbefore b (List.mem_cons_self ..)]
    exact ih (fun b' hb' => hbefore b' (List.mem_cons_of_mem _ hb'))

example : clsDt (run 10 ex0 [.reg ("core", "Base") 2, .reg ("core", "Sub") 2]).dts
    ((run 10 ex0 [.reg ("core", "Base") 2, .reg ("core", "Sub") 2]).mro 3) = some ("core", "Base") :=
  C58_type_first 10 ex0 (run_spec 10 _ (init exCat 100) (init_inv _ _) (by simp only [Valid])).2.1 [] [.reg ("core", "Sub") 2]
    2 ("core", "Base") 3 [3] [0] (by simp only [Valid, List.nil_append]; decide +kernel) _ rfl rfl rfl
    (by simp only [List.mem_cons, List.not_mem_nil, or_false]; rintro b rfl; rfl)

/-! ## C96 the type a class carries as attribute -/

/-- `register_container_type` sets the class attributes to the type just registered. -/
theorem C96_attr_last (st : St) (k : Key) (c : Cls) (u : Unit) (h : (register st k (.cls c)).2 = .ok u) :
    (register st k (.cls c)).1.attrs.get? c = some k := by
  unfold register at h ⊢
  cases hg : getSpec st.cat k with
  | error e => rw [hg] at h; cases h
  | ok s => simp [setAttrs]

example : (register ex0 ("core", "Base") (.cls 2)).1.attrs.get? 2 = some ("core", "Base") :=
  C96_attr_last _ _ _ () (by decide +kernel)

/-- The `namespace`/`data_type` attributes of a class need not name the type its objects are written as: loading a
namespace that includes an already registered type moves the attributes to the new namespace. -/
theorem C96_attr_fails :
    (run 10 ex0 [.reg ("core", "Base") 2, .load exCat exDeps]).attrs.get? 2 = some ("ext", "Base") ∧
    clsDt (run 10 ex0 [.reg ("core", "Base") 2, .load exCat exDeps]).dts [2, 0] = some ("core", "Base") := by
  decide +kernel

/-- A run of registrations and nothing else. -/
def regs (st : St) (evs : List (Key × Cls)) : St := evs.foldl (fun s p => (register s p.1 (.cls p.2)).1) st

/-- They agree for a class that is only ever registered for one type. -/
theorem C96_attr_agrees_partial (evs : List (Key × Cls)) (st : St) (c : Cls) (k : Key)
    (h0 : st.attrs.get? c = st.dts.get? (.cls c)) (h1 : ∀ k', st.dts.get? (.cls c) = some k' → k' = k)
    (hev : ∀ k', (k', c) ∈ evs → k' = k) :
    (regs st evs).attrs.get? c = (regs st evs).dts.get? (.cls c) := by
  induction evs generalizing st with
  | nil => exact h0
  | cons p evs ih =>
    obtain ⟨pk, pc⟩ := p
    have hrec := ih (register st pk (.cls pc)).1
    unfold regs at hrec ⊢
    simp only [List.foldl_cons]
    refine hrec ?_ ?_ (fun k' hk' => hev k' (List.mem_cons_of_mem _ hk'))
    · unfold register
      cases hg : getSpec st.cat pk with
      | error e => exact h0
      | ok s =>
        simp only [setAttrs, setDefault_get?, Dict.get?_set, Entry.cls.injEq]
        by_cases hcp : c = pc
        · subst hcp
          simp only [if_true]
          have := hev pk (List.mem_cons_self ..)
          subst this
          cases hd : st.dts.get? (.cls c) with
          | none => rfl
          | some k' => rw [h1 k' hd]; rfl
        · simp only [hcp, if_false]
          exact h0
    · intro k' hk'
      unfold register at hk'
      cases hg : getSpec st.cat pk with
      | error e => rw [hg] at hk'; exact h1 k' hk'
      | ok s =>
        rw [hg] at hk'
        simp only [setDefault_get?, Entry.cls.injEq] at hk'
        by_cases hcp : c = pc
        · subst hcp
          simp only [if_true, Option.some.injEq] at hk'
          have := hev pk (List.mem_cons_self ..)
          subst this
          cases hd : st.dts.get? (.cls c) with
          | none => rw [hd] at hk'; exact hk'.symm
          | some k2 => rw [hd] at hk'; rw [← hk']; exact h1 k2 hd
        · simp only [hcp, if_false] at hk'
          exact h1 k' hk'

example : (regs ex0 [(("core", "Base"), 2), (("core", "Sub"), 3), (("core", "Base"), 2)]).attrs.get? 3 =
    some ("core", "Sub") := by
  rw [C96_attr_agrees_partial _ ex0 3 ("core", "Sub") rfl (by intro k' h; cases h)
    (by
      intro k' h
      simp only [List.mem_cons, Prod.mk.injEq, List.not_mem_nil, or_false] at h
      rcases h with ⟨_, h⟩ | ⟨h, _⟩ | ⟨_, h⟩
      · cases h
      · exact h
      · cases h)]
  decide +kernel

/-! ## C97 generated classes -/

/-- Asking for the class of a type again gives the same class, whatever is called in between. -/
theorem C97_same_class_again (f g : Nat) (st st' : St) (hi : Inv st) (k : Key) (c : Cls)
    (h : getDt f st k = (st', .ok c)) (ops : List Op) (hv : Valid f st' ops) (hops : ∀ op ∈ ops, Spares k op) :
    getDt (g + 1) (run f st' ops) k = (run f st' ops, .ok c) := by
  obtain ⟨_, gi, _, go⟩ := getDt_good f st k hi
  rw [h] at gi go
  exact getDt_of_cls ((run_spec f ops st' gi hv).2.2 k c hops (go c rfl))

example : okIs (getDt 10 ex0 ("ext", "Ref")).2 7 ∧
    (getDt 1 (run 10 (getDt 10 ex0 ("ext", "Ref")).1 [.get ("ext", "Ref"), .get ("core", "Sub")]) ("ext", "Ref")).2 = .ok 7 := by
  refine ⟨by decide +kernel, ?_⟩
  rw [C97_same_class_again 10 0 ex0 (getDt 10 ex0 ("ext", "Ref")).1
    (run_spec 10 _ (init exCat 100) (init_inv _ _) (by simp only [Valid])).2.1 ("ext", "Ref") 7
    (Prod.ext rfl (by
      have h : okIs (getDt 10 ex0 ("ext", "Ref")).2 7 = true := by decide +kernel
      revert h
      unfold okIs
      split
      · next b hb => intro h; rw [hb]; simpa using h
      · intro h; cases h)) [.get ("ext", "Ref"), .get ("core", "Sub")]
    (by simp only [Valid]) (by simp [Spares])]

/-- A class generated for a type is new, objects of it are written as that type, and its parent is the class of the
type it inherits from. -/
theorem C97_generated (f : Nat) (st st' : St) (hi : Inv st) (k : Key) (c : Cls) (hn : entry st.ct k = none)
    (h : getDt f st k = (st', .ok c)) :
    st.next ≤ c ∧ clsDt st'.dts (st'.mro c) = some k ∧
    ∃ spec p, getSpec st.cat k = .ok spec ∧ st'.mro c = c :: st'.mro p ∧
      (∀ par, spec.inc = some par → entry st'.ct (k.1, par) = some (.cls p)) ∧
      (spec.inc = none → defaultParent spec = .ok p) := by
  obtain ⟨gf, _, _, go⟩ := getDt_good f st k hi
  rw [h] at gf go
  have hk := go c rfl
  rcases gf.none k hn with h1 | ⟨c', h1, h2, h3, h4⟩
  · simp only at hk h1
    rw [hk] at h1; cases h1
  · simp only at hk h3
    rw [hk] at h3
    cases h3
    obtain ⟨spec, p, a1, a2, a3, a4, a5⟩ := h4.parent
    refine ⟨h1, ?_, spec, p, ?_, a3, a4, a5⟩
    · simp only at a3 ⊢
      rw [a3]
      unfold clsDt
      have := h4.typ
      simp only at this
      rw [this]
    · rw [← gf.cat]; exact a1

example : okIs (getDt 10 ex0 ("ext", "Ref")).2 7 ∧ (getDt 10 ex0 ("ext", "Ref")).1.mro 7 = [7, 6, 5, 0] ∧
    entry (getDt 10 ex0 ("ext", "Ref")).1.ct ("ext", "Sub") = some (.cls 6) := by decide +kernel

/-- Generating classes never touches what is registered already, nor the type of a class. -/
theorem C97_keeps (f : Nat) (st : St) (hi : Inv st) (k x : Key) (c : Cls) (hx : entry st.ct x = some (.cls c)) :
    entry (getDt f st k).1.ct x = some (.cls c) ∧ (getDt f st k).1.mro c = st.mro c ∧
    ∀ kk, st.dts.get? (.cls c) = some kk → (getDt f st k).1.dts.get? (.cls c) = some kk := by
  obtain ⟨gf, _, _, _⟩ := getDt_good f st k hi
  exact ⟨gf.cls x c hx, gf.mro c (hi.ent x c hx), fun kk h => gf.dts _ _ h⟩

example : entry (getDt 10 (run 10 ex0 [.reg ("ext", "Base") 2]) ("ext", "Ref")).1.ct ("ext", "Base") = some (.cls 2) :=
  (C97_keeps 10 (run 10 ex0 [.reg ("ext", "Base") 2])
    (run_spec 10 [.define [0], .define [2, 0], .define [0], .reg ("ext", "Base") 2] (init exCat 100) (init_inv _ _)
      (by simp only [Valid]; decide +kernel)).2.1 _ ("ext", "Base") 2 (by decide +kernel)).1

/-! ## C98 every type gets a class -/

/-- Every type whose dependencies are well founded and have specifications gets a class, if the recursion limit
exceeds the depth of the dependencies. -/
theorem C98_total_partial (R : Key → Prop) (rank : Key → Nat) (f : Nat) (st : St) (k : Key) (hi : Inv st)
    (hspec : ∀ k, R k → (∀ c, entry st.ct k ≠ some (.cls c)) → ∃ s, getSpec st.cat k = .ok s ∧ ∀ t, s ≠ .link t)
    (hedge : ∀ k k', R k → Edge st k k' → R k' ∧ rank k' < rank k) (hR : R k) (hf : rank k < f) :
    ∃ c, (getDt f st k).2 = .ok c :=
  getDt_total R rank f st k hi ⟨hspec, hedge⟩ hR hf

def exRank : Key → Nat := fun k => if k.2 = "Base" then 0 else if k.2 = "Sub" then 1 else 2

example : ∃ c, (getDt 2 (init exCat 100) ("core", "Sub")).2 = .ok c := by
  refine C98_total_partial (fun k => k = ("core", "Base") ∨ k = ("core", "Sub")) exRank 2 _ _ (init_inv _ _) ?_ ?_
    (Or.inr rfl) (by decide)
  · rintro k (rfl | rfl) _
    · exact ⟨_, rfl, by simp⟩
    · exact ⟨_, rfl, by simp⟩
  · rintro k k' (rfl | rfl) he
    · rcases he with ⟨_, _, _, h, _⟩ | ⟨_, spec, hs, d, hd, rfl⟩
      · cases h
      · cases hs; simp [deps, childrenDeps] at hd
    · rcases he with ⟨_, _, _, h, _⟩ | ⟨_, spec, hs, d, hd, rfl⟩
      · cases h
      · cases hs
        have : d = "Base" := by simpa [deps, childrenDeps, childDeps] using hd
        subst this
        exact ⟨Or.inl rfl, by decide⟩

/-- A type that depends on itself, directly or through other types that have no class yet, never gets a class: the
call raises whatever the recursion limit, and registers nothing for the type. -/
theorem C98_cycle (f : Nat) (st : St) (k : Key) (h : Relation.TransGen (Edge st) k k) :
    (∀ c, (getDt f st k).2 ≠ .ok c) ∧ entry (getDt f st k).1.ct k = entry st.ct k :=
  ⟨(getDt_cycle f st k h).2, (getDt_cycle f st k h).1⟩

/-- So a type with an attribute that refers to an object of the same type has a valid specification but no class. -/
theorem C98_total_fails : ∃ (cat : Dict Str (Dict Str SpecT)) (k : Key) (s : SpecT),
    getSpec cat k = .ok s ∧ (∀ d ∈ deps s, ∃ s', getSpec cat (k.1, d) = .ok s') ∧
    ∀ f m c, (getDt f (init cat m) k).2 ≠ .ok c := by
  refine ⟨exCat, ("ext", "Node"), _, rfl, ?_, ?_⟩
  · intro d hd
    have : d = "Node" := by simpa [deps, childrenDeps] using hd
    subst this
    exact ⟨_, rfl⟩
  · intro f m c
    refine (C98_cycle f (init exCat m) ("ext", "Node") (Relation.TransGen.single (Or.inr ⟨rfl, _, rfl, "Node", ?_, rfl⟩))).1 c
    simp [deps]

/-! ## C99 the same class in both namespaces -/

/-- After loading a namespace that takes a type from another, the type has the same class under both names: asking for
it in the new namespace and then in the source gives one class, whatever else is called before. -/
theorem C99_linked (f g1 g2 : Nat) (st st1 st2 : St) (hi : Inv st) (cat : Dict Str (Dict Str SpecT))
    (pre post : List (Str × Str × Str)) (new src dt : Str) (hne : new ≠ src) (u : Unit)
    (hload : load f st cat (pre ++ (new, src, dt) :: post) = (st1, .ok u))
    (hpost : ∀ d ∈ post, (d.1, d.2.2) ≠ (new, dt) ∧ (d.1, d.2.2) ≠ (src, dt))
    (ops : List Op) (hv : Valid f st1 ops) (hn : ∀ op ∈ ops, Spares (new, dt) op) (hs : ∀ op ∈ ops, Spares (src, dt) op)
    (c : Cls) (h : getDt g1 (run f st1 ops) (new, dt) = (st2, .ok c)) :
    getDt (g2 + 1) st2 (src, dt) = (st2, .ok c) := by
  have hi0 : Inv { st with cat := cat } := hi.congr rfl rfl rfl
  -- after the load
  have hL : Linked st1 (new, dt) (src, dt) ∧ Inv st1 := by
    unfold load at hload
    rw [forAll_append] at hload
    obtain ⟨_, b, _⟩ := loadAll_spec f pre { st with cat := cat } hi0
    rcases hr : forAll (fun s d => loadDep f s d.1 d.2.1 d.2.2) pre { st with cat := cat } with ⟨sa, r⟩
    rw [hr] at hload b
    cases r with
    | error e => simp at hload
    | ok v =>
      simp only at hload
      unfold forAll at hload
      obtain ⟨_, b2, _, _⟩ := loadDep_spec f sa b new src dt
      rcases hr2 : loadDep f sa new src dt with ⟨sb, r2⟩
      rw [hr2] at b2
      simp only [hr2] at hload
      cases r2 with
      | error e => simp at hload
      | ok w =>
        have hl := loadDep_makes f sa sb b new src dt w hne hr2
        obtain ⟨_, b3, _⟩ := loadAll_spec f post sb b2
        have hl2 := loadAll_linked f post sb b2 (new, dt) (src, dt) (fun d hd => (hpost d hd).1)
          (fun d hd => (hpost d hd).2) hl
        simp only at hload
        rw [hload] at hl2 b3
        exact ⟨hl2, b3⟩
  have hL2 := run_linked f ops st1 hL.2 hv (new, dt) (src, dt) hn hs hL.1
  obtain ⟨_, hi2, _⟩ := run_spec f ops st1 hL.2 hv
  obtain ⟨gf, _, _, go⟩ := getDt_good g1 (run f st1 ops) (new, dt) hi2
  rw [h] at gf go
  have hk := go c rfl
  rcases hL2.frame gf with ⟨i, h1⟩ | ⟨c', h1, h2⟩
  · simp only at h1 hk
    rw [hk] at h1; cases h1
  · simp only at h1 h2 hk
    rw [hk] at h1
    cases h1
    exact getDt_of_cls h2

/-- The other order: once the source has a class, the new namespace answers with it. -/
theorem C99_linked_rev (g : Nat) (st : St) (n s : Key) (c : Cls) (hl : Linked st n s)
    (hs : entry st.ct s = some (.cls c)) (spec : SpecT) (hsp : getSpec st.cat n = .ok spec) :
    (getDt (g + 2) st n).2 = .ok c := by
  rcases hl with ⟨i, h⟩ | ⟨c', h1, h2⟩
  · rw [getDt_succ]
    unfold containerCls
    rw [h]
    simp only
    have : getDt (g + 1) st (s.1, s.2) = (st, .ok c) := getDt_of_cls hs
    rw [this]
    simp only
    have hr : register st n (.cls c) = ({ st with
        ct := setEntry st.ct n (.cls c)
        dts := st.dts.setDefault (.cls c) n
        attrs := setAttrs st.attrs n (.cls c) }, .ok ()) := by
      unfold register
      rw [hsp]
    rw [hr]
  · rw [hs] at h2
    cases h2
    rw [getDt_of_cls h1]

example : okIs (getDt 10 (load 10 ex0 exCat exDeps).1 ("ext", "Sub")).2 8 ∧
    okIs (getDt 10 (getDt 10 (load 10 ex0 exCat exDeps).1 ("ext", "Sub")).1 ("core", "Sub")).2 8 ∧
    okIs (load 10 ex0 exCat exDeps).2 () := by decide +kernel

/-- Registering a class for the source type after the new namespace was loaded with a class leaves two different
classes for what is one type. -/
theorem C99_late_registration_fails :
    let st := run 10 ex0 [.reg ("core", "Base") 2, .load exCat exDeps, .reg ("core", "Base") 4]
    okIs (getDt 10 st ("ext", "Base")).2 2 ∧ okIs (getDt 10 st ("core", "Base")).2 4 := by decide +kernel

/-! ## C100 mappers -/

/-- The first time a mapper is asked for an object, it gets the mapper class registered for the nearest class in the
method resolution order, and the specification of the type the object is written as. -/
theorem C100_first (st : St) (c : Cls) (k : Key) (spec : SpecT) (before after : List Cls) (a : Cls) (m : Nat)
    (hk : clsDt st.dts (st.mro c) = some k) (hs : getSpec st.cat k = .ok spec) (hn : st.mappers.get? c = none)
    (hmro : st.mro c = before ++ a :: after) (hb : ∀ b ∈ before, st.mapperCls.get? b = none)
    (ha : st.mapperCls.get? a = some m) : (getMapC st c).2 = .ok ⟨m, k.1, k.2⟩ := by
  have hnear : nearestMapper st.mapperCls st.defaultMapper (st.mro c) = m := by
    rw [hmro]
    clear hmro
    induction before with
    | nil => simp only [List.nil_append, nearestMapper]; rw [ha]
    | cons b before ih =>
      simp only [List.cons_append, nearestMapper]
      rw [hb b (List.mem_cons_self ..)]
      exact ih (fun b' h => hb b' (List.mem_cons_of_mem _ h))
  unfold getMapC mapFor
  rw [hk, hn]
  simp only [hs, hnear]

example : (getMapC (run 10 ex0 [.reg ("core", "Base") 2, .regMap 2 101]) 3).2 = .ok ⟨101, "core", "Base"⟩ :=
  C100_first _ 3 ("core", "Base") _ [3] [0] 2 101 rfl rfl rfl rfl (by
    intro b hb
    have : b = 3 := by simpa using hb
    subst this
    rfl) rfl

/-- With no mapper registered for any class of the method resolution order the default mapper class is used. -/
theorem C100_default (st : St) (c : Cls) (k : Key) (spec : SpecT) (hk : clsDt st.dts (st.mro c) = some k)
    (hs : getSpec st.cat k = .ok spec) (hn : st.mappers.get? c = none)
    (hb : ∀ b ∈ st.mro c, st.mapperCls.get? b = none) : (getMapC st c).2 = .ok ⟨st.defaultMapper, k.1, k.2⟩ := by
  have hnear : ∀ l : List Cls, (∀ b ∈ l, st.mapperCls.get? b = none) →
      nearestMapper st.mapperCls st.defaultMapper l = st.defaultMapper := by
    intro l
    induction l with
    | nil => intro _; rfl
    | cons b l ih =>
      intro h
      simp only [nearestMapper]
      rw [h b (List.mem_cons_self ..)]
      exact ih (fun b' hb' => h b' (List.mem_cons_of_mem _ hb'))
  unfold getMapC mapFor
  rw [hk, hn]
  simp only [hs, hnear _ hb]

example : (getMapC (run 10 ex0 [.reg ("core", "Base") 2, .regMap 2 101]) 4).2 = .error .valueError ∧
    (getMapC (run 10 ex0 [.reg ("core", "Base") 4, .reg ("core", "Sub") 2, .regMap 2 101]) 4).2 =
      .ok ⟨100, "core", "Base"⟩ :=
  ⟨rfl, C100_default _ 4 ("core", "Base") _ rfl rfl rfl (by
    intro b hb
    have hb' : b ∈ [4, 0] := hb
    have : b = 4 ∨ b = 0 := by simpa using hb'
    rcases this with rfl | rfl <;> rfl)⟩

/-- Mappers are cached: once an object's class has a mapper it keeps it, whatever is called later. -/
theorem C100_cached (f : Nat) (st st' : St) (hi : Inv st) (c : Cls) (m : Mapper) (h : getMapC st c = (st', .ok m))
    (ops : List Op) (hv : Valid f st' ops) (k : Key)
    (hk : clsDt (run f st' ops).dts ((run f st' ops).mro c) = some k) : (getMapC (run f st' ops) c).2 = .ok m := by
  have hm : st'.mappers.get? c = some m ∧ Inv st' := by
    unfold getMapC at h
    cases hc : clsDt st.dts (st.mro c) with
    | none => rw [hc] at h; simp at h
    | some k' =>
      rw [hc] at h
      simp only at h
      obtain ⟨_, b, c', d, _⟩ := mapFor_ct st c k'
      have hi' := hi.congr b c' d
      rw [h] at hi'
      refine ⟨?_, hi'⟩
      unfold mapFor at h
      cases hg : st.mappers.get? c with
      | some m' => rw [hg] at h; simp only [Prod.mk.injEq, Except.ok.injEq] at h; rw [← h.1, ← h.2]; exact hg
      | none =>
        rw [hg] at h
        simp only at h
        cases hs : getSpec st.cat k' with
        | error e => rw [hs] at h; simp at h
        | ok s =>
          rw [hs] at h
          simp only [Prod.mk.injEq, Except.ok.injEq] at h
          rw [← h.1, ← h.2]
          simp
  have hm2 := (run_spec f ops st' hm.2 hv).1.mappers c m hm.1
  unfold getMapC mapFor
  rw [hk, hm2]

/-- Registering a mapper class after the first object of the class was mapped has no effect. -/
theorem C100_late_map_fails :
    let st := run 10 ex0 [.reg ("core", "Base") 2, .mapC 2, .regMap 2 101]
    (registerMap (run 10 ex0 [.reg ("core", "Base") 2, .mapC 2]) 2 101).2 = .ok () ∧
    (getMapC st 2).2 = .ok ⟨100, "core", "Base"⟩ := by decide +kernel

/-- A class registered for two types has one mapper: a builder of the second type is handled with the specification of
the first. -/
theorem C100_two_types_fails :
    let st := run 10 ex0 [.reg ("core", "Base") 2, .reg ("core", "Sub") 2, .mapB (some "core") (some "Base")]
    (getMapB 10 st (some "core") (some "Sub")).2 = .ok ⟨100, "core", "Base"⟩ := by decide +kernel

/-! ## C101 copies -/

/-- A copy of a type map has the same class for every type. -/
theorem C101_same_classes (st st' : St) (hi : Inv st) (u : Unit) (h : copy st = (st', .ok u)) (k : Key) :
    entry st'.ct k = entry st.ct k := by
  unfold copy merge at h
  rcases hr : forAll (fun s p => register s p.1 p.2) (flat st.ct) (fresh st) with ⟨st1, r⟩
  rw [hr] at h
  cases r with
  | error e => simp at h
  | ok v =>
    simp only at h
    obtain ⟨a1, a2, _⟩ := forAll_register_ok (flat st.ct) (fresh st) st1 v hr
    obtain ⟨b1, _⟩ := forAll_registerMap_ok _ _ _ u h
    rw [b1]
    cases he : entry st.ct k with
    | none =>
      rw [a1 k (fun e hm => by rw [(entry_of_mem_flat hi.wf).1 hm] at he; cases he)]
      rfl
    | some e =>
      refine a2 k e ((entry_of_mem_flat hi.wf).2 he) (fun e' hm => ?_)
      rw [(entry_of_mem_flat hi.wf).1 hm] at he
      cases he
      rfl

example : okIs (copy (run 10 ex0 [.reg ("core", "Base") 2, .regMap 2 101, .load exCat exDeps])).2 () ∧
    entry (copy (run 10 ex0 [.reg ("core", "Base") 2, .load exCat exDeps])).1.ct ("ext", "Base") = some (.cls 2) := by
  decide +kernel

/-- A class that is registered for one type only is written as the same type by the copy. -/
theorem C101_same_types_partial (st st' : St) (hi : Inv st) (u : Unit) (h : copy st = (st', .ok u)) (c : Cls) (k : Key)
    (hk : entry st.ct k = some (.cls c)) (hu : ∀ k', entry st.ct k' = some (.cls c) → k' = k) :
    st'.dts.get? (.cls c) = some k := by
  unfold copy merge at h
  rcases hr : forAll (fun s p => register s p.1 p.2) (flat st.ct) (fresh st) with ⟨st1, r⟩
  rw [hr] at h
  cases r with
  | error e => simp at h
  | ok v =>
    simp only at h
    obtain ⟨_, _, _, _, a5, _⟩ := forAll_register_ok (flat st.ct) (fresh st) st1 v hr
    obtain ⟨_, b2, _⟩ := forAll_registerMap_ok _ _ _ u h
    rw [b2]
    exact a5 (.cls c) k rfl ((entry_of_mem_flat hi.wf).2 hk) (fun k' hm => hu k' ((entry_of_mem_flat hi.wf).1 hm))

/-- In general the copy may write objects of a class as a different type: class 3 was registered for `Alien` of `ext`
first and for `Sub` of `core` later; the copy visits `core` first. -/
theorem C101_same_types_fails :
    let st := run 10 ex0 [.reg ("core", "Base") 2, .reg ("ext", "Alien") 3, .reg ("core", "Sub") 3]
    okIs (copy st).2 () ∧ clsDt st.dts [3] = some ("ext", "Alien") ∧
    clsDt (copy st).1.dts [3] = some ("core", "Sub") := by decide +kernel

/-- Copying succeeds when every registered type has a specification and every class with a mapper has a registered
class in its method resolution order. -/
theorem C101_copy_ok_partial (st : St) (hi : Inv st) (hs : ∀ k e, entry st.ct k = some e → ∃ s, getSpec st.cat k = .ok s)
    (hm : ∀ c m, (c, m) ∈ st.mapperCls → ∃ a ∈ st.mro c, ∃ k, entry st.ct k = some (.cls a)) :
    ∃ st', copy st = (st', .ok ()) := by
  unfold copy merge
  obtain ⟨st1, h1⟩ := forAll_register_total (flat st.ct) (fresh st) (fun p hp =>
    hs p.1 p.2 ((entry_of_mem_flat hi.wf).1 hp))
  rw [h1]
  simp only
  obtain ⟨_, a2, a3, a4, a5, a6, a7, a8⟩ := forAll_register_ok (flat st.ct) (fresh st) st1 () h1
  refine forAll_registerMap_total _ _ (fun p hp => ?_)
  obtain ⟨a, ha, k, hk⟩ := hm p.1 p.2 hp
  have hmem : (k, Entry.cls a) ∈ flat st.ct := (entry_of_mem_flat hi.wf).2 hk
  have htyped : ∃ k', st1.dts.get? (.cls a) = some k' := by
    clear a2 a3 a4 a5 a6 a7 a8 hp hm hs
    have gen : ∀ (L : List (Key × Entry)) (s s' : St), forAll (fun s p => register s p.1 p.2) L s = (s', .ok ()) →
        (k, Entry.cls a) ∈ L → ∃ k', s'.dts.get? (.cls a) = some k' := by
      intro L
      induction L with
      | nil => intro s s' _ hm; cases hm
      | cons q L ih =>
        intro s s' h hm
        unfold forAll at h
        rcases hr : register s q.1 q.2 with ⟨s1, r⟩
        rw [hr] at h
        cases r with
        | error e => simp at h
        | ok v =>
          simp only at h
          rcases List.mem_cons.1 hm with hq | hq
          · have hd : ∃ k', s1.dts.get? (.cls a) = some k' := by
              rw [(register_ok hr).1]
              rw [← hq]
              simp only [setDefault_get?, if_true]
              exact ⟨_, rfl⟩
            obtain ⟨k', hk'⟩ := hd
            exact ⟨k', (forAll_register_ok L s1 s' () h).2.2.1 _ _ hk'⟩
          · exact ih s1 s' h hq
    exact gen _ _ _ h1 hmem
  obtain ⟨k', hk'⟩ := htyped
  have : st1.mro = st.mro := a7
  rw [this]
  exact clsDt_some_of_mem ha hk'

/-- Copying a type map can raise: registering a mapper for a class and then another class for its type leaves a mapper
whose class the copy does not know. -/
theorem C101_copy_fails :
    let st := run 10 ex0 [.reg ("core", "Base") 2, .regMap 2 101, .reg ("core", "Base") 4]
    errIs (copy st).2 .valueError := by decide +kernel

/-! ## C102 reading back the class that was written -/

/-- Objects of a class registered for a type of its own come back as that class: the namespace and type written are
those of the registration, and looking them up gives the class, whatever is called in between other than registering
something else for the type. -/
theorem C102_roundtrip_partial (f g : Nat) (st : St) (hi : Inv st) (k : Key) (a : Cls) (ha : a < st.next) (spec : SpecT)
    (hs : getSpec st.cat k = .ok spec) (hnew : st.dts.get? (.cls a) = none) (rest : List Cls) (hmro : st.mro a = a :: rest)
    (ops : List Op) (hv : Valid f (step f st (.reg k a)) ops) (hops : ∀ op ∈ ops, Spares k op) :
    let fin := run f st (.reg k a :: ops)
    clsDt fin.dts (fin.mro a) = some k ∧ (getCls (g + 1) fin (some k.1) (some k.2)).2 = .ok a := by
  have hreg := C58_class_most_recent f g st hi k a ha spec hs ops hv hops
  obtain ⟨m, b, _⟩ := step_spec f st hi (.reg k a) (fun k' c' he => by cases he; exact ha)
  have hM := (run_spec f ops (step f st (.reg k a)) b hv).1
  have hd : (step f st (.reg k a)).dts.get? (.cls a) = some k := by
    simp only [step, register, hs, setDefault_get?, hnew]
    rfl
  refine ⟨?_, hreg⟩
  have h1 : (run f st (.reg k a :: ops)).mro a = a :: rest := by
    have := hM.mro a (Nat.lt_of_lt_of_le ha m.next)
    rw [m.mro a ha, hmro] at this
    exact this
  rw [h1]
  unfold clsDt
  have := hM.dts _ _ hd
  have h2 : (run f st (.reg k a :: ops)).dts.get? (.cls a) = some k := this
  rw [h2]

example : clsDt (run 10 ex0 [.reg ("core", "Base") 2, .get ("core", "Sub")]).dts
      ((run 10 ex0 [.reg ("core", "Base") 2, .get ("core", "Sub")]).mro 2) = some ("core", "Base") :=
  (C102_roundtrip_partial 10 0 ex0 (run_spec 10 _ (init exCat 100) (init_inv _ _) (by simp only [Valid])).2.1
    ("core", "Base") 2 (by decide) _ rfl rfl [0] rfl [.get ("core", "Sub")] (by simp only [Valid])
    (by simp [Spares])).1

/-- When another class is registered for the type, objects of the first class are still written as that type and come
back as the second class. -/
theorem C102_roundtrip_fails :
    let st := run 10 ex0 [.reg ("core", "Base") 2, .reg ("core", "Base") 4]
    clsDt st.dts (st.mro 2) = some ("core", "Base") ∧
    okIs (getCls 10 st (some "core") (some "Base")).2 4 := by decide +kernel

/-! ## C103 the list of container classes -/

/-- Every class that is registered for some type of a namespace first is listed for that namespace. -/
theorem C103_lists_classes (st : St) (c : Cls) (k : Key) (h : st.dts.get? (.cls c) = some k) :
    Entry.cls c ∈ containerClasses st (some k.1) ∧ Entry.cls c ∈ containerClasses st none := by
  have hm := Dict.mem_of_get? h
  refine ⟨?_, Dict.mem_keys_of_mem hm⟩
  unfold containerClasses
  simp only [List.mem_map, List.mem_filter]
  exact ⟨_, ⟨hm, by simp⟩, rfl⟩

/-- `get_container_classes` also lists objects that are no classes: the placeholders for types taken from another
namespace, even after they were replaced by classes. -/
theorem C103_only_classes_fails :
    let st := run 10 ex0 [.load exCat exDeps, .get ("ext", "Base"), .get ("ext", "Sub")]
    containerClasses st (some "ext") = [.src 5 "core" "Base", .src 6 "core" "Sub"] ∧
    entry st.ct ("ext", "Base") = some (.cls 7) := by decide +kernel

end Verif.TypeMap

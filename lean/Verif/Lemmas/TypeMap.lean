import Verif.Model.TypeMap

/-!
# Lemmas about `TypeMap`

The recursion of `get_dt_container_cls` goes through the types a type depends on.  Two facts carry everything else:
types on a dependency cycle never get a class (`getDt_closed`), and therefore a type whose class is being generated is
never registered by the calls made on its behalf (`getDt_spec`).
-/

namespace Verif.TypeMap

open Relation (TransGen)

theorem entry_setEntry (ct : Dict Str (Dict Str Entry)) (k k' : Key) (e : Entry) :
    entry (setEntry ct k e) k' = if k' = k then some e else entry ct k' := by
  obtain ⟨a, b⟩ := k
  obtain ⟨a', b'⟩ := k'
  unfold entry setEntry
  simp only [Dict.get?_set, Prod.mk.injEq]
  by_cases ha : a' = a
  · subst ha
    simp only [if_true, true_and]
    rw [Dict.get?_set]
    by_cases hb : b' = b
    · simp [hb]
    · simp only [hb, if_false]
      cases hg : Dict.get? ct a' with
      | none => simp
      | some d => simp
  · simp [ha]

theorem setDefault_get? {κ α : Type} [DecidableEq κ] (d : Dict κ α) (k k' : κ) (v : α) :
    Dict.get? (Dict.setDefault d k v) k' = if k' = k then some ((Dict.get? d k).getD v) else Dict.get? d k' := by
  unfold Dict.setDefault
  by_cases h : d.has k = true
  · simp only [h, if_true]
    by_cases hk : k' = k
    · subst hk
      simp only [if_true]
      have := h
      unfold Dict.has at this
      cases hg : Dict.get? d k' with
      | none => rw [hg] at this; cases this
      | some w => rfl
    · simp [hk]
  · have hn : Dict.get? d k = none := by
      cases hg : Dict.get? d k with
      | none => rfl
      | some w => exact absurd (by unfold Dict.has; rw [hg]; rfl) h
    rw [if_neg h, Dict.get?_set, hn]
    rfl

/-- A call that `get_dt_container_cls` is certain to make before it can return a class for `k`. -/
def Edge (st : St) (k k' : Key) : Prop :=
  (∃ i s t, entry st.ct k = some (.src i s t) ∧ k' = (s, t)) ∨
  (entry st.ct k = none ∧ ∃ spec, getSpec st.cat k = .ok spec ∧ ∃ d ∈ deps spec, k' = (k.1, d))

/-- The catalog and the registrations of the types in `S` are the same in both states. -/
def Keeps (S : Key → Prop) (st st' : St) : Prop :=
  st'.cat = st.cat ∧ ∀ k, S k → entry st'.ct k = entry st.ct k

theorem Keeps.refl (S : Key → Prop) (st : St) : Keeps S st st := ⟨rfl, fun _ _ => rfl⟩

theorem Keeps.trans {S : Key → Prop} {a b c : St} (h1 : Keeps S a b) (h2 : Keeps S b c) : Keeps S a c :=
  ⟨h2.1.trans h1.1, fun k hk => (h2.2 k hk).trans (h1.2 k hk)⟩

theorem Keeps.edge {S : Key → Prop} {st st' : St} (h : Keeps S st st') {k k' : Key} (hk : S k) (he : Edge st k k') :
    Edge st' k k' := by
  unfold Edge at he ⊢
  rw [h.1, h.2 k hk]
  exact he

/-- Every type in `S` needs another type in `S` before it can get a class. -/
def Closed (S : Key → Prop) (st : St) : Prop := ∀ k, S k → ∃ k', S k' ∧ Edge st k k'

theorem Closed.keeps {S : Key → Prop} {st st' : St} (h : Keeps S st st') (hc : Closed S st) : Closed S st' := by
  intro k hk
  obtain ⟨k', hk', he⟩ := hc k hk
  exact ⟨k', hk', h.edge hk he⟩

theorem register_cat (st : St) (k : Key) (e : Entry) : (register st k e).1.cat = st.cat := by
  unfold register
  cases getSpec st.cat k <;> rfl

theorem register_entry (st : St) (k k' : Key) (e : Entry) (h : k' ≠ k) :
    entry (register st k e).1.ct k' = entry st.ct k' := by
  unfold register
  cases getSpec st.cat k with
  | error => rfl
  | ok s => simp [entry_setEntry, h]

theorem register_entry_ok (st : St) (k : Key) (e : Entry) (u : Unit) (h : (register st k e).2 = .ok u) :
    entry (register st k e).1.ct k = some e := by
  unfold register at h ⊢
  cases hg : getSpec st.cat k with
  | error => rw [hg] at h; cases h
  | ok s => simp [entry_setEntry]

theorem register_keeps {S : Key → Prop} (st : St) (k : Key) (e : Entry) (h : ¬ S k) :
    Keeps S st (register st k e).1 :=
  ⟨register_cat st k e, fun k' hk' => register_entry st k k' e (fun he => h (he ▸ hk'))⟩

/-- What a call is known to do to the types of a closed set: nothing, and it never answers for one of them. -/
def Stuck (S : Key → Prop) (get : St → Key → St × Except Err Cls) : Prop :=
  ∀ st, Closed S st → ∀ k, Keeps S st (get st k).1 ∧ (S k → ∀ c, (get st k).2 ≠ .ok c)

theorem containerCls_stuck {S : Key → Prop} {get : St → Key → St × Except Err Cls} (hg : Stuck S get) (st : St)
    (hc : Closed S st) (k : Key) :
    Keeps S st (containerCls get st k).1 ∧
      (S k → ∀ c, (containerCls get st k).2 ≠ .ok (some c)) := by
  unfold containerCls
  cases he : entry st.ct k with
  | none => exact ⟨Keeps.refl S st, by simp⟩
  | some e =>
    cases e with
    | cls c =>
      refine ⟨Keeps.refl S st, fun hk => ?_⟩
      obtain ⟨k', _, h⟩ := hc k hk
      rcases h with ⟨i, s, t, h, _⟩ | ⟨h, _⟩
      · rw [he] at h; cases h
      · rw [he] at h; cases h
    | src i s t =>
      obtain ⟨h1, h2⟩ := hg st hc (s, t)
      have hS : S k → S (s, t) := by
        intro hk
        obtain ⟨k', hk', h⟩ := hc k hk
        rcases h with ⟨i', s', t', h, hk2⟩ | ⟨h, _⟩
        · rw [he] at h
          cases h
          exact hk2 ▸ hk'
        · rw [he] at h; cases h
      simp only
      rcases hr : get st (s, t) with ⟨st1, r⟩
      rw [hr] at h1 h2
      cases r with
      | error e => exact ⟨h1, by simp⟩
      | ok c =>
        have hnk : ¬ S k := fun hk => h2 (hS hk) c rfl
        have h3 := register_keeps st1 k (.cls c) hnk
        simp only
        rcases hr2 : register st1 k (.cls c) with ⟨st2, r2⟩
        rw [hr2] at h3
        cases r2 with
        | error e => exact ⟨h1.trans h3, by simp⟩
        | ok u => exact ⟨h1.trans h3, fun hk => absurd hk hnk⟩

theorem parentCls_stuck {S : Key → Prop} {get : St → Key → St × Except Err Cls} (hg : Stuck S get) (spec : SpecT)
    (ns : Str) (ts : List Str) (st : St) (hc : Closed S st) :
    Keeps S st (parentCls (fun s t => containerCls get s (ns, t)) spec ts st).1 := by
  induction ts generalizing st with
  | nil => exact Keeps.refl S st
  | cons t ts ih =>
    have h := (containerCls_stuck hg st hc (ns, t)).1
    unfold parentCls
    rcases hr : containerCls get st (ns, t) with ⟨st1, r⟩
    rw [hr] at h
    cases r with
    | error e => exact h
    | ok o =>
      cases o with
      | none => exact h.trans (ih st1 (hc.keeps h))
      | some c => exact h

theorem generate_keeps (S : Key → Prop) (st : St) (p : Cls) : Keeps S st (generate st p).1 := ⟨rfl, fun _ _ => rfl⟩

theorem finish_stuck {S : Key → Prop} {get : St → Key → St × Except Err Cls} (hg : Stuck S get) (spec : SpecT)
    (st : St) (hc : Closed S st) (k : Key) (hk : ¬ S k) : Keeps S st (finish get spec st k).1 := by
  unfold finish
  have h := parentCls_stuck hg spec k.1 (ancestors (nsSpecs st.cat k.1) ((nsSpecs st.cat k.1).length + 1) k.2) st hc
  rcases hr : parentCls (fun s t => containerCls get s (k.1, t)) spec
    (ancestors (nsSpecs st.cat k.1) ((nsSpecs st.cat k.1).length + 1) k.2) st with ⟨st1, r⟩
  rw [hr] at h
  cases r with
  | error e => exact h
  | ok p =>
    have h2 := register_keeps (S := S) (generate st1 p).1 k (.cls (generate st1 p).2) hk
    have h3 := h.trans ((generate_keeps S st1 p).trans h2)
    simp only
    rcases hr2 : register (generate st1 p).1 k (.cls (generate st1 p).2) with ⟨st2, r2⟩
    rw [hr2] at h3
    cases r2 with
    | error e => exact h3
    | ok u => exact h3

/-- the loop over dependent types, as `getDt` runs it -/
def askAll (get : St → Key → St × Except Err Cls) (ns : Str) (ds : List Str) (st : St) : St × Except Err Unit :=
  forAll (fun s d => ((get s (ns, d)).1, (get s (ns, d)).2.map fun _ => ())) ds st

theorem askAll_stuck {S : Key → Prop} {get : St → Key → St × Except Err Cls} (hg : Stuck S get) (ns : Str)
    (ds : List Str) (st : St) (hc : Closed S st) :
    Keeps S st (askAll get ns ds st).1 ∧ ((∃ d ∈ ds, S (ns, d)) → ∀ u, (askAll get ns ds st).2 ≠ .ok u) := by
  induction ds generalizing st with
  | nil => exact ⟨Keeps.refl S st, by simp⟩
  | cons d ds ih =>
    obtain ⟨h1, h2⟩ := hg st hc (ns, d)
    unfold askAll at ih ⊢
    unfold forAll
    rcases hr : get st (ns, d) with ⟨st1, r⟩
    rw [hr] at h1 h2
    cases r with
    | error e => exact ⟨h1, by simp [Except.map]⟩
    | ok c =>
      obtain ⟨i1, i2⟩ := ih st1 (hc.keeps h1)
      refine ⟨h1.trans i1, fun hex u => ?_⟩
      obtain ⟨d', hd', hS⟩ := hex
      rcases List.mem_cons.1 hd' with hdd | hdd
      · exact absurd rfl (h2 (hdd ▸ hS) c)
      · exact i2 ⟨d', hdd, hS⟩ u

theorem getDt_succ (f : Nat) (st : St) (k : Key) :
    getDt (f + 1) st k =
      match containerCls (getDt f) st k with
      | (st1, .error e) => (st1, .error e)
      | (st1, .ok (some c)) => (st1, .ok c)
      | (st1, .ok none) =>
        match getSpec st1.cat k with
        | .error e => (st1, .error e)
        | .ok spec =>
          match askAll (getDt f) k.1 (deps spec) st1 with
          | (st2, .error e) => (st2, .error e)
          | (st2, .ok _) => finish (getDt f) spec st2 k := rfl

/-- `__get_container_cls` answers `None` only when nothing is registered, and then it has done nothing. -/
theorem containerCls_none (get : St → Key → St × Except Err Cls) (st st1 : St) (k : Key)
    (h : containerCls get st k = (st1, .ok none)) : st1 = st ∧ entry st.ct k = none := by
  unfold containerCls at h
  split at h
  · simp only [Prod.mk.injEq] at h
    exact ⟨h.1.symm, by assumption⟩
  · simp at h
  · split at h
    · simp at h
    · split at h
      · simp at h
      · simp at h

theorem getDt_stuck (S : Key → Prop) (f : Nat) : Stuck S (getDt f) := by
  induction f with
  | zero =>
    intro st hc k
    exact ⟨Keeps.refl S st, by simp [getDt]⟩
  | succ f ih =>
    intro st hc k
    obtain ⟨h1, h2⟩ := containerCls_stuck ih st hc k
    rw [getDt_succ]
    rcases hr : containerCls (getDt f) st k with ⟨st1, r⟩
    rw [hr] at h1 h2
    cases r with
    | error e => exact ⟨h1, by simp⟩
    | ok o =>
      cases o with
      | some c => exact ⟨h1, fun hk c' => absurd rfl (h2 hk c)⟩
      | none =>
        obtain ⟨hst, hent⟩ := containerCls_none _ _ _ _ hr
        subst hst
        simp only
        cases hsp : getSpec st1.cat k with
        | error e => exact ⟨h1, by simp⟩
        | ok spec =>
          obtain ⟨a1, a2⟩ := askAll_stuck ih k.1 (deps spec) st1 hc
          have hex : S k → ∃ d ∈ deps spec, S (k.1, d) := by
            intro hk
            obtain ⟨k', hk', he⟩ := hc k hk
            rcases he with ⟨i, s, t, h, _⟩ | ⟨_, spec', hs', d, hd, hkd⟩
            · rw [hent] at h; cases h
            · rw [hsp] at hs'
              cases hs'
              exact ⟨d, hd, hkd ▸ hk'⟩
          simp only
          rcases hra : askAll (getDt f) k.1 (deps spec) st1 with ⟨st2, r2⟩
          rw [hra] at a1 a2
          cases r2 with
          | error e => exact ⟨a1, by simp⟩
          | ok u =>
            have hnk : ¬ S k := fun hk => a2 (hex hk) u rfl
            exact ⟨a1.trans (finish_stuck ih spec st2 (hc.keeps a1) k hnk), fun hk => absurd hk hnk⟩

theorem head_of_transGen {α : Type} {r : α → α → Prop} {x k : α} (h : TransGen r x k) :
    ∃ y, r x y ∧ (y = k ∨ TransGen r y k) := by
  induction h with
  | single e => exact ⟨_, e, Or.inl rfl⟩
  | tail p e ih =>
    obtain ⟨y, hy, hy2⟩ := ih
    refine ⟨y, hy, Or.inr ?_⟩
    rcases hy2 with hy2 | hy2
    · subst hy2; exact TransGen.single e
    · exact TransGen.tail hy2 e

/-- A type that depends on itself never gets a class by generation, and stays as it is. -/
theorem getDt_cycle (f : Nat) (st : St) (k : Key) (h : TransGen (Edge st) k k) :
    entry (getDt f st k).1.ct k = entry st.ct k ∧ ∀ c, (getDt f st k).2 ≠ .ok c := by
  have hcl : Closed (fun x => (x = k ∨ TransGen (Edge st) k x) ∧ TransGen (Edge st) x k) st := by
    intro x hx
    obtain ⟨h1, h2⟩ := hx
    have hstep : ∀ y, Edge st x y → TransGen (Edge st) k y := by
      intro y hy
      rcases h1 with h1 | h1
      · subst h1; exact TransGen.single hy
      · exact TransGen.tail h1 hy
    obtain ⟨y, hy, hyk⟩ := head_of_transGen h2
    refine ⟨y, ⟨Or.inr (hstep y hy), ?_⟩, hy⟩
    rcases hyk with hyk | hyk
    · subst hyk; exact h
    · exact hyk
  obtain ⟨a, b⟩ := getDt_stuck _ f st hcl k
  exact ⟨a.2 k ⟨Or.inl rfl, h⟩, b ⟨Or.inl rfl, h⟩⟩

theorem transGen_mono_on {α : Type} {r r' : α → α → Prop} {k : α}
    (hr : ∀ a b, TransGen r a k → r a b → r' a b) {x y : α} (h : TransGen r x y) (hy : y = k ∨ TransGen r y k) :
    TransGen r' x y := by
  induction h with
  | single e =>
    refine TransGen.single (hr _ _ ?_ e)
    rcases hy with hy | hy
    · subst hy; exact TransGen.single e
    · exact TransGen.trans (TransGen.single e) hy
  | @tail b c p e ih =>
    have hb : TransGen r b k := by
      rcases hy with hy | hy
      · subst hy; exact TransGen.single e
      · exact TransGen.trans (TransGen.single e) hy
    exact TransGen.tail (ih (Or.inr hb)) (hr _ _ hb e)

/-- Types that depend on `k` still do when their registrations are unchanged. -/
theorem reach_keeps {st st' : St} {k x : Key} (h : Keeps (fun y => TransGen (Edge st) y k) st st')
    (hx : TransGen (Edge st) x k) : TransGen (Edge st') x k :=
  transGen_mono_on (fun _ _ ha he => h.edge ha he) hx (Or.inl rfl)

/-- Class `c` was generated for type `x`: it is written as `x`, and its parent class is the class registered for the
type `x` inherits from (`Container` or `Data` when it inherits from nothing). -/
structure GenBy (st : St) (x : Key) (c : Cls) : Prop where
  typ : st.dts.get? (.cls c) = some x
  parent : ∃ spec p, getSpec st.cat x = .ok spec ∧ p < c ∧ st.mro c = c :: st.mro p ∧
    (∀ par, spec.inc = some par → entry st.ct (x.1, par) = some (.cls p)) ∧
    (spec.inc = none → defaultParent spec = .ok p)

/-- What asking for classes can do to a type map. -/
structure Frame (st st' : St) : Prop where
  cat : st'.cat = st.cat
  next : st.next ≤ st'.next
  mro : ∀ c, c < st.next → st'.mro c = st.mro c
  cls : ∀ x c, entry st.ct x = some (.cls c) → entry st'.ct x = some (.cls c)
  src : ∀ x i s t, entry st.ct x = some (.src i s t) → entry st'.ct x = some (.src i s t) ∨
    ∃ c, entry st'.ct x = some (.cls c) ∧ entry st'.ct (s, t) = some (.cls c)
  none : ∀ x, entry st.ct x = none → entry st'.ct x = none ∨
    ∃ c, st.next ≤ c ∧ c < st'.next ∧ entry st'.ct x = some (.cls c) ∧ GenBy st' x c
  dts : ∀ e k, st.dts.get? e = some k → st'.dts.get? e = some k
  mappers : st'.mappers = st.mappers
  mapperCls : st'.mapperCls = st.mapperCls
  default : st'.defaultMapper = st.defaultMapper

/-- Dictionaries have each key once. -/
structure CtOk (ct : Dict Str (Dict Str Entry)) : Prop where
  outer : (Dict.keys ct).Nodup
  inner : ∀ p ∈ ct, (Dict.keys p.2).Nodup

theorem ctOk_nil : CtOk [] := ⟨List.nodup_nil, by simp⟩

theorem CtOk.setEntry {ct : Dict Str (Dict Str Entry)} (h : CtOk ct) (k : Key) (e : Entry) :
    CtOk (setEntry ct k e) := by
  unfold TypeMap.setEntry
  refine ⟨Dict.set_nodup h.outer, ?_⟩
  intro p hp
  rcases Dict.set_mem hp with hp | hp
  · subst hp
    refine Dict.set_nodup ?_
    cases hg : Dict.get? ct k.1 with
    | none => exact List.nodup_nil
    | some d => exact h.inner _ (Dict.mem_of_get? hg)
  · exact h.inner p hp

/-- Class numbers in use are below `next`, and registered classes have a type. -/
structure Inv (st : St) : Prop where
  two : 2 ≤ st.next
  dts : ∀ c k, st.dts.get? (.cls c) = some k → c < st.next
  ent : ∀ x c, entry st.ct x = some (.cls c) → c < st.next
  typed : ∀ x c, entry st.ct x = some (.cls c) → ∃ k, st.dts.get? (.cls c) = some k
  wf : CtOk st.ct

theorem Frame.refl (st : St) : Frame st st :=
  ⟨rfl, Nat.le_refl _, fun _ _ => rfl, fun _ _ h => h, fun _ _ _ _ h => Or.inl h, fun _ h => Or.inl h,
    fun _ _ h => h, rfl, rfl, rfl⟩

theorem GenBy.frame {st st' : St} (h : Frame st st') {x : Key} {c : Cls} (hc : c < st.next) (hg : GenBy st x c) :
    GenBy st' x c := by
  obtain ⟨spec, p, h1, h2, h3, h4, h5⟩ := hg.parent
  refine ⟨h.dts _ _ hg.typ, spec, p, by rw [h.cat]; exact h1, h2, ?_, fun par hp => h.cls _ _ (h4 par hp), h5⟩
  rw [h.mro c hc, h.mro p (Nat.lt_trans h2 hc)]
  exact h3

theorem Frame.trans {a b c : St} (h1 : Frame a b) (h2 : Frame b c) : Frame a c where
  cat := h2.cat.trans h1.cat
  next := Nat.le_trans h1.next h2.next
  mro := fun x hx => (h2.mro x (Nat.lt_of_lt_of_le hx h1.next)).trans (h1.mro x hx)
  cls := fun x c h => h2.cls x c (h1.cls x c h)
  src := fun x i s t h => by
    rcases h1.src x i s t h with h | ⟨c, h, h'⟩
    · exact h2.src x i s t h
    · exact Or.inr ⟨c, h2.cls _ _ h, h2.cls _ _ h'⟩
  none := fun x h => by
    rcases h1.none x h with h | ⟨c, hc1, hc2, h, hg⟩
    · rcases h2.none x h with h | ⟨c, hc1, hc2, h, hg⟩
      · exact Or.inl h
      · exact Or.inr ⟨c, Nat.le_trans h1.next hc1, hc2, h, hg⟩
    · exact Or.inr ⟨c, hc1, Nat.lt_of_lt_of_le hc2 h2.next, h2.cls _ _ h, hg.frame h2 hc2⟩
  dts := fun e k h => h2.dts e k (h1.dts e k h)
  mappers := h2.mappers.trans h1.mappers
  mapperCls := h2.mapperCls.trans h1.mapperCls
  default := h2.default.trans h1.default

/-- What is known about one call that asks for a class. -/
structure Good (get : St → Key → St × Except Err Cls) (st : St) (k : Key) : Prop where
  frame : Frame st (get st k).1
  inv : Inv (get st k).1
  keep : ∀ x, TransGen (Edge st) x k → entry (get st k).1.ct x = entry st.ct x
  ok : ∀ c, (get st k).2 = .ok c → entry (get st k).1.ct k = some (.cls c)

theorem register_ok {st st' : St} {k : Key} {e : Entry} {u : Unit} (h : register st k e = (st', .ok u)) :
    st' = { st with ct := setEntry st.ct k e, dts := st.dts.setDefault e k, attrs := setAttrs st.attrs k e } ∧
      ∃ spec, getSpec st.cat k = .ok spec := by
  unfold register at h
  cases hg : getSpec st.cat k with
  | error => rw [hg] at h; cases h
  | ok s =>
    rw [hg] at h
    simp only [Prod.mk.injEq] at h
    exact ⟨h.1.symm, s, rfl⟩

theorem register_err {st st' : St} {k : Key} {e : Entry} {err : Err} (h : register st k e = (st', .error err)) :
    st' = st := by
  unfold register at h
  cases hg : getSpec st.cat k with
  | error => rw [hg] at h; simp only [Prod.mk.injEq] at h; exact h.1.symm
  | ok s => rw [hg] at h; simp at h

/-- Registering a class that is in use keeps the numbering sound. -/
theorem register_inv {st st' : St} {k : Key} {c : Cls} {u : Unit} (h : register st k (.cls c) = (st', .ok u))
    (hi : Inv st) (hc : c < st.next) : Inv st' := by
  obtain ⟨rfl, _⟩ := register_ok h
  refine ⟨hi.two, ?_, ?_, ?_, hi.wf.setEntry _ _⟩
  · intro c' k' h'
    simp only [setDefault_get?] at h'
    split at h'
    · next he => cases he; exact hc
    · exact hi.dts c' k' h'
  · intro x c' h'
    simp only [entry_setEntry] at h'
    split at h'
    · cases h'; exact hc
    · exact hi.ent x c' h'
  · intro x c' h'
    simp only [entry_setEntry] at h'
    simp only [setDefault_get?]
    split
    · exact ⟨_, rfl⟩
    · next hne =>
      split at h'
      · cases h'; exact absurd rfl hne
      · exact hi.typed x c' h'

/-- Replacing a `TypeSource` by the class of the type it stands for. -/
theorem register_src_frame {st st' : St} {k : Key} {i : Nat} {s t : Str} {c : Cls} {u : Unit}
    (h : register st k (.cls c) = (st', .ok u)) (hk : entry st.ct k = some (.src i s t))
    (hst : entry st.ct (s, t) = some (.cls c)) : Frame st st' := by
  have hne : (s, t) ≠ k := by
    intro he
    rw [he, hk] at hst
    cases hst
  obtain ⟨rfl, _⟩ := register_ok h
  refine ⟨rfl, Nat.le_refl _, fun _ _ => rfl, ?_, ?_, ?_, ?_, rfl, rfl, rfl⟩
  · intro x c' h'
    simp only [entry_setEntry]
    split
    · next he => rw [he, hk] at h'; cases h'
    · exact h'
  · intro x i' s' t' h'
    simp only [entry_setEntry]
    by_cases he : x = k
    · subst he
      rw [hk] at h'
      cases h'
      exact Or.inr ⟨c, by simp, by simp [hne, hst]⟩
    · simp only [he, if_false]
      exact Or.inl h'
  · intro x h'
    simp only [entry_setEntry]
    by_cases he : x = k
    · subst he; rw [hk] at h'; cases h'
    · simp only [he, if_false]
      exact Or.inl h'
  · intro e k' h'
    simp only [setDefault_get?]
    split
    · next he => subst he; rw [h']; rfl
    · exact h'

theorem containerCls_spec {get : St → Key → St × Except Err Cls} (hg : ∀ st k, Inv st → Good get st k) (st : St)
    (hi : Inv st) (k : Key) :
    Frame st (containerCls get st k).1 ∧ Inv (containerCls get st k).1 ∧
    (∀ x, x ≠ k → TransGen (Edge st) x k → entry (containerCls get st k).1.ct x = entry st.ct x) ∧
    (∀ c, (containerCls get st k).2 = .ok (some c) → entry (containerCls get st k).1.ct k = some (.cls c)) ∧
    ((∀ c, (containerCls get st k).2 ≠ .ok (some c)) → entry (containerCls get st k).1.ct k = entry st.ct k) := by
  unfold containerCls
  cases he : entry st.ct k with
  | none => exact ⟨Frame.refl st, hi, fun _ _ _ => rfl, by simp, fun _ => he⟩
  | some e =>
    cases e with
    | cls c => exact ⟨Frame.refl st, hi, fun _ _ _ => rfl, by intro c' h; cases h; exact he, fun _ => he⟩
    | src i s t =>
      have hG := hg st (s, t) hi
      have hedge : Edge st k (s, t) := Or.inl ⟨i, s, t, he, rfl⟩
      have hkk := hG.keep k (TransGen.single hedge)
      simp only
      obtain ⟨gf, gi, gk, go⟩ := hG
      rcases hr : get st (s, t) with ⟨st1, r⟩
      rw [hr] at gf gi gk go hkk
      rw [he] at hkk
      cases r with
      | error e => exact ⟨gf, gi, fun x _ hx => gk x (TransGen.tail hx hedge), by simp, fun _ => hkk⟩
      | ok c =>
        simp only
        have hc := go c rfl
        rcases hr2 : register st1 k (.cls c) with ⟨st2, r2⟩
        cases r2 with
        | error e =>
          have := register_err hr2
          subst this
          exact ⟨gf, gi, fun x _ hx => gk x (TransGen.tail hx hedge), by simp, fun _ => hkk⟩
        | ok u =>
          have hf2 := register_src_frame hr2 hkk hc
          refine ⟨gf.trans hf2, register_inv hr2 gi (gi.ent _ _ hc), ?_, ?_, ?_⟩
          · intro x hx hxt
            have := register_entry st1 k x (.cls c) hx
            rw [hr2] at this
            rw [this]
            exact gk x (TransGen.tail hxt hedge)
          · intro c' h'
            simp only [Except.ok.injEq, Option.some.injEq] at h'
            subst h'
            have := register_entry_ok st1 k (.cls c) u (by rw [hr2])
            rw [hr2] at this
            exact this
          · intro h'
            exact absurd rfl (h' c)

theorem askAll_spec {get : St → Key → St × Except Err Cls} (hg : ∀ st k, Inv st → Good get st k) (k : Key)
    (spec : SpecT) (ds : List Str) (hds : ∀ d ∈ ds, d ∈ deps spec) (st : St) (hi : Inv st)
    (hsp : getSpec st.cat k = .ok spec) (hent : entry st.ct k = none) :
    Frame st (askAll get k.1 ds st).1 ∧ Inv (askAll get k.1 ds st).1 ∧
    (∀ x, (x = k ∨ TransGen (Edge st) x k) → entry (askAll get k.1 ds st).1.ct x = entry st.ct x) ∧
    (∀ u, (askAll get k.1 ds st).2 = .ok u → ∀ d ∈ ds, ∃ c, entry (askAll get k.1 ds st).1.ct (k.1, d) = some (.cls c)) := by
  induction ds generalizing st with
  | nil => exact ⟨Frame.refl st, hi, fun _ _ => rfl, by simp⟩
  | cons d ds ih =>
    have hedge : Edge st k (k.1, d) := Or.inr ⟨hent, spec, hsp, d, hds d (List.mem_cons_self ..), rfl⟩
    obtain ⟨gf, gi, gk, go⟩ := hg st (k.1, d) hi
    have hkeep : ∀ x, (x = k ∨ TransGen (Edge st) x k) → entry (get st (k.1, d)).1.ct x = entry st.ct x := by
      intro x hx
      refine gk x ?_
      rcases hx with hx | hx
      · subst hx; exact TransGen.single hedge
      · exact TransGen.tail hx hedge
    unfold askAll at ih ⊢
    unfold forAll
    rcases hr : get st (k.1, d) with ⟨st1, r⟩
    rw [hr] at gf gi hkeep go
    cases r with
    | error e => exact ⟨gf, gi, hkeep, by simp [Except.map]⟩
    | ok c =>
      obtain ⟨i1, i2, i3, i4⟩ := ih (fun d' hd' => hds d' (List.mem_cons_of_mem _ hd')) st1 gi
        (by rw [gf.cat]; exact hsp) ((hkeep k (Or.inl rfl)).trans hent)
      refine ⟨gf.trans i1, i2, ?_, ?_⟩
      · intro x hx
        refine (i3 x ?_).trans (hkeep x hx)
        rcases hx with hx | hx
        · exact Or.inl hx
        · exact Or.inr (reach_keeps ⟨gf.cat, fun y hy => hkeep y (Or.inr hy)⟩ hx)
      · intro u hu d' hd'
        rcases List.mem_cons.1 hd' with hd' | hd'
        · subst hd'
          exact ⟨c, i1.cls _ _ (go c rfl)⟩
        · exact i4 u hu d' hd'

theorem inc_mem_deps {spec : SpecT} {p : Str} (h : spec.inc = some p) : p ∈ deps spec := by
  cases spec with
  | group i d r cs => simp only [SpecT.inc] at h; simp [deps, h]
  | dataset i d r => simp only [SpecT.inc] at h; simp [deps, h]
  | link t => cases h

theorem getSpec_ns {cat : Dict Str (Dict Str SpecT)} {k : Key} {spec : SpecT} (h : getSpec cat k = .ok spec) :
    (nsSpecs cat k.1).get? k.2 = some spec := by
  unfold getSpec at h
  unfold nsSpecs
  cases h1 : cat.get? k.1 with
  | none => rw [h1] at h; cases h
  | some d =>
    rw [h1] at h
    simp only [Option.getD_some]
    simp only at h
    cases h2 : d.get? k.2 with
    | none => rw [h2] at h; cases h
    | some s => rw [h2] at h; cases h; rfl

/-- Once the class of the parent type exists, finding the parent class asks for nothing further. -/
theorem parentCls_eq (get : St → Key → St × Except Err Cls) (spec : SpecT) (st : St) (k : Key)
    (hsp : getSpec st.cat k = .ok spec) (p : Str) (c : Cls) (hp : spec.inc = some p) (hpk : p ≠ k.2)
    (hc : entry st.ct (k.1, p) = some (.cls c)) (n : Nat) :
    parentCls (fun s t => containerCls get s (k.1, t)) spec (ancestors (nsSpecs st.cat k.1) (n + 1) k.2) st =
      (st, .ok c) := by
  have ha : ancestors (nsSpecs st.cat k.1) (n + 1) k.2 = p :: ancestors (nsSpecs st.cat k.1) n p := by
    conv => lhs; unfold ancestors
    rw [getSpec_ns hsp]
    simp only [hp, hpk, if_false]
  rw [ha]
  unfold parentCls containerCls
  rw [hc]

theorem parentCls_eq_none (get : St → Str → St × Except Err (Option Cls)) (spec : SpecT) (st : St) (k : Key)
    (hsp : getSpec st.cat k = .ok spec) (hp : spec.inc = none) (n : Nat) :
    parentCls get spec (ancestors (nsSpecs st.cat k.1) (n + 1) k.2) st = (st, defaultParent spec) := by
  have ha : ancestors (nsSpecs st.cat k.1) (n + 1) k.2 = [] := by
    unfold ancestors
    rw [getSpec_ns hsp]
    simp only [hp]
  rw [ha]
  rfl

/-- Generating a class for an unregistered type and registering it. -/
theorem generate_register {st st' : St} {k : Key} {p : Cls} {u : Unit} {spec : SpecT}
    (h : register (generate st p).1 k (.cls (generate st p).2) = (st', .ok u)) (hi : Inv st)
    (hent : entry st.ct k = none) (hsp : getSpec st.cat k = .ok spec) (hp : p < st.next)
    (h4 : ∀ par, spec.inc = some par → entry st.ct (k.1, par) = some (.cls p))
    (h5 : spec.inc = none → defaultParent spec = .ok p) :
    Frame st st' ∧ Inv st' ∧ entry st'.ct k = some (.cls st.next) ∧
      ∀ x, x ≠ k → entry st'.ct x = entry st.ct x := by
  have hfresh : st.dts.get? (.cls st.next) = none := by
    cases hd : st.dts.get? (.cls st.next) with
    | none => rfl
    | some k' => exact absurd (hi.dts _ _ hd) (Nat.lt_irrefl _)
  have hgi : Inv (generate st p).1 := by
    refine ⟨Nat.le_succ_of_le hi.two, ?_, ?_, hi.typed, hi.wf⟩
    · intro c k' hc; exact Nat.lt_succ_of_lt (hi.dts c k' hc)
    · intro x c hc; exact Nat.lt_succ_of_lt (hi.ent x c hc)
  have hinv := register_inv h hgi (Nat.lt_succ_self _)
  obtain ⟨rfl, _⟩ := register_ok h
  have hentk : ∀ x, x ≠ k → entry (setEntry (generate st p).1.ct k (.cls (generate st p).2)) x = entry st.ct x := by
    intro x hx
    simp only [entry_setEntry, hx, if_false]
    rfl
  refine ⟨⟨rfl, Nat.le_succ _, ?_, ?_, ?_, ?_, ?_, rfl, rfl, rfl⟩, hinv, by simp [entry_setEntry, generate], hentk⟩
  · intro c hc
    simp only [generate]
    rw [if_neg (Nat.ne_of_lt hc)]
  · intro x c hx
    by_cases hxk : x = k
    · subst hxk; rw [hent] at hx; cases hx
    · rw [← hx]; exact hentk x hxk
  · intro x i s t hx
    by_cases hxk : x = k
    · subst hxk; rw [hent] at hx; cases hx
    · left; rw [← hx]; exact hentk x hxk
  · intro x hx
    by_cases hxk : x = k
    · subst hxk
      refine Or.inr ⟨st.next, Nat.le_refl _, Nat.lt_succ_self _, by simp [entry_setEntry, generate], ?_, ?_⟩
      · simp only [generate, setDefault_get?, hfresh]
        rfl
      · refine ⟨spec, p, hsp, hp, ?_, ?_, h5⟩
        · simp only [generate]
          rw [if_pos trivial, if_neg (Nat.ne_of_lt hp)]
        · intro par hpar
          have hpk : (x.1, par) ≠ x := by
            intro he
            have := h4 par hpar
            rw [he, hent] at this
            cases this
          rw [← h4 par hpar]
          exact hentk _ hpk
    · left; rw [← hx]; exact hentk x hxk
  · intro e k' hd
    simp only [generate, setDefault_get?]
    split
    · next he => subst he; rw [hfresh] at hd; cases hd
    · exact hd

theorem defaultParent_lt {spec : SpecT} {p : Cls} (h : defaultParent spec = .ok p) : p < 2 := by
  cases spec with
  | group => cases h; exact Nat.zero_lt_two
  | dataset => cases h; exact Nat.one_lt_two
  | link => cases h

theorem finish_spec (get : St → Key → St × Except Err Cls) (spec : SpecT) (st : St) (hi : Inv st) (k : Key)
    (hsp : getSpec st.cat k = .ok spec) (hent : entry st.ct k = none)
    (hd : ∀ d ∈ deps spec, ∃ c, entry st.ct (k.1, d) = some (.cls c)) :
    Frame st (finish get spec st k).1 ∧ Inv (finish get spec st k).1 ∧
    (∀ x, x ≠ k → entry (finish get spec st k).1.ct x = entry st.ct x) ∧
    (∀ c, (finish get spec st k).2 = .ok c → entry (finish get spec st k).1.ct k = some (.cls c)) ∧
    (∀ e, (finish get spec st k).2 = .error e → (finish get spec st k).1.ct = st.ct) := by
  have hpar : ∀ par, spec.inc = some par → par ≠ k.2 := by
    intro par hp he
    obtain ⟨c, hc⟩ := hd par (inc_mem_deps hp)
    rw [he] at hc
    have : entry st.ct k = some (.cls c) := hc
    rw [hent] at this
    cases this
  have key : ∃ r, parentCls (fun s t => containerCls get s (k.1, t)) spec
      (ancestors (nsSpecs st.cat k.1) ((nsSpecs st.cat k.1).length + 1) k.2) st = (st, r) ∧
      ∀ p, r = .ok p → p < st.next ∧ (∀ par, spec.inc = some par → entry st.ct (k.1, par) = some (.cls p)) ∧
        (spec.inc = none → defaultParent spec = .ok p) := by
    cases hinc : spec.inc with
    | none =>
      refine ⟨_, parentCls_eq_none _ spec st k hsp hinc _, ?_⟩
      intro p hp
      exact ⟨Nat.lt_of_lt_of_le (defaultParent_lt hp) hi.two, by simp, fun _ => hp⟩
    | some par =>
      obtain ⟨c, hc⟩ := hd par (inc_mem_deps hinc)
      refine ⟨_, parentCls_eq get spec st k hsp par c hinc (hpar par hinc) hc _, ?_⟩
      intro p hp
      cases hp
      refine ⟨hi.ent _ _ hc, ?_, by simp⟩
      intro par' hp'
      cases hp'
      exact hc
  obtain ⟨r, hr, hrp⟩ := key
  unfold finish
  rw [hr]
  cases r with
  | error e => exact ⟨Frame.refl st, hi, fun _ _ => rfl, by simp, fun _ _ => rfl⟩
  | ok p =>
    obtain ⟨hp, h4, h5⟩ := hrp p rfl
    simp only
    rcases hr2 : register (generate st p).1 k (.cls (generate st p).2) with ⟨st2, r2⟩
    cases r2 with
    | error e =>
      exfalso
      unfold register at hr2
      have : getSpec (generate st p).1.cat k = .ok spec := hsp
      rw [this] at hr2
      cases hr2
    | ok u =>
      obtain ⟨a, b, c, d⟩ := generate_register hr2 hi hent hsp hp h4 h5
      refine ⟨a, b, d, ?_, by simp⟩
      intro c' hc'
      cases hc'
      exact c

theorem getDt_good (f : Nat) : ∀ st k, Inv st → Good (getDt f) st k := by
  induction f with
  | zero =>
    intro st k hi
    exact ⟨Frame.refl st, hi, fun _ _ => rfl, by simp [getDt]⟩
  | succ f ih =>
    intro st k hi
    -- everything except that a type depending on itself stays as it is
    have main : Frame st (getDt (f + 1) st k).1 ∧ Inv (getDt (f + 1) st k).1 ∧
        (∀ x, x ≠ k → TransGen (Edge st) x k → entry (getDt (f + 1) st k).1.ct x = entry st.ct x) ∧
        (∀ c, (getDt (f + 1) st k).2 = .ok c → entry (getDt (f + 1) st k).1.ct k = some (.cls c)) := by
      obtain ⟨c1, c2, c3, c4, c5⟩ := containerCls_spec ih st hi k
      rw [getDt_succ]
      rcases hr : containerCls (getDt f) st k with ⟨st1, r⟩
      rw [hr] at c1 c2 c3 c4 c5
      cases r with
      | error e => exact ⟨c1, c2, c3, by simp⟩
      | ok o =>
        cases o with
        | some c =>
          refine ⟨c1, c2, c3, ?_⟩
          intro c' h
          cases h
          exact c4 c rfl
        | none =>
          obtain ⟨hst, hent⟩ := containerCls_none _ _ _ _ hr
          subst hst
          simp only
          cases hsp : getSpec st1.cat k with
          | error e => exact ⟨c1, c2, c3, by simp⟩
          | ok spec =>
            obtain ⟨a1, a2, a3, a4⟩ := askAll_spec ih k spec (deps spec) (fun _ h => h) st1 hi hsp hent
            simp only
            rcases hra : askAll (getDt f) k.1 (deps spec) st1 with ⟨st2, r2⟩
            rw [hra] at a1 a2 a3 a4
            cases r2 with
            | error e => exact ⟨a1, a2, fun x _ hx => a3 x (Or.inr hx), by simp⟩
            | ok u =>
              obtain ⟨f1, f2, f3, f4, _⟩ := finish_spec (getDt f) spec st2 a2 k (by rw [a1.cat]; exact hsp)
                ((a3 k (Or.inl rfl)).trans hent) (a4 u rfl)
              exact ⟨a1.trans f1, f2, fun x hx hxk => (f3 x hx).trans (a3 x (Or.inr hxk)), f4⟩
    obtain ⟨m1, m2, m3, m4⟩ := main
    refine ⟨m1, m2, ?_, m4⟩
    intro x hx
    by_cases hxk : x = k
    · subst hxk
      exact (getDt_cycle (f + 1) st x hx).1
    · exact m3 x hxk hx

/-- Only classes that exist are registered. -/
def Valid (f : Nat) : St → List Op → Prop
  | _, [] => True
  | st, .reg k c :: ops => c < st.next ∧ Valid f (step f st (.reg k c)) ops
  | st, op :: ops => Valid f (step f st op) ops

/-- The call registers nothing explicitly for `k`: it is no `register_container_type` for `k` and no load of a
namespace that gets `k` from elsewhere. -/
def Spares (k : Key) : Op → Prop
  | .reg k' _ => k' ≠ k
  | .load _ ds => ∀ d ∈ ds, (d.1, d.2.2) ≠ k
  | _ => True

/-- What every call does: numbering stays sound, class types never change, existing classes keep their method
resolution order, mappers are never replaced. -/
structure Mono (st st' : St) : Prop where
  next : st.next ≤ st'.next
  mro : ∀ c, c < st.next → st'.mro c = st.mro c
  dts : ∀ e k, st.dts.get? e = some k → st'.dts.get? e = some k
  mappers : ∀ c m, st.mappers.get? c = some m → st'.mappers.get? c = some m

theorem Mono.refl (st : St) : Mono st st := ⟨Nat.le_refl _, fun _ _ => rfl, fun _ _ h => h, fun _ _ h => h⟩

theorem Mono.trans {a b c : St} (h1 : Mono a b) (h2 : Mono b c) : Mono a c :=
  ⟨Nat.le_trans h1.next h2.next, fun x hx => (h2.mro x (Nat.lt_of_lt_of_le hx h1.next)).trans (h1.mro x hx),
    fun e k h => h2.dts e k (h1.dts e k h), fun x m h => h2.mappers x m (h1.mappers x m h)⟩

theorem Frame.mono {st st' : St} (h : Frame st st') : Mono st st' :=
  ⟨h.next, h.mro, h.dts, fun c m hm => by rw [h.mappers]; exact hm⟩

theorem register_mono (st : St) (k : Key) (e : Entry) : Mono st (register st k e).1 := by
  rcases hr : register st k e with ⟨st', r⟩
  cases r with
  | error err => have := register_err hr; subst this; exact Mono.refl _
  | ok u =>
    obtain ⟨rfl, _⟩ := register_ok hr
    refine ⟨Nat.le_refl _, fun _ _ => rfl, ?_, fun _ _ h => h⟩
    intro e' k' h
    simp only [setDefault_get?]
    split
    · next he => subst he; rw [h]; rfl
    · exact h

theorem register_src_inv {st st' : St} {k : Key} {i : Nat} {s t : Str} {u : Unit}
    (h : register st k (.src i s t) = (st', .ok u)) (hi : Inv st) : Inv st' := by
  obtain ⟨rfl, _⟩ := register_ok h
  refine ⟨hi.two, ?_, ?_, ?_, hi.wf.setEntry _ _⟩
  · intro c' k' h'
    simp only [setDefault_get?] at h'
    split at h'
    · next he => cases he
    · exact hi.dts c' k' h'
  · intro x c' h'
    simp only [entry_setEntry] at h'
    split at h'
    · cases h'
    · exact hi.ent x c' h'
  · intro x c' h'
    simp only [entry_setEntry] at h'
    simp only [setDefault_get?]
    split
    · exact ⟨_, rfl⟩
    · split at h'
      · cases h'
      · exact hi.typed x c' h'

theorem noGen_spec (f : Nat) (st : St) (hi : Inv st) (k : Key) :
    Frame st (getDtNoGen f st k).1 ∧ Inv (getDtNoGen f st k).1 ∧
    (∀ c, (getDtNoGen f st k).2 = .ok (some c) → entry (getDtNoGen f st k).1.ct k = some (.cls c)) ∧
    ((getDtNoGen f st k).2 = .ok none → (getDtNoGen f st k).1 = st ∧ entry st.ct k = none) := by
  obtain ⟨a, b, _, d, _⟩ := containerCls_spec (getDt_good f) st hi k
  refine ⟨a, b, d, ?_⟩
  intro h
  exact containerCls_none _ _ _ _ (Prod.ext rfl h)

theorem loadDep_spec (f : Nat) (st : St) (hi : Inv st) (new src dt : Str) :
    Mono st (loadDep f st new src dt).1 ∧ Inv (loadDep f st new src dt).1 ∧
    (loadDep f st new src dt).1.cat = st.cat ∧
    ∀ k c, k ≠ (new, dt) → entry st.ct k = some (.cls c) →
      entry (loadDep f st new src dt).1.ct k = some (.cls c) := by
  obtain ⟨a, b, c, d⟩ := noGen_spec f st hi (src, dt)
  unfold loadDep
  rcases hr : getDtNoGen f st (src, dt) with ⟨st1, r⟩
  rw [hr] at a b c d
  cases r with
  | error e => exact ⟨a.mono, b, a.cat, fun k c _ h => a.cls k c h⟩
  | ok o =>
    cases o with
    | some cl =>
      have hm := register_mono st1 (new, dt) (.cls cl)
      have hc := register_cat st1 (new, dt) (.cls cl)
      have he := fun k hk => register_entry st1 (new, dt) k (.cls cl) hk
      simp only
      rcases hr2 : register st1 (new, dt) (.cls cl) with ⟨st2, r2⟩
      rw [hr2] at hm hc he
      refine ⟨a.mono.trans hm, ?_, hc.trans a.cat, fun k c hk h => (he k hk).trans (a.cls k c h)⟩
      cases r2 with
      | error e => have := register_err hr2; subst this; exact b
      | ok u => exact register_inv hr2 b (b.ent _ _ (c cl rfl))
    | none =>
      have hst := (d rfl).1
      simp only at hst
      subst hst
      have hb : Mono st1 { st1 with next := st1.next + 1 } :=
        ⟨Nat.le_succ _, fun _ _ => rfl, fun _ _ h => h, fun _ _ h => h⟩
      have hbi : Inv { st1 with next := st1.next + 1 } :=
        ⟨Nat.le_succ_of_le b.two, fun c k h => Nat.lt_succ_of_lt (b.dts c k h),
          fun x c h => Nat.lt_succ_of_lt (b.ent x c h), b.typed, b.wf⟩
      have hm := register_mono { st1 with next := st1.next + 1 } (new, dt) (.src st1.next src dt)
      have hc := register_cat { st1 with next := st1.next + 1 } (new, dt) (.src st1.next src dt)
      have he := fun k hk => register_entry { st1 with next := st1.next + 1 } (new, dt) k (.src st1.next src dt) hk
      simp only
      rcases hr2 : register { st1 with next := st1.next + 1 } (new, dt) (.src st1.next src dt) with ⟨st2, r2⟩
      rw [hr2] at hm hc he
      refine ⟨hb.trans hm, ?_, hc, fun k c hk h => (he k hk).trans h⟩
      cases r2 with
      | error e => have := register_err hr2; subst this; exact hbi
      | ok u => exact register_src_inv hr2 hbi

theorem loadAll_spec (f : Nat) (ds : List (Str × Str × Str)) (st : St) (hi : Inv st) :
    Mono st (forAll (fun s d => loadDep f s d.1 d.2.1 d.2.2) ds st).1 ∧
    Inv (forAll (fun s d => loadDep f s d.1 d.2.1 d.2.2) ds st).1 ∧
    ∀ k c, (∀ d ∈ ds, (d.1, d.2.2) ≠ k) → entry st.ct k = some (.cls c) →
      entry (forAll (fun s d => loadDep f s d.1 d.2.1 d.2.2) ds st).1.ct k = some (.cls c) := by
  induction ds generalizing st with
  | nil => exact ⟨Mono.refl st, hi, fun _ _ _ h => h⟩
  | cons d ds ih =>
    obtain ⟨a, b, _, c⟩ := loadDep_spec f st hi d.1 d.2.1 d.2.2
    unfold forAll
    rcases hr : loadDep f st d.1 d.2.1 d.2.2 with ⟨st1, r⟩
    rw [hr] at a b c
    cases r with
    | error e =>
      exact ⟨a, b, fun k c' hk h => c k c' (fun he => hk d (List.mem_cons_self ..) he.symm) h⟩
    | ok u =>
      obtain ⟨i1, i2, i3⟩ := ih st1 b
      exact ⟨a.trans i1, i2, fun k c' hk h => i3 k c' (fun d' hd' => hk d' (List.mem_cons_of_mem _ hd'))
        (c k c' (fun he => hk d (List.mem_cons_self ..) he.symm) h)⟩

theorem mapFor_ct (st : St) (c : Cls) (k : Key) :
    Mono st (mapFor st c k).1 ∧ (mapFor st c k).1.ct = st.ct ∧ (mapFor st c k).1.dts = st.dts ∧
      (mapFor st c k).1.next = st.next ∧ (mapFor st c k).1.cat = st.cat := by
  unfold mapFor
  cases hm : st.mappers.get? c with
  | some m => exact ⟨Mono.refl st, rfl, rfl, rfl, rfl⟩
  | none =>
    cases getSpec st.cat k with
    | error e => exact ⟨Mono.refl st, rfl, rfl, rfl, rfl⟩
    | ok s =>
      refine ⟨⟨Nat.le_refl _, fun _ _ => rfl, fun _ _ h => h, ?_⟩, rfl, rfl, rfl, rfl⟩
      intro c' m' h
      simp only [Dict.get?_set]
      split
      · next he => subst he; rw [hm] at h; cases h
      · exact h

theorem Inv.congr {st st' : St} (h : Inv st) (h1 : st'.ct = st.ct) (h2 : st'.dts = st.dts) (h3 : st'.next = st.next) :
    Inv st' := by
  obtain ⟨a, b, c, d, e⟩ := h
  exact ⟨by rw [h3]; exact a, by rw [h2, h3]; exact b, by rw [h1, h3]; exact c, by rw [h1, h2]; exact d,
    by rw [h1]; exact e⟩

/-- One call. -/
theorem step_spec (f : Nat) (st : St) (hi : Inv st) (op : Op) (hv : ∀ k c, op = .reg k c → c < st.next) :
    Mono st (step f st op) ∧ Inv (step f st op) ∧
    ∀ k c, Spares k op → entry st.ct k = some (.cls c) → entry (step f st op).ct k = some (.cls c) := by
  cases op with
  | define bases =>
    refine ⟨⟨Nat.le_succ _, ?_, fun _ _ h => h, fun _ _ h => h⟩, ⟨Nat.le_succ_of_le hi.two,
      fun c k h => Nat.lt_succ_of_lt (hi.dts c k h), fun x c h => Nat.lt_succ_of_lt (hi.ent x c h), hi.typed, hi.wf⟩,
      fun _ _ _ h => h⟩
    intro c hc
    simp only [step, define]
    rw [if_neg (Nat.ne_of_lt hc)]
  | reg k c =>
    refine ⟨register_mono st k _, ?_, ?_⟩
    · simp only [step]
      rcases hr : register st k (.cls c) with ⟨st', r⟩
      cases r with
      | error e => have := register_err hr; subst this; exact hi
      | ok u => exact register_inv hr hi (hv k c rfl)
    · intro k' c' hs h
      simp only [step]
      rw [register_entry st k k' (.cls c) (fun he => hs he.symm)]
      exact h
  | regMap c m =>
    simp only [step, registerMap]
    cases clsDt st.dts (st.mro c) with
    | none => exact ⟨Mono.refl st, hi, fun _ _ _ h => h⟩
    | some k =>
      exact ⟨⟨Nat.le_refl _, fun _ _ => rfl, fun _ _ h => h, fun _ _ h => h⟩, hi.congr rfl rfl rfl, fun _ _ _ h => h⟩
  | get k =>
    obtain ⟨a, b, _, _⟩ := getDt_good f st k hi
    exact ⟨a.mono, b, fun k' c' _ h => a.cls k' c' h⟩
  | mapC c =>
    simp only [step, getMapC]
    cases clsDt st.dts (st.mro c) with
    | none => exact ⟨Mono.refl st, hi, fun _ _ _ h => h⟩
    | some k =>
      obtain ⟨a, b, c', d, _⟩ := mapFor_ct st c k
      exact ⟨a, hi.congr b c' d, fun k' c'' _ h => by simp only; rw [b]; exact h⟩
  | mapB ns dt =>
    have hcls : Frame st (getCls f st ns dt).1 ∧ Inv (getCls f st ns dt).1 := by
      unfold getCls
      cases dt with
      | none => exact ⟨Frame.refl st, hi⟩
      | some d =>
        cases ns with
        | none => exact ⟨Frame.refl st, hi⟩
        | some n => exact ⟨(getDt_good f st (n, d) hi).frame, (getDt_good f st (n, d) hi).inv⟩
    simp only [step, getMapB]
    rcases hr : getCls f st ns dt with ⟨st1, r⟩
    rw [hr] at hcls
    cases r with
    | error e => exact ⟨hcls.1.mono, hcls.2, fun k' c' _ h => hcls.1.cls k' c' h⟩
    | ok c =>
      obtain ⟨a, b, c', d, _⟩ := mapFor_ct st1 c (ns.getD "", dt.getD "")
      exact ⟨hcls.1.mono.trans a, hcls.2.congr b c' d, fun k' c'' _ h => by
        simp only; rw [b]; exact hcls.1.cls k' c'' h⟩
  | load cat ds =>
    obtain ⟨a, b, c⟩ := loadAll_spec f ds { st with cat := cat } (hi.congr rfl rfl rfl)
    have hm : Mono st { st with cat := cat } := ⟨Nat.le_refl _, fun _ _ => rfl, fun _ _ h => h, fun _ _ h => h⟩
    exact ⟨hm.trans a, b, fun k c' hs h => c k c' hs h⟩

theorem valid_cons {f : Nat} {st : St} {op : Op} {ops : List Op} (h : Valid f st (op :: ops)) :
    (∀ k c, op = .reg k c → c < st.next) ∧ Valid f (step f st op) ops := by
  cases op with
  | reg k c => exact ⟨fun k' c' he => by cases he; exact h.1, h.2⟩
  | define => exact ⟨by simp, h⟩
  | regMap => exact ⟨by simp, h⟩
  | get => exact ⟨by simp, h⟩
  | mapC => exact ⟨by simp, h⟩
  | mapB => exact ⟨by simp, h⟩
  | load => exact ⟨by simp, h⟩

/-- A history of calls. -/
theorem run_spec (f : Nat) (ops : List Op) (st : St) (hi : Inv st) (hv : Valid f st ops) :
    Mono st (run f st ops) ∧ Inv (run f st ops) ∧
    ∀ k c, (∀ op ∈ ops, Spares k op) → entry st.ct k = some (.cls c) → entry (run f st ops).ct k = some (.cls c) := by
  induction ops generalizing st with
  | nil => exact ⟨Mono.refl st, hi, fun _ _ _ h => h⟩
  | cons op ops ih =>
    obtain ⟨hv1, hv2⟩ := valid_cons hv
    obtain ⟨a, b, c⟩ := step_spec f st hi op hv1
    obtain ⟨i1, i2, i3⟩ := ih (step f st op) b hv2
    exact ⟨a.trans i1, i2, fun k c' hs h => i3 k c' (fun o ho => hs o (List.mem_cons_of_mem _ ho))
      (c k c' (hs op (List.mem_cons_self ..)) h)⟩

theorem init_inv (cat : Dict Str (Dict Str SpecT)) (m : Nat) : Inv (init cat m) :=
  ⟨Nat.le_refl _, (fun c k h => by cases h), (fun x c h => by cases h), (fun x c h => by cases h), ctOk_nil⟩

theorem getDt_of_cls {f : Nat} {st : St} {k : Key} {c : Cls} (h : entry st.ct k = some (.cls c)) :
    getDt (f + 1) st k = (st, .ok c) := by
  rw [getDt_succ]
  unfold containerCls
  rw [h]

/-! ### Linked namespaces -/

/-- Type `dt` of namespace `n` stands for type `t` of `s`: it is still to be looked up there, or has the same class. -/
def Linked (st : St) (n s : Key) : Prop :=
  (∃ i, entry st.ct n = some (.src i s.1 s.2)) ∨
  ∃ c, entry st.ct n = some (.cls c) ∧ entry st.ct s = some (.cls c)

theorem Linked.frame {st st' : St} (h : Frame st st') {n s : Key} (hl : Linked st n s) : Linked st' n s := by
  rcases hl with ⟨i, hl⟩ | ⟨c, h1, h2⟩
  · rcases h.src n i s.1 s.2 hl with h' | ⟨c, h1, h2⟩
    · exact Or.inl ⟨i, h'⟩
    · exact Or.inr ⟨c, h1, h2⟩
  · exact Or.inr ⟨c, h.cls _ _ h1, h.cls _ _ h2⟩

theorem Linked.entry_eq {st st' : St} {n s : Key} (hn : entry st'.ct n = entry st.ct n)
    (hs : entry st'.ct s = entry st.ct s) (hl : Linked st n s) : Linked st' n s := by
  unfold Linked at hl ⊢
  rw [hn, hs]
  exact hl

theorem loadDep_linked (f : Nat) (st : St) (hi : Inv st) (new src dt : Str) (n s : Key) (hn : (new, dt) ≠ n)
    (hs : (new, dt) ≠ s) (hl : Linked st n s) : Linked (loadDep f st new src dt).1 n s := by
  obtain ⟨a, _, _, d⟩ := noGen_spec f st hi (src, dt)
  unfold loadDep
  rcases hr : getDtNoGen f st (src, dt) with ⟨st1, r⟩
  rw [hr] at a d
  have hl1 := hl.frame a
  cases r with
  | error e => exact hl1
  | ok o =>
    cases o with
    | some c => exact hl1.entry_eq (register_entry _ _ _ _ hn.symm) (register_entry _ _ _ _ hs.symm)
    | none => exact hl1.entry_eq (register_entry _ _ _ _ hn.symm) (register_entry _ _ _ _ hs.symm)

theorem loadAll_linked (f : Nat) (ds : List (Str × Str × Str)) (st : St) (hi : Inv st) (n s : Key)
    (hn : ∀ d ∈ ds, (d.1, d.2.2) ≠ n) (hs : ∀ d ∈ ds, (d.1, d.2.2) ≠ s) (hl : Linked st n s) :
    Linked (forAll (fun s d => loadDep f s d.1 d.2.1 d.2.2) ds st).1 n s := by
  induction ds generalizing st with
  | nil => exact hl
  | cons d ds ih =>
    have h1 := loadDep_linked f st hi d.1 d.2.1 d.2.2 n s (hn d (List.mem_cons_self ..)) (hs d (List.mem_cons_self ..)) hl
    obtain ⟨_, b, _, _⟩ := loadDep_spec f st hi d.1 d.2.1 d.2.2
    unfold forAll
    rcases hr : loadDep f st d.1 d.2.1 d.2.2 with ⟨st1, r⟩
    rw [hr] at h1 b
    cases r with
    | error e => exact h1
    | ok u =>
      exact ih st1 b (fun d' h => hn d' (List.mem_cons_of_mem _ h)) (fun d' h => hs d' (List.mem_cons_of_mem _ h)) h1

theorem step_linked (f : Nat) (st : St) (hi : Inv st) (op : Op) (n s : Key) (hn : Spares n op) (hs : Spares s op)
    (hl : Linked st n s) : Linked (step f st op) n s := by
  cases op with
  | define bases => exact hl
  | reg k c => exact hl.entry_eq (register_entry _ _ _ _ (Ne.symm hn)) (register_entry _ _ _ _ (Ne.symm hs))
  | regMap c m =>
    simp only [step, registerMap]
    cases clsDt st.dts (st.mro c) <;> exact hl
  | get k => exact hl.frame (getDt_good f st k hi).frame
  | mapC c =>
    simp only [step, getMapC]
    cases clsDt st.dts (st.mro c) with
    | none => exact hl
    | some k =>
      have h := (mapFor_ct st c k).2.1
      exact hl.entry_eq (by simp only; rw [h]) (by simp only; rw [h])
  | mapB ns dt =>
    have hcls : Frame st (getCls f st ns dt).1 := by
      unfold getCls
      cases dt with
      | none => exact Frame.refl st
      | some d =>
        cases ns with
        | none => exact Frame.refl st
        | some n => exact (getDt_good f st (n, d) hi).frame
    simp only [step, getMapB]
    rcases hr : getCls f st ns dt with ⟨st1, r⟩
    rw [hr] at hcls
    cases r with
    | error e => exact hl.frame hcls
    | ok c =>
      have h := (mapFor_ct st1 c (ns.getD "", dt.getD "")).2.1
      exact (hl.frame hcls).entry_eq (by simp only; rw [h]) (by simp only; rw [h])
  | load cat ds =>
    exact loadAll_linked f ds { st with cat := cat } (hi.congr rfl rfl rfl) n s hn hs hl

theorem run_linked (f : Nat) (ops : List Op) (st : St) (hi : Inv st) (hv : Valid f st ops) (n s : Key)
    (hn : ∀ op ∈ ops, Spares n op) (hs : ∀ op ∈ ops, Spares s op) (hl : Linked st n s) :
    Linked (run f st ops) n s := by
  induction ops generalizing st with
  | nil => exact hl
  | cons op ops ih =>
    obtain ⟨hv1, hv2⟩ := valid_cons hv
    obtain ⟨_, b, _⟩ := step_spec f st hi op hv1
    exact ih (step f st op) b hv2 (fun o h => hn o (List.mem_cons_of_mem _ h))
      (fun o h => hs o (List.mem_cons_of_mem _ h))
      (step_linked f st hi op n s (hn op (List.mem_cons_self ..)) (hs op (List.mem_cons_self ..)) hl)

theorem forAll_append {α : Type} (g : St → α → St × Except Err Unit) (l1 l2 : List α) (st : St) :
    forAll g (l1 ++ l2) st =
      match forAll g l1 st with
      | (st1, .error e) => (st1, .error e)
      | (st1, .ok _) => forAll g l2 st1 := by
  induction l1 generalizing st with
  | nil => rfl
  | cons a l1 ih =>
    rw [List.cons_append]
    simp only [forAll]
    rcases hr : g st a with ⟨st1, r⟩
    cases r with
    | error e => rfl
    | ok u => exact ih st1

theorem loadDep_makes (f : Nat) (st st' : St) (hi : Inv st) (new src dt : Str) (u : Unit) (hne : new ≠ src)
    (h : loadDep f st new src dt = (st', .ok u)) : Linked st' (new, dt) (src, dt) := by
  obtain ⟨a, b, c, d⟩ := noGen_spec f st hi (src, dt)
  have hk : (src, dt) ≠ (new, dt) := fun he => hne (Prod.mk.inj he).1.symm
  unfold loadDep at h
  rcases hr : getDtNoGen f st (src, dt) with ⟨st1, r⟩
  rw [hr] at a b c d h
  cases r with
  | error e => simp at h
  | ok o =>
    cases o with
    | some cl =>
      right
      have h1 := register_entry_ok st1 (new, dt) (.cls cl) u (by simp only at h; rw [h])
      have h2 := register_entry st1 (new, dt) (src, dt) (.cls cl) hk
      simp only at h
      rw [h] at h1 h2
      exact ⟨cl, h1, h2.trans (c cl rfl)⟩
    | none =>
      left
      have h1 := register_entry_ok { st1 with next := st1.next + 1 } (new, dt) (.src st1.next src dt) u
        (by simp only at h; rw [h])
      simp only at h
      rw [h] at h1
      exact ⟨_, h1⟩

/-! ### Copying -/

theorem entry_of_mem_flat {ct : Dict Str (Dict Str Entry)} (hw : CtOk ct) {k : Key} {e : Entry} :
    (k, e) ∈ flat ct ↔ entry ct k = some e := by
  unfold flat entry
  constructor
  · intro h
    simp only [List.mem_flatMap, List.mem_map] at h
    obtain ⟨p, hp, q, hq, he⟩ := h
    cases he
    have h1 : Dict.get? ct p.1 = some p.2 := Dict.get?_of_mem hw.outer hp
    have h2 : Dict.get? p.2 q.1 = some q.2 := Dict.get?_of_mem (hw.inner p hp) hq
    simp only [h1, h2]
  · intro h
    simp only [List.mem_flatMap, List.mem_map]
    cases h1 : Dict.get? ct k.1 with
    | none => rw [h1] at h; cases h
    | some d =>
      rw [h1] at h
      exact ⟨(k.1, d), Dict.mem_of_get? h1, (k.2, e), Dict.mem_of_get? h, rfl⟩

theorem forAll_register_ok (L : List (Key × Entry)) (st st' : St) (u : Unit)
    (h : forAll (fun s p => register s p.1 p.2) L st = (st', .ok u)) :
    (∀ k, (∀ e, (k, e) ∉ L) → entry st'.ct k = entry st.ct k) ∧
    (∀ k e, (k, e) ∈ L → (∀ e', (k, e') ∈ L → e' = e) → entry st'.ct k = some e) ∧
    (∀ e k, st.dts.get? e = some k → st'.dts.get? e = some k) ∧
    (∀ e, (∀ k, (k, e) ∉ L) → st'.dts.get? e = st.dts.get? e) ∧
    (∀ e k, st.dts.get? e = none → (k, e) ∈ L → (∀ k', (k', e) ∈ L → k' = k) → st'.dts.get? e = some k) ∧
    st'.cat = st.cat ∧ st'.mro = st.mro ∧ st'.mapperCls = st.mapperCls := by
  induction L generalizing st with
  | nil =>
    cases h
    exact ⟨fun _ _ => rfl, by simp, fun _ _ h => h, fun _ _ => rfl, by simp, rfl, rfl, rfl⟩
  | cons p L ih =>
    obtain ⟨pk, pe⟩ := p
    unfold forAll at h
    rcases hr : register st pk pe with ⟨st1, r⟩
    rw [hr] at h
    cases r with
    | error e => simp at h
    | ok v =>
      obtain ⟨i1, i2, i3, i4, i5, i6, i7, i8⟩ := ih st1 h
      obtain ⟨hst1, _⟩ := register_ok hr
      have he : ∀ k, entry st1.ct k = if k = pk then some pe else entry st.ct k := by
        intro k; rw [hst1]; exact entry_setEntry st.ct pk k pe
      have hd : ∀ e, st1.dts.get? e = if e = pe then some ((st.dts.get? pe).getD pk) else st.dts.get? e := by
        intro e; rw [hst1]; exact setDefault_get? st.dts pe e pk
      refine ⟨?_, ?_, ?_, ?_, ?_, i6.trans (by rw [hst1]), i7.trans (by rw [hst1]), i8.trans (by rw [hst1])⟩
      · intro k hk
        rw [i1 k (fun e hm => hk e (List.mem_cons_of_mem _ hm)), he k, if_neg]
        intro hkp
        subst hkp
        exact hk pe (List.mem_cons_self ..)
      · intro k e hm hu
        by_cases hin : ∃ e', (k, e') ∈ L
        · obtain ⟨e', he'⟩ := hin
          have := hu e' (List.mem_cons_of_mem _ he')
          subst this
          exact i2 k e' he' (fun e'' h'' => hu e'' (List.mem_cons_of_mem _ h''))
        · have hin' : ∀ e', (k, e') ∉ L := fun e' h' => hin ⟨e', h'⟩
          rw [i1 k hin', he k]
          rcases List.mem_cons.1 hm with hm | hm
          · cases hm; simp
          · exact absurd hm (hin' e)
      · intro e k hk
        refine i3 e k ?_
        rw [hd e]
        split
        · next hep => subst hep; rw [hk]; rfl
        · exact hk
      · intro e hk
        rw [i4 e (fun k hm => hk k (List.mem_cons_of_mem _ hm)), hd e, if_neg]
        intro hep
        subst hep
        exact hk pk (List.mem_cons_self ..)
      · intro e k hn hm hu
        rcases List.mem_cons.1 hm with hm | hm
        · obtain ⟨h1, h2⟩ := Prod.mk.inj hm
          subst h1 h2
          refine i3 _ _ ?_
          rw [hd, if_pos rfl, hn]
          rfl
        · by_cases hep : e = pe
          · subst hep
            have := hu pk (List.mem_cons_self ..)
            subst this
            refine i3 e pk ?_
            rw [hd e, if_pos rfl, hn]
            rfl
          · refine i5 e k ?_ hm (fun k' h' => hu k' (List.mem_cons_of_mem _ h'))
            rw [hd e, if_neg hep, hn]

theorem forAll_registerMap_ok (L : List (Cls × Nat)) (st st' : St) (u : Unit)
    (h : forAll (fun s p => registerMap s p.1 p.2) L st = (st', .ok u)) :
    st'.ct = st.ct ∧ st'.dts = st.dts ∧ st'.mro = st.mro ∧ st'.cat = st.cat := by
  induction L generalizing st with
  | nil => cases h; exact ⟨rfl, rfl, rfl, rfl⟩
  | cons p L ih =>
    unfold forAll at h
    cases hc : clsDt st.dts (st.mro p.1) with
    | none =>
      have hr : registerMap st p.1 p.2 = (st, .error .valueError) := by unfold registerMap; rw [hc]
      rw [hr] at h
      simp at h
    | some k =>
      have hr : registerMap st p.1 p.2 = ({ st with mapperCls := st.mapperCls.set p.1 p.2 }, .ok ()) := by
        unfold registerMap
        rw [hc]
      rw [hr] at h
      exact ih { st with mapperCls := st.mapperCls.set p.1 p.2 } h

theorem forAll_register_total (L : List (Key × Entry)) (st : St)
    (hs : ∀ p ∈ L, ∃ spec, getSpec st.cat p.1 = .ok spec) :
    ∃ st', forAll (fun s p => register s p.1 p.2) L st = (st', .ok ()) := by
  induction L generalizing st with
  | nil => exact ⟨st, rfl⟩
  | cons p L ih =>
    obtain ⟨spec, hsp⟩ := hs p (List.mem_cons_self ..)
    unfold forAll
    have hr : register st p.1 p.2 = ({ st with
        ct := setEntry st.ct p.1 p.2
        dts := st.dts.setDefault p.2 p.1
        attrs := setAttrs st.attrs p.1 p.2 }, .ok ()) := by
      unfold register
      rw [hsp]
    rw [hr]
    exact ih _ (fun q hq => hs q (List.mem_cons_of_mem _ hq))

theorem clsDt_some_of_mem {dts : Dict Entry Key} {l : List Cls} {c : Cls} {k : Key} (hc : c ∈ l)
    (hk : dts.get? (.cls c) = some k) : ∃ k', clsDt dts l = some k' := by
  induction l with
  | nil => cases hc
  | cons a l ih =>
    unfold clsDt
    cases ha : dts.get? (.cls a) with
    | some k' => exact ⟨k', rfl⟩
    | none =>
      rcases List.mem_cons.1 hc with h | h
      · subst h; rw [hk] at ha; cases ha
      · exact ih h

theorem forAll_registerMap_total (L : List (Cls × Nat)) (st : St)
    (hs : ∀ p ∈ L, ∃ k, clsDt st.dts (st.mro p.1) = some k) :
    ∃ st', forAll (fun s p => registerMap s p.1 p.2) L st = (st', .ok ()) := by
  induction L generalizing st with
  | nil => exact ⟨st, rfl⟩
  | cons p L ih =>
    obtain ⟨k, hk⟩ := hs p (List.mem_cons_self ..)
    unfold forAll
    have hr : registerMap st p.1 p.2 = ({ st with mapperCls := st.mapperCls.set p.1 p.2 }, .ok ()) := by
      unfold registerMap
      rw [hk]
    rw [hr]
    exact ih _ (fun q hq => hs q (List.mem_cons_of_mem _ hq))

/-! ### Every type whose dependencies are well founded gets a class -/

/-- All types in `R` can be given a class: what they depend on is in `R`, comes earlier in `rank`, and has a
specification. -/
structure Grounded (st : St) (R : Key → Prop) (rank : Key → Nat) : Prop where
  spec : ∀ k, R k → (∀ c, entry st.ct k ≠ some (.cls c)) → ∃ s, getSpec st.cat k = .ok s ∧ ∀ t, s ≠ .link t
  edge : ∀ k k', R k → Edge st k k' → R k' ∧ rank k' < rank k

theorem edge_back {st st' : St} (h : Frame st st') {k k' : Key} (he : Edge st' k k') : Edge st k k' := by
  unfold Edge at he ⊢
  cases hk : entry st.ct k with
  | none =>
    rcases h.none k hk with hn | ⟨c, _, _, hn, _⟩
    · rw [hn, h.cat] at he
      exact he
    · rw [hn] at he
      rcases he with ⟨_, _, _, h1, _⟩ | ⟨h1, _⟩ <;> cases h1
  | some e =>
    cases e with
    | cls c =>
      rw [h.cls k c hk] at he
      rcases he with ⟨_, _, _, h1, _⟩ | ⟨h1, _⟩ <;> cases h1
    | src i s t =>
      rcases h.src k i s t hk with hn | ⟨c, hn, _⟩
      · rw [hn, h.cat] at he
        exact he
      · rw [hn] at he
        rcases he with ⟨_, _, _, h1, _⟩ | ⟨h1, _⟩ <;> cases h1

theorem Grounded.frame {st st' : St} (h : Frame st st') {R : Key → Prop} {rank : Key → Nat} (hg : Grounded st R rank) :
    Grounded st' R rank := by
  refine ⟨?_, fun k k' hk he => hg.edge k k' hk (edge_back h he)⟩
  intro k hk hc
  rw [h.cat]
  exact hg.spec k hk (fun c hc' => hc c (h.cls k c hc'))

theorem askAll_total {get : St → Key → St × Except Err Cls} {R : Key → Prop} {rank : Key → Nat} (ns : Str)
    (ds : List Str) (st : St) (hg : Grounded st R rank) (hi : Inv st)
    (hgood : ∀ st k, Inv st → Good get st k)
    (hget : ∀ st' d, d ∈ ds → Inv st' → Grounded st' R rank → ∃ c, (get st' (ns, d)).2 = .ok c) :
    ∃ st', askAll get ns ds st = (st', .ok ()) := by
  induction ds generalizing st with
  | nil => exact ⟨st, rfl⟩
  | cons d ds ih =>
    obtain ⟨c, hc⟩ := hget st d (List.mem_cons_self ..) hi hg
    obtain ⟨gf, gi, _, _⟩ := hgood st (ns, d) hi
    unfold askAll at ih ⊢
    unfold forAll
    rcases hr : get st (ns, d) with ⟨st1, r⟩
    rw [hr] at gf gi hc
    simp only at hc
    subst hc
    exact ih st1 (hg.frame gf) gi (fun st' d' hd' => hget st' d' (List.mem_cons_of_mem _ hd'))

theorem getDt_total (R : Key → Prop) (rank : Key → Nat) (f : Nat) :
    ∀ st k, Inv st → Grounded st R rank → R k → rank k < f → ∃ c, (getDt f st k).2 = .ok c := by
  induction f with
  | zero => intro st k _ _ _ h; exact absurd h (Nat.not_lt_zero _)
  | succ f ih =>
    intro st k hi hg hR hf
    rw [getDt_succ]
    cases hent : entry st.ct k with
    | some e =>
      cases e with
      | cls c => exact ⟨c, by unfold containerCls; rw [hent]⟩
      | src i s t =>
        obtain ⟨hR', hrank⟩ := hg.edge k (s, t) hR (Or.inl ⟨i, s, t, hent, rfl⟩)
        obtain ⟨c, hc⟩ := ih st (s, t) hi hg hR' (by omega)
        have hf1 := (getDt_good f st (s, t) hi).frame
        obtain ⟨sp, hsp, _⟩ := hg.spec k hR (by rw [hent]; simp)
        unfold containerCls
        rw [hent]
        simp only
        rcases hr : getDt f st (s, t) with ⟨st1, r⟩
        rw [hr] at hc hf1
        simp only at hc
        subst hc
        have hr2 : (register st1 k (.cls c)).2 = .ok () := by
          unfold register
          rw [hf1.cat, hsp]
        simp only
        rcases hr3 : register st1 k (.cls c) with ⟨st2, r2⟩
        rw [hr3] at hr2
        simp only at hr2
        subst hr2
        exact ⟨c, rfl⟩
    | none =>
      obtain ⟨sp, hsp, hlink⟩ := hg.spec k hR (by rw [hent]; simp)
      have hcc : containerCls (getDt f) st k = (st, .ok none) := by unfold containerCls; rw [hent]
      rw [hcc]
      simp only [hsp]
      have hedge : ∀ d, d ∈ deps sp → Edge st k (k.1, d) := fun d hd => Or.inr ⟨hent, sp, hsp, d, hd, rfl⟩
      obtain ⟨st2, h2⟩ := askAll_total k.1 (deps sp) st hg hi (getDt_good f) (fun st' d hd hi' hg' => by
        obtain ⟨hR', hrank⟩ := hg.edge k (k.1, d) hR (hedge d hd)
        exact ih st' (k.1, d) hi' hg' hR' (by omega))
      obtain ⟨a1, a2, a3, a4⟩ := askAll_spec (getDt_good f) k sp (deps sp) (fun _ h => h) st hi hsp hent
      rw [h2] at a1 a2 a3 a4 ⊢
      simp only
      have hsp2 : getSpec st2.cat k = .ok sp := by rw [a1.cat]; exact hsp
      have hent2 : entry st2.ct k = none := (a3 k (Or.inl rfl)).trans hent
      have key : ∃ p, parentCls (fun s t => containerCls (getDt f) s (k.1, t)) sp
          (ancestors (nsSpecs st2.cat k.1) ((nsSpecs st2.cat k.1).length + 1) k.2) st2 = (st2, .ok p) := by
        cases hinc : sp.inc with
        | none =>
          rw [parentCls_eq_none _ sp st2 k hsp2 hinc]
          cases sp with
          | group => exact ⟨0, rfl⟩
          | dataset => exact ⟨1, rfl⟩
          | link t => exact absurd rfl (hlink t)
        | some par =>
          obtain ⟨c, hc⟩ := a4 () rfl par (inc_mem_deps hinc)
          refine ⟨c, parentCls_eq (getDt f) sp st2 k hsp2 par c hinc ?_ hc _⟩
          intro he
          rw [he] at hc
          have : entry st2.ct k = some (.cls c) := hc
          rw [hent2] at this
          cases this
      obtain ⟨p, hp⟩ := key
      unfold finish
      rw [hp]
      simp only
      have hr2 : (register (generate st2 p).1 k (.cls (generate st2 p).2)).2 = .ok () := by
        unfold register
        have : getSpec (generate st2 p).1.cat k = .ok sp := hsp2
        rw [this]
      rcases hr3 : register (generate st2 p).1 k (.cls (generate st2 p).2) with ⟨st3, r3⟩
      rw [hr3] at hr2
      simp only at hr2
      subst hr2
      exact ⟨_, rfl⟩

end Verif.TypeMap

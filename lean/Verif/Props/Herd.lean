import Verif.Lemmas.Herd

/-!
# Properties of external resources
-/

namespace Verif.Herd
open Verif

/-- In the tables, an object (by object id, relative path and field) uses a key of a name, and the key has the entity. -/
def Retrievable (h : Herd) (oid path field name eid : String) : Prop :=
  ∃ o k e ob u, h.objects[o]? = some ob ∧ ob.oid = oid ∧ ob.path = path ∧ ob.field = field ∧ (o, k) ∈ h.objectKeys ∧
    h.keys[k]? = some name ∧ (e, k) ∈ h.entityKeys ∧ h.entities[e]? = some (eid, u)

/-- **C29.** After any history of `add_ref` calls, accepted or rejected, whose `Key` rows come from this table, all indices
refer to rows. -/
theorem C29_integrity (cs : List Call) (hv : Valid {} cs) :
    let h := run {} cs
    (∀ r ∈ h.objectKeys, r.1 < h.objects.length ∧ r.2 < h.keys.length) ∧
    (∀ r ∈ h.entityKeys, r.1 < h.entities.length ∧ r.2 < h.keys.length) ∧
    (∀ ob ∈ h.objects, ob.file < h.files.length) :=
  let i := run_inv cs {} inv_empty hv
  ⟨i.ok, i.ek, i.objs⟩

/-- **C29 fails** for a `Key` row of another table: it is accepted and leaves a dangling index. -/
theorem C29_foreign_key_fails : ∃ c h', addRef {} c = (h', .ok ()) ∧ h'.keys = [] ∧ h'.entityKeys = [(0, 7)] :=
  ⟨{ file := some "f", target := .ok ("o", "T", ""), key := .row 7, eid := "e", uri := some "u" }, _, rfl, rfl, rfl⟩

/-- calls used as example -/
def demo : List Call :=
  [{ file := some "f", target := .ok ("A", "T", ""), key := .str "x", eid := "e1", uri := some "u1" },
   { file := some "f", target := .ok ("A", "T", ""), key := .str "x", eid := "e2", uri := some "u2" },
   { chain := [("B", false), ("g", true)], target := .ok ("B", "T", "p"), key := .str "x", eid := "e1" },
   { file := some "f", target := .ok ("B", "T", "p"), key := .row 0, eid := "e3", uri := some "u3" },
   { file := some "f", target := .ok ("C", "T", ""), key := .str "y", eid := "e9" },
   { chain := [("C", false)], target := .ok ("C", "T", ""), key := .str "y", eid := "e1" }]

/-- non-vacuity: the fifth (no URI) and sixth (no file) calls are rejected -/
example : run {} demo =
    { keys := ["x", "x"]
      files := ["f", "g"]
      entities := [("e1", "u1"), ("e2", "u2"), ("e3", "u3")]
      objects := [⟨0, "A", "T", "", ""⟩, ⟨1, "B", "T", "p", ""⟩]
      objectKeys := [(0, 0), (0, 0), (1, 1), (1, 0)]
      entityKeys := [(0, 0), (1, 0), (0, 1), (2, 0)] } := by decide +kernel

example : Valid {} demo := by
  refine ⟨?_, ?_, ?_, ?_, ?_, ?_, trivial⟩ <;> intro k hk <;> simp at hk
  subst hk; decide +kernel

/-- **C30 (recorded).** After an accepted call the entity can be retrieved from the object under the key's name. -/
theorem C30_recorded (cs : List Call) (hv : Valid {} cs) (c : Call) (h' : Herd) (oid otype path name : String)
    (hok : addRef (run {} cs) c = (h', .ok ())) (ht : c.target = .ok (oid, otype, path))
    (hk : c.key = .str name ∨ ∃ k, c.key = .row k ∧ (run {} cs).keys[k]? = some name) :
    Retrievable h' oid path c.field name c.eid := by
  have i := run_inv cs {} inv_empty hv
  generalize run {} cs = h at *
  rcases addRef_cases h c with ⟨e, he⟩ | ⟨f, oid', otype', path', ref, -, ht', -, hc, he⟩
  · rw [he] at hok; simp at hok
  · rw [ht] at ht'
    simp only [Except.ok.injEq, Prod.mk.injEq] at ht'
    obtain ⟨rfl, rfl, rfl⟩ := ht'
    rw [he] at hok
    rcases hk with hk | ⟨k, hk, hname⟩
    · obtain ⟨h2, e1, -, o, k, e, u, ob, a1, a2, a3, a4, -, a6, -, a8, -⟩ := populate_str (otype := otype) i hk hc
      rw [e1] at hok
      simp only [Prod.mk.injEq, and_true] at hok
      subst hok
      simp only [Obj.id, Prod.mk.injEq] at a2
      exact ⟨o, k, e, ob, u, a1, a2.1, a2.2.1, a2.2.2, by rw [a6]; simp, a3, (a8 _).2 (.inr rfl), a4⟩
    · obtain ⟨h2, e1, -, e2, o, e, u, ob, a1, a2, a3, a4, a5⟩ :=
        populate_row (otype := otype) i hk (List.getElem?_eq_some_iff.1 hname).1 hc
      rw [e1] at hok
      simp only [Prod.mk.injEq, and_true] at hok
      subst hok
      simp only [Obj.id, Prod.mk.injEq] at a2
      exact ⟨o, k, e, ob, u, a1, a2.1, a2.2.1, a2.2.2, a3, by rw [e2]; exact hname, a5, a4⟩

theorem populate_objects (h : Herd) (f oid otype path : String) (c : Call) (ref : ObjRef) :
    (populate h f oid otype path c ref).1.objects = (ensureObject h f oid otype path c.field ref).1.objects ∧
      (populate h f oid otype path c ref).1.files = (ensureObject h f oid otype path c.field ref).1.files := by
  unfold populate
  cases c.key with
  | none => exact ⟨rfl, rfl⟩
  | str s => dsimp only; unfold linkEntity strKey; dsimp only; repeat' split
             all_goals exact ⟨rfl, rfl⟩
  | row k => dsimp only; unfold linkEntity; repeat' split
             all_goals exact ⟨rfl, rfl⟩

/-- **C30 (object rows).** An accepted call adds a row for the object exactly when there was none, and that row names the file
of the call, the object's type, path and field. -/
theorem C30_object_row (h h' : Herd) (c : Call) (oid otype path f : String) (hok : addRef h c = (h', .ok ()))
    (ht : c.target = .ok (oid, otype, path)) (hf : fileOf c = .ok (some f)) :
    ((∃ ob ∈ h.objects, ob.oid = oid ∧ ob.path = path ∧ ob.field = c.field) → h'.objects = h.objects ∧ h'.files = h.files) ∧
    ((∀ ob ∈ h.objects, ¬(ob.oid = oid ∧ ob.path = path ∧ ob.field = c.field)) →
      ∃ i, h'.files[i]? = some f ∧ h'.objects = h.objects ++ [⟨i, oid, otype, path, c.field⟩] ∧
        (h'.files = h.files ∨ f ∉ h.files ∧ h'.files = h.files ++ [f])) := by
  rcases addRef_cases h c with ⟨e, he⟩ | ⟨f', oid', otype', path', ref, hf', ht', -, hc, he⟩
  · rw [he] at hok; simp at hok
  · rw [ht] at ht'
    rw [hf] at hf'
    simp only [Except.ok.injEq, Prod.mk.injEq, Option.some.injEq] at ht' hf'
    obtain ⟨rfl, rfl, rfl⟩ := ht'
    subst hf'
    have hp := populate_objects h f oid otype path c ref
    rw [← he, hok] at hp
    simp only at hp
    rw [hp.1, hp.2]
    have hid : ∀ ob : Obj, (ob.oid = oid ∧ ob.path = path ∧ ob.field = c.field) ↔ ob.id = (oid, path, c.field) := by
      intro ob; simp [Obj.id]
    rcases checkObject_ok hc with ⟨o, ob, rfl, h1, h2⟩ | ⟨-, h1, h2⟩
    · refine ⟨fun _ => ⟨rfl, rfl⟩, fun hn => ?_⟩
      exact absurd ((hid ob).2 h2) (hn ob (List.mem_of_getElem? h1))
    · refine ⟨fun ⟨ob, hm, hx⟩ => absurd ((hid ob).1 hx) (h1 ob hm), fun _ => ?_⟩
      rcases h2 with ⟨rfl, h2⟩ | ⟨i, rfl, h2⟩
      · exact ⟨h.files.length, by simp [ensureObject], rfl, .inr ⟨h2, rfl⟩⟩
      · exact ⟨i, h2, rfl, .inl rfl⟩

/-- **C30 (kept).** Whatever calls follow, what was retrievable stays retrievable. -/
theorem C30_kept (h : Herd) (cs : List Call) (oid path field name eid : String) (hr : Retrievable h oid path field name eid) :
    Retrievable (run h cs) oid path field name eid := by
  have x := run_ext cs h
  obtain ⟨o, k, e, ob, u, h1, h2, h3, h4, h5, h6, h7, h8⟩ := hr
  exact ⟨o, k, e, ob, u, prefix_get x.objects h1, h2, h3, h4, x.objectKeys.subset h5, prefix_get x.keys h6,
    x.entityKeys.subset h7, prefix_get x.entities h8⟩

/-! ### histories with string keys only -/

/-- each key belongs to one object, and each object has one key of a name -/
structure SInv (h : Herd) : Prop where
  one : ∀ o o' k, (o, k) ∈ h.objectKeys → (o', k) ∈ h.objectKeys → o = o'
  name : ∀ o k k', (o, k) ∈ h.objectKeys → (o, k') ∈ h.objectKeys → h.keys[k]? = h.keys[k']? → k = k'

/-- the calls of a history that were accepted -/
def accepted (h : Herd) : List Call → List Call
  | [] => []
  | c :: cs => if (addRef h c).2 = .ok () then c :: accepted (addRef h c).1 cs else accepted (addRef h c).1 cs

theorem str_step {h h' : Herd} {c : Call} {s : String} (i : Inv h) (si : SInv h) (hk : c.key = .str s)
    (hok : addRef h c = (h', .ok ())) :
    SInv h' ∧ ∃ oid otype path, c.target = .ok (oid, otype, path) ∧
      ∀ oid' path' field' name eid, Retrievable h' oid' path' field' name eid ↔
        Retrievable h oid' path' field' name eid ∨
          (oid' = oid ∧ path' = path ∧ field' = c.field ∧ name = s ∧ eid = c.eid) := by
  have hx : Ext h h' := by have := addRef_ext h c; rwa [hok] at this
  rcases addRef_cases h c with ⟨e, he⟩ | ⟨f, oid, otype, path, ref, -, ht, -, hc, he⟩
  · rw [he] at hok; simp at hok
  · obtain ⟨h2, e1, i2, o, k, e, u, ob, a1, a2, a3, a4, a5, a6, a7, a8, a9⟩ := populate_str (otype := otype) i hk hc
    rw [he, e1] at hok
    simp only [Prod.mk.injEq, and_true] at hok
    subst hok
    have memok : ∀ r, r ∈ h2.objectKeys ↔ r ∈ h.objectKeys ∨ r = (o, k) := by intro r; rw [a6]; simp
    have keyold : ∀ k', k' < h.keys.length → h2.keys[k']? = h.keys[k']? := by
      intro k' hk'
      obtain ⟨x, hx'⟩ : ∃ x, h.keys[k']? = some x := ⟨_, List.getElem?_eq_getElem hk'⟩
      rw [hx', prefix_get hx.keys hx']
    -- an old row with the key of this call belongs to this call's object
    have own : ∀ o', (o', k) ∈ h.objectKeys → o' = o ∧ (o, k) ∈ h.objectKeys ∧ h.keys[k]? = some s := by
      intro o' ho'
      rcases a7 with ⟨-, b2, b3⟩ | ⟨-, b2, -⟩
      · exact ⟨si.one _ _ _ ho' b2, b2, b3⟩
      · have := (i.ok _ ho').2
        simp only [b2] at this
        omega
    refine ⟨⟨?_, ?_⟩, oid, otype, path, ht, ?_⟩
    · intro o1 o2 k' h1 h3
      rcases (memok _).1 h1 with h1 | h1 <;> rcases (memok _).1 h3 with h3 | h3
      · exact si.one _ _ _ h1 h3
      · simp only [Prod.mk.injEq] at h3
        rw [h3.2] at h1
        rw [(own _ h1).1, h3.1]
      · simp only [Prod.mk.injEq] at h1
        rw [h1.2] at h3
        rw [(own _ h3).1, h1.1]
      · simp only [Prod.mk.injEq] at h1 h3
        rw [h1.1, h3.1]
    · have mixed : ∀ k', (o, k') ∈ h.objectKeys → h2.keys[k]? = h2.keys[k']? → k = k' := by
        intro k' h1 h3
        have hk' := (i.ok _ h1).2
        rw [a3, keyold k' hk'] at h3
        rcases a7 with ⟨-, b2, b3⟩ | ⟨-, -, b3⟩
        · exact si.name o k k' b2 h1 (by rw [b3]; exact h3)
        · exact absurd h3.symm (b3 k' h1)
      intro o' k1 k2 h1 h3 hn
      rcases (memok _).1 h1 with h1 | h1 <;> rcases (memok _).1 h3 with h3 | h3
      · refine si.name _ _ _ h1 h3 ?_
        rw [← keyold _ (i.ok _ h1).2, ← keyold _ (i.ok _ h3).2]; exact hn
      · simp only [Prod.mk.injEq] at h3
        obtain ⟨rfl, rfl⟩ := h3
        exact (mixed k1 h1 hn.symm).symm
      · simp only [Prod.mk.injEq] at h1
        obtain ⟨rfl, rfl⟩ := h1
        exact mixed k2 h3 hn
      · simp only [Prod.mk.injEq] at h1 h3
        rw [h1.2, h3.2]
    · intro oid' path' field' name eid
      constructor
      · rintro ⟨o', k', e', ob', u', h1, h3, h4, h5, h6, h7, h8, h9⟩
        simp only [Obj.id, Prod.mk.injEq] at a2
        -- lookups of old rows
        have objold : o' < h.objects.length → h.objects[o']? = some ob' := by
          intro hlt
          obtain ⟨x, hx'⟩ : ∃ x, h.objects[o']? = some x := ⟨_, List.getElem?_eq_getElem hlt⟩
          rw [hx', ← prefix_get hx.objects hx', h1]
        have entold : e' < h.entities.length → h.entities[e']? = some (eid, u') := by
          intro hlt
          obtain ⟨x, hx'⟩ : ∃ x, h.entities[e']? = some x := ⟨_, List.getElem?_eq_getElem hlt⟩
          rw [hx', ← prefix_get hx.entities hx', h9]
        have isnew : o' = o → k' = k → e' = e → oid' = oid ∧ path' = path ∧ field' = c.field ∧ name = s ∧ eid = c.eid := by
          rintro rfl rfl rfl
          rw [h1] at a1
          rw [h7] at a3
          rw [h9] at a4
          simp only [Option.some.injEq, Prod.mk.injEq] at a1 a3 a4
          subst a1
          exact ⟨by rw [← h3, a2.1], by rw [← h4, a2.2.1], by rw [← h5, a2.2.2], a3, a4.1⟩
        have isold : (o', k') ∈ h.objectKeys → (e', k') ∈ h.entityKeys → Retrievable h oid' path' field' name eid := by
          intro b1 b2
          have b3 := i.ok _ b1
          have b4 := i.ek _ b2
          exact ⟨o', k', e', ob', u', objold b3.1, h3, h4, h5, b1, by rw [← keyold _ b3.2]; exact h7, b2, entold b4.1⟩
        rcases (memok _).1 h6 with h6 | h6 <;> rcases (a8 _).1 h8 with h8 | h8
        · exact .inl (isold h6 h8)
        · simp only [Prod.mk.injEq] at h8
          obtain ⟨rfl, rfl⟩ := h8
          exact .inr (isnew (own _ h6).1 rfl rfl)
        · simp only [Prod.mk.injEq] at h6
          obtain ⟨rfl, rfl⟩ := h6
          have hklt := (i.ek _ h8).2
          rcases a7 with ⟨-, b2, -⟩ | ⟨-, b2, -⟩
          · exact .inl (isold b2 h8)
          · simp only [b2] at hklt; omega
        · simp only [Prod.mk.injEq] at h6 h8
          exact .inr (isnew h6.1 h6.2 h8.1)
      · rintro (hr | ⟨rfl, rfl, rfl, rfl, rfl⟩)
        · obtain ⟨o, k, e, ob, u, h1, h2, h3, h4, h5, h6, h7, h8⟩ := hr
          exact ⟨o, k, e, ob, u, prefix_get hx.objects h1, h2, h3, h4, hx.objectKeys.subset h5, prefix_get hx.keys h6,
            hx.entityKeys.subset h7, prefix_get hx.entities h8⟩
        · simp only [Obj.id, Prod.mk.injEq] at a2
          exact ⟨o, k, e, ob, u, a1, a2.1, a2.2.1, a2.2.2, (memok _).2 (.inr rfl), a3, (a8 _).2 (.inr rfl), a4⟩

theorem err_unchanged (h h' : Herd) (c : Call) (e : Err) (hc : addRef h c = (h', .error e)) (hk : c.key ≠ .none) : h' = h := by
  rcases addRef_cases h c with ⟨e', he⟩ | ⟨f, oid, otype, path, ref, -, -, -, -, he⟩
  · rw [he] at hc; simp only [Prod.mk.injEq] at hc; exact hc.1.symm
  · rw [he] at hc
    unfold populate at hc
    cases hk' : c.key with
    | none => exact absurd hk' hk
    | str s => rw [hk'] at hc; simp at hc
    | row k => rw [hk'] at hc; simp at hc

theorem str_run : ∀ (cs : List Call) (h : Herd), Inv h → SInv h → (∀ c ∈ cs, ∃ s, c.key = .str s) →
    Inv (run h cs) ∧ SInv (run h cs) ∧ ∀ oid path field name eid, Retrievable (run h cs) oid path field name eid ↔
      Retrievable h oid path field name eid ∨ ∃ c ∈ accepted h cs, ∃ otype, c.target = .ok (oid, otype, path) ∧ c.field = field ∧
        c.key = .str name ∧ c.eid = eid := by
  intro cs
  induction cs with
  | nil => intro h i si _; exact ⟨i, si, by simp [run, accepted]⟩
  | cons c cs ih =>
    intro h i si hs
    obtain ⟨s, hk⟩ := hs c (by simp)
    have hcs : ∀ c ∈ cs, ∃ s, c.key = .str s := fun c hc => hs c (by simp [hc])
    have i1 := addRef_inv i c (by intro k hk'; rw [hk] at hk'; simp at hk')
    cases hr : addRef h c with
    | mk h1 r =>
      rw [hr] at i1
      cases r with
      | error e =>
        have := err_unchanged h h1 c e hr (by rw [hk]; simp)
        subst this
        obtain ⟨j1, j2, j3⟩ := ih h1 i si hcs
        simp only [run, accepted, hr]
        exact ⟨j1, j2, by simpa using j3⟩
      | ok u =>
        obtain ⟨si1, oid, otype, path, ht, hiff⟩ := str_step i si hk hr
        obtain ⟨j1, j2, j3⟩ := ih h1 i1 si1 hcs
        simp only [run, accepted, hr]
        refine ⟨j1, j2, ?_⟩
        intro oid' path' field' name eid
        rw [j3, hiff]
        simp only [if_true, List.mem_cons, exists_eq_or_imp]
        constructor
        · rintro ((h | ⟨rfl, rfl, rfl, rfl, rfl⟩) | h)
          · exact .inl h
          · exact .inr (.inl ⟨otype, ht, rfl, hk, rfl⟩)
          · exact .inr (.inr h)
        · rintro (h | ⟨ot, h1, h2, h3, h4⟩ | h)
          · exact .inl (.inl h)
          · rw [ht] at h1
            rw [hk] at h3
            simp only [Except.ok.injEq, Prod.mk.injEq, KeyArg.str.injEq] at h1 h3
            exact .inl (.inr ⟨h1.1.symm, h1.2.2.symm, h2.symm, h3.symm, h4.symm⟩)
          · exact .inr h

/-- **C30 (exactly).** In histories with string keys, what is retrievable is exactly what accepted calls asked for. -/
theorem C30_exact (cs : List Call) (hs : ∀ c ∈ cs, ∃ s, c.key = .str s) (oid path field name eid : String) :
    Retrievable (run {} cs) oid path field name eid ↔
      ∃ c ∈ accepted {} cs, ∃ otype, c.target = .ok (oid, otype, path) ∧ c.field = field ∧ c.key = .str name ∧ c.eid = eid := by
  obtain ⟨-, -, h3⟩ := str_run cs {} inv_empty ⟨by simp, by simp⟩ hs
  rw [h3]
  constructor
  · rintro (⟨o, k, e, ob, u, h1, -⟩ | h)
    · simp at h1
    · exact h
  · exact .inr

/-- non-vacuity -/
example : (accepted {} demo).length = 4 := by decide +kernel

theorem pick_spec {α : Type} (l : List α) : ∀ is : List Nat, (∀ i ∈ is, i < l.length) →
    ∃ xs, pick l is = .ok xs ∧ ∀ x, x ∈ xs ↔ ∃ i ∈ is, l[i]? = some x := by
  intro is
  induction is with
  | nil => intro _; exact ⟨[], rfl, by simp⟩
  | cons i is ih =>
    intro h
    obtain ⟨xs, h1, h2⟩ := ih (fun j hj => h j (by simp [hj]))
    obtain ⟨v, hi⟩ : ∃ v, l[i]? = some v := ⟨_, List.getElem?_eq_getElem (h i (by simp))⟩
    refine ⟨v :: xs, by simp [pick, hi, h1], ?_⟩
    intro x
    simp only [List.mem_cons, exists_eq_or_imp, hi, Option.some.injEq, h2]
    constructor
    · rintro (h | h)
      · exact .inl h.symm
      · exact .inr h
    · rintro (h | h)
      · exact .inl h.symm
      · exact .inr h

theorem checkObject_found {h : Herd} (i : Inv h) {o : Nat} {ob : Obj} {f oid path field : String} {b : Bool}
    (ho : h.objects[o]? = some ob) (hid : ob.id = (oid, path, field)) : checkObject h f oid path field b = .ok (.row o) := by
  unfold checkObject
  simp only
  have hf : (which (· == f) h.files).length ≤ 1 := by
    refine which_unique (f := id) (b := f) (by simpa using i.filesU) ?_
    intro x hx; simpa using hx
  rw [if_neg (by omega)]
  have h1 : (which (fun r : Obj => r.is oid path field) h.objects).length ≤ 1 :=
    which_unique (f := Obj.id) (b := (oid, path, field)) i.objU (fun x hx => is_iff.1 hx)
  have h2 : o ∈ which (fun r : Obj => r.is oid path field) h.objects := mem_which.2 ⟨ob, ho, is_iff.2 hid⟩
  match hw : which (fun r : Obj => r.is oid path field) h.objects with
  | [] => rw [hw] at h2; simp at h2
  | [o'] => rw [hw] at h2; simp only [List.mem_singleton] at h2; rw [h2]
  | _ :: _ :: _ => rw [hw] at h1; simp at h1

theorem getEntity_found {h : Herd} (i : Inv h) {e : Nat} {eid u : String} (he : h.entities[e]? = some (eid, u)) :
    getEntity h eid = some e := by
  have h1 : (which (fun r : String × String => r.1 == eid) h.entities).length ≤ 1 :=
    which_unique (f := Prod.fst) (b := eid) i.entU (fun x hx => by simpa using hx)
  have h2 : e ∈ which (fun r : String × String => r.1 == eid) h.entities := mem_which.2 ⟨_, he, by simp⟩
  unfold getEntity
  match hw : which (fun r : String × String => r.1 == eid) h.entities with
  | [] => rw [hw] at h2; simp at h2
  | [o'] => rw [hw] at h2; simp only [List.mem_singleton] at h2; rw [h2]; rfl
  | _ :: _ :: _ => rw [hw] at h1; simp at h1

/-- **C30 (lookup).** In every reachable state `get_object_entities` returns, for an object in the tables, exactly the
retrievable entities; for other objects it raises ValueError. -/
theorem C30_lookup (cs : List Call) (hv : Valid {} cs) (f oid path field : String) :
    let h := run {} cs
    ((∃ ob ∈ h.objects, ob.oid = oid ∧ ob.path = path ∧ ob.field = field) →
      ∃ l, getObjectEntities h f oid path field = .ok l ∧
        ∀ eid, (∃ u, (eid, u) ∈ l) ↔ ∃ name, Retrievable h oid path field name eid) ∧
    ((∀ ob ∈ h.objects, ¬(ob.oid = oid ∧ ob.path = path ∧ ob.field = field)) →
      getObjectEntities h f oid path field = .error .valueError) := by
  intro h
  have i : Inv h := run_inv cs {} inv_empty hv
  constructor
  · rintro ⟨ob, hob, h1, h2, h3⟩
    obtain ⟨o, ho⟩ := List.getElem?_of_mem hob
    have hid : ob.id = (oid, path, field) := by simp [Obj.id, h1, h2, h3]
    unfold getObjectEntities
    rw [checkObject_found i ho hid]
    simp only
    have memidx : ∀ e, e ∈ ((h.objectKeys.filter fun r => r.1 == o).map Prod.snd).flatMap
        (fun k => (h.entityKeys.filter fun r => r.2 == k).map Prod.fst) ↔ ∃ k, (o, k) ∈ h.objectKeys ∧ (e, k) ∈ h.entityKeys := by
      intro e
      simp only [List.mem_flatMap, List.mem_map, List.mem_filter, beq_iff_eq]
      constructor
      · rintro ⟨k, ⟨⟨a, b⟩, ⟨h1, h2⟩, h3⟩, ⟨⟨c, d⟩, ⟨h4, h5⟩, h6⟩⟩
        simp only at h2 h3 h5 h6
        subst h2; subst h3; subst h5; subst h6
        exact ⟨_, h1, h4⟩
      · rintro ⟨k, h1, h2⟩
        exact ⟨k, ⟨(o, k), ⟨h1, rfl⟩, rfl⟩, ⟨(e, k), ⟨h2, rfl⟩, rfl⟩⟩
    obtain ⟨l, hl, hmem⟩ := pick_spec h.entities _ (fun e he => by
      obtain ⟨k, -, h2⟩ := (memidx e).1 he
      exact (i.ek _ h2).1)
    refine ⟨l, hl, ?_⟩
    intro eid
    constructor
    · rintro ⟨u, hu⟩
      obtain ⟨e, he, hee⟩ := (hmem _).1 hu
      obtain ⟨k, h4, h5⟩ := (memidx e).1 he
      have hk := (i.ok _ h4).2
      exact ⟨h.keys[k], o, k, e, ob, u, ho, h1, h2, h3, h4, List.getElem?_eq_getElem hk, h5, hee⟩
    · rintro ⟨name, o', k, e, ob', u, h4, h5, h6, h7, h8, h9, h10, h11⟩
      have : o' = o := by
        have e1 := checkObject_found (f := f) (b := true) i h4 (oid := oid) (path := path) (field := field)
          (by simp [Obj.id, h5, h6, h7])
        rw [checkObject_found (f := f) i ho hid] at e1
        simp only [Except.ok.injEq, ObjRef.row.injEq] at e1
        exact e1.symm
      subst this
      exact ⟨u, (hmem _).2 ⟨e, (memidx e).2 ⟨k, h8, h10⟩, h11⟩⟩
  · intro hno
    unfold getObjectEntities checkObject
    simp only
    have hf : (which (· == f) h.files).length ≤ 1 := by
      refine which_unique (f := id) (b := f) (by simpa using i.filesU) ?_
      intro x hx; simpa using hx
    rw [if_neg (by omega)]
    have : which (fun r : Obj => r.is oid path field) h.objects = [] := by
      rw [which_eq_nil]
      intro x hx
      by_contra hne
      rw [Bool.not_eq_false, is_iff] at hne
      simp only [Obj.id, Prod.mk.injEq] at hne
      exact hno x hx hne
    rw [this]
    simp

/-- **C31 (unique rows).** In every reachable state entity ids, file ids, objects (by id, path and field) and entity-key rows
occur once. -/
theorem C31_unique (cs : List Call) (hv : Valid {} cs) :
    let h := run {} cs
    (h.entities.map Prod.fst).Nodup ∧ h.files.Nodup ∧ (h.objects.map fun r => (r.oid, r.path, r.field)).Nodup ∧
      h.entityKeys.Nodup :=
  let i := run_inv cs {} inv_empty hv
  ⟨i.entU, i.filesU, i.objU, i.ekU⟩

/-- **C31 (repetition, string key).** Repeating an accepted call is accepted and changes nothing but the object-key table, which
gets a row it already had (that row should not be added either: see `C31_repeat_fails`). -/
theorem C31_repeat_partial (cs : List Call) (hv : Valid {} cs) (c : Call) (h' : Herd) (s : String) (hk : c.key = .str s)
    (hok : addRef (run {} cs) c = (h', .ok ())) :
    ∃ r ∈ h'.objectKeys, addRef h' c = ({ h' with objectKeys := h'.objectKeys ++ [r] }, .ok ()) := by
  have i := run_inv cs {} inv_empty hv
  generalize run {} cs = h at *
  rcases addRef_cases h c with ⟨e, he⟩ | ⟨f, oid, otype, path, ref, hf, ht, -, hc, he⟩
  · rw [he] at hok; simp at hok
  · obtain ⟨h2, e1, i2, o, k, e, u, ob, a1, a2, a3, a4, a5, a6, a7, a8, a9⟩ := populate_str (otype := otype) i hk hc
    rw [he, e1] at hok
    simp only [Prod.mk.injEq, and_true] at hok
    subst hok
    refine ⟨(o, k), by rw [a6]; simp, ?_⟩
    have hent := getEntity_found i2 a4
    have hkey : strKey h2 o s = (h2, k) := by
      unfold strKey
      simp only
      have : k ∈ which (· == s) h2.keys := mem_which.2 ⟨s, a3, by simp⟩
      rw [a6, List.filter_append, List.map_append, List.filter_append]
      have e2 : List.filter (fun k => (which (fun x => x == s) h2.keys).contains k)
          (List.map Prod.snd (List.filter (fun r : Nat × Nat => r.1 == o) [(o, k)])) = [k] := by
        simp [this]
      rw [e2, List.getLast?_concat]
    have hmem : (e, k) ∈ h2.entityKeys := (a8 _).2 (.inr rfl)
    unfold addRef
    rw [hf]
    simp only
    rw [if_neg (by rw [hent]; simp), ht]
    simp only
    rw [checkObject_found i2 a1 a2]
    simp only [populate, hk, ensureObject, hkey, hent, linkEntity]
    rw [if_pos (by simpa using hmem)]

/-- **C31 (repetition, Key row).** Repeating an accepted call with a `Key` row of the table changes nothing. -/
theorem C31_repeat_row (cs : List Call) (hv : Valid {} cs) (c : Call) (h' : Herd) (k : Nat) (hk : c.key = .row k)
    (hlt : k < (run {} cs).keys.length) (hok : addRef (run {} cs) c = (h', .ok ())) : addRef h' c = (h', .ok ()) := by
  have i := run_inv cs {} inv_empty hv
  generalize run {} cs = h at *
  rcases addRef_cases h c with ⟨e, he⟩ | ⟨f, oid, otype, path, ref, hf, ht, -, hc, he⟩
  · rw [he] at hok; simp at hok
  · obtain ⟨h2, e1, i2, e2, o, e, u, ob, a1, a2, a3, a4, a5⟩ := populate_row (otype := otype) i hk hlt hc
    rw [he, e1] at hok
    simp only [Prod.mk.injEq, and_true] at hok
    subst hok
    have hent := getEntity_found i2 a4
    have hlink : rowNeedsLink h2 o k = false := by
      unfold rowNeedsLink
      simp only [Bool.and_eq_false_iff, Bool.not_eq_false']
      right
      rw [List.any_eq_true]
      exact ⟨(o, k), List.mem_filter.2 ⟨a3, by simp⟩, by simp⟩
    unfold addRef
    rw [hf]
    simp only
    rw [if_neg (by rw [hent]; simp), ht]
    simp only
    rw [checkObject_found i2 a1 a2]
    simp only [populate, hk, ensureObject, hent, linkEntity, hlink]
    rw [if_pos (by simpa using a5)]
    simp

/-- **C31 fails** for string keys: repeating a call adds a second equal row to the object-key table, and
`get_object_entities` lists the entity twice. -/
theorem C31_repeat_fails : ∃ c h h', addRef {} c = (h, .ok ()) ∧ addRef h c = (h', .ok ()) ∧ h'.objectKeys = [(0, 0), (0, 0)] ∧
    getObjectEntities h' "f" "A" "" "" = .ok [("e", "u"), ("e", "u")] :=
  ⟨{ file := some "f", target := .ok ("A", "T", ""), key := .str "x", eid := "e", uri := some "u" }, _, _, rfl, rfl,
    by decide +kernel, by decide +kernel⟩

/-- **C32 (stable).** Whatever calls follow, the row of a registered entity, hence its URI, stays what it is. -/
theorem C32_uri_stable (h : Herd) (cs : List Call) (eid : String) (r : String × String)
    (hr : h.entities.find? (fun x => x.1 == eid) = some r) : (run h cs).entities.find? (fun x => x.1 == eid) = some r := by
  obtain ⟨t, ht⟩ := (run_ext cs h).entities
  rw [← ht, List.find?_append, hr]
  rfl

/-- **C32 (no URI).** A call with an unknown entity and no URI is rejected and changes nothing. -/
theorem C32_no_uri (h : Herd) (c : Call) (hu : c.uri = none) (hn : ∀ r ∈ h.entities, r.1 ≠ c.eid) :
    ∃ e, addRef h c = (h, .error e) ∧ (∀ x, fileOf c = .ok x → e = .valueError) := by
  unfold addRef
  cases hf : fileOf c with
  | error e => exact ⟨e, rfl, by simp⟩
  | ok f =>
    simp only
    rw [if_pos ⟨getEntity_none.2 hn, hu⟩]
    exact ⟨_, rfl, fun _ _ => rfl⟩

/-- **C32 (rejection).** A rejected call that gives a key changes nothing. -/
theorem C32_rejected_partial (h h' : Herd) (c : Call) (e : Err) (hc : addRef h c = (h', .error e)) (hk : c.key ≠ .none) : h' = h :=
  err_unchanged h h' c e hc hk

/-- **C32 fails** when the key is left out: the call raises TypeError after adding the file and the object. -/
theorem C32_missing_key_fails : ∃ c h', addRef {} c = (h', .error .typeError) ∧ h'.files = ["f"] ∧ h'.objects.length = 1 :=
  ⟨{ file := some "f", target := .ok ("A", "T", ""), eid := "e", uri := some "u" }, _, rfl, rfl, rfl⟩

/-- **C75.** Tables accepted by `from_zip` with no negative index refer to existing rows only. -/
theorem C75_from_zip_partial (t : Tables) (h : fromZipOk t = true) (hf : ∀ f ∈ t.objFiles, 0 ≤ f)
    (ho : ∀ r ∈ t.objectKeys, 0 ≤ r.1 ∧ 0 ≤ r.2) (he : ∀ r ∈ t.entityKeys, 0 ≤ r.1 ∧ 0 ≤ r.2) :
    (∀ f ∈ t.objFiles, f.toNat < t.nFiles) ∧
    (∀ r ∈ t.objectKeys, r.1.toNat < t.objFiles.length ∧ r.2.toNat < t.nKeys) ∧
    (∀ r ∈ t.entityKeys, r.1.toNat < t.nEntities ∧ r.2.toNat < t.nKeys) := by
  simp only [fromZipOk, Bool.and_eq_true, List.all_eq_true, decide_eq_true_eq] at h
  obtain ⟨⟨⟨⟨h1, h2⟩, h3⟩, h4⟩, h5⟩ := h
  refine ⟨fun f hm => ?_, fun r hm => ?_, fun r hm => ?_⟩
  · have := h2 f hm; have := hf f hm; omega
  · have := h3 r hm; have := h4 r hm; have := ho r hm; constructor <;> omega
  · have := h1 r hm; have := h5 r hm; have := he r hm; constructor <;> omega

/-- **C75 (completeness).** Tables all of whose indices refer to rows are accepted. -/
theorem C75_from_zip_accepts (t : Tables) (h1 : ∀ f ∈ t.objFiles, f < t.nFiles)
    (h2 : ∀ r ∈ t.objectKeys, r.1 < t.objFiles.length ∧ r.2 < t.nKeys)
    (h3 : ∀ r ∈ t.entityKeys, r.1 < t.nEntities ∧ r.2 < t.nKeys) : fromZipOk t = true := by
  simp only [fromZipOk, Bool.and_eq_true, List.all_eq_true, decide_eq_true_eq]
  exact ⟨⟨⟨⟨fun r hr => (h3 r hr).1, h1⟩, fun r hr => (h2 r hr).1⟩, fun r hr => (h2 r hr).2⟩, fun r hr => (h3 r hr).2⟩

/-- **C75 fails** for negative indices. -/
theorem C75_negative_index_fails : ∃ t : Tables, fromZipOk t = true ∧ ∃ r ∈ t.objectKeys, r.1 < 0 :=
  ⟨⟨1, 1, 1, [0], [(-1, 0)], [(0, 0)]⟩, by decide, (-1, 0), by simp, by decide⟩

theorem flatRows_spec (h : Herd) : ∀ ps : List ((Nat × Nat) × (Nat × Nat)), (∀ p ∈ ps, ∃ r, flatRow h p.1 p.2 = .ok r) →
    ∃ rs, flatRows h ps = .ok rs ∧ (∀ r, r ∈ rs ↔ ∃ p ∈ ps, flatRow h p.1 p.2 = .ok r) ∧ rs.length = ps.length := by
  intro ps
  induction ps with
  | nil => intro _; exact ⟨[], rfl, by simp⟩
  | cons p ps ih =>
    intro hp
    obtain ⟨rs, h1, h2, h3⟩ := ih (fun q hq => hp q (by simp [hq]))
    obtain ⟨r, hr⟩ := hp p (by simp)
    refine ⟨r :: rs, by simp [flatRows, hr, h1], ?_, by simp [h3]⟩
    intro x
    simp only [List.mem_cons, exists_eq_or_imp, hr, Except.ok.injEq, h2]
    constructor
    · rintro (h | h)
      · exact .inl h.symm
      · exact .inr h
    · rintro (h | h)
      · exact .inl h.symm
      · exact .inr h

/-- **C76.** In every reachable state with at least one object-key row, `to_dataframe` succeeds and its rows, as (object, key
name, entity), are exactly what is retrievable; there is one row for every pair of an object-key row and an entity-key row with
the same key. -/
theorem C76_flat (cs : List Call) (hv : Valid {} cs) (hne : (run {} cs).objectKeys ≠ []) :
    let h := run {} cs
    ∃ rows, toDataframe h = .ok rows ∧
      (∀ oid path field name eid, (∃ r ∈ rows, r.obj.oid = oid ∧ r.obj.path = path ∧ r.obj.field = field ∧ r.key = name ∧
        r.entity.1 = eid) ↔ Retrievable h oid path field name eid) ∧
      (∀ r ∈ rows, h.files[r.obj.file]? = some r.file ∧ h.objects[r.objIdx]? = some r.obj ∧ h.keys[r.keyIdx]? = some r.key ∧
        h.entities[r.entIdx]? = some r.entity) ∧
      rows.length = (h.objectKeys.map fun ok => (h.entityKeys.filter fun ek => ek.2 == ok.2).length).sum := by
  intro h
  have i : Inv h := run_inv cs {} inv_empty hv
  unfold toDataframe
  rw [if_neg hne]
  have mempair : ∀ p, p ∈ (h.objectKeys.flatMap fun ok => (h.entityKeys.filter fun ek => ek.2 == ok.2).map fun ek => (ok, ek)) ↔
      p.1 ∈ h.objectKeys ∧ p.2 ∈ h.entityKeys ∧ p.2.2 = p.1.2 := by
    rintro ⟨a, b⟩
    simp only [List.mem_flatMap, List.mem_map, List.mem_filter, beq_iff_eq, Prod.mk.injEq]
    constructor
    · rintro ⟨ok, h1, ek, ⟨h2, h3⟩, rfl, rfl⟩; exact ⟨h1, h2, h3⟩
    · rintro ⟨h1, h2, h3⟩; exact ⟨a, h1, b, ⟨h2, h3⟩, rfl, rfl⟩
  have rowok : ∀ ok ek : Nat × Nat, ok ∈ h.objectKeys → ek ∈ h.entityKeys → ∃ ob f k en, h.objects[ok.1]? = some ob ∧
      h.files[ob.file]? = some f ∧ h.keys[ek.2]? = some k ∧ h.entities[ek.1]? = some en ∧
      flatRow h ok ek = .ok ⟨f, ok.1, ob, ek.2, k, ek.1, en⟩ := by
    intro ok ek h1 h2
    have a1 := List.getElem?_eq_getElem (i.ok _ h1).1
    have a2 := List.getElem?_eq_getElem (i.ek _ h2).2
    have a3 := List.getElem?_eq_getElem (i.ek _ h2).1
    have a4 := List.getElem?_eq_getElem (i.objs _ (List.mem_of_getElem? a1))
    exact ⟨_, _, _, _, a1, a4, a2, a3, by simp [flatRow, a1, a2, a3, a4]⟩
  obtain ⟨rows, e1, e2, e3⟩ := flatRows_spec h _ (fun p hp => by
    obtain ⟨h1, h2, -⟩ := (mempair p).1 hp
    obtain ⟨ob, f, k, en, -, -, -, -, h5⟩ := rowok _ _ h1 h2
    exact ⟨_, h5⟩)
  refine ⟨rows, e1, ?_, ?_, ?_⟩
  · intro oid path field name eid
    constructor
    · rintro ⟨r, hr, h1, h2, h3, h4, h5⟩
      obtain ⟨p, hp, hrow⟩ := (e2 r).1 hr
      obtain ⟨b1, b2, b3⟩ := (mempair p).1 hp
      obtain ⟨ob, f, k, en, c1, c2, c3, c4, c5⟩ := rowok _ _ b1 b2
      rw [hrow] at c5
      simp only [Except.ok.injEq] at c5
      subst c5
      simp only at h1 h2 h3 h4 h5
      refine ⟨p.1.1, p.1.2, p.2.1, ob, en.2, c1, h1, h2, h3, b1, by rw [← b3, c3, h4], by rw [← b3]; exact b2, by rw [c4, ← h5]⟩
    · rintro ⟨o, k, e, ob, u, h1, h2, h3, h4, h5, h6, h7, h8⟩
      obtain ⟨ob', f, k', en, c1, c2, c3, c4, c5⟩ := rowok (o, k) (e, k) h5 h7
      refine ⟨_, (e2 _).2 ⟨((o, k), (e, k)), (mempair _).2 ⟨h5, h7, rfl⟩, c5⟩, ?_⟩
      simp only at c1 c3 c4
      rw [h1] at c1
      rw [h6] at c3
      rw [h8] at c4
      simp only [Option.some.injEq] at c1 c3 c4
      subst c1; subst c3; subst c4
      exact ⟨h2, h3, h4, rfl, rfl⟩
  · intro r hr
    obtain ⟨p, hp, hrow⟩ := (e2 r).1 hr
    obtain ⟨b1, b2, b3⟩ := (mempair p).1 hp
    obtain ⟨ob, f, k, en, c1, c2, c3, c4, c5⟩ := rowok _ _ b1 b2
    rw [hrow] at c5
    simp only [Except.ok.injEq] at c5
    subst c5
    exact ⟨c2, c1, c3, c4⟩
  · rw [e3, List.length_flatMap]
    simp

/-- non-vacuity -/
example : (toDataframe (run {} demo)).toOption.map (fun rows => rows.map fun r => (r.obj.oid, r.key, r.entity.1)) =
    some [("A", "x", "e1"), ("A", "x", "e2"), ("A", "x", "e3"), ("A", "x", "e1"), ("A", "x", "e2"), ("A", "x", "e3"),
      ("B", "x", "e1"), ("B", "x", "e1"), ("B", "x", "e2"), ("B", "x", "e3")] := by decide +kernel

/-- **C76 fails** for an empty HERD: `to_dataframe` raises instead of returning an empty table. -/
theorem C76_empty_fails : toDataframe {} = .error .valueError := rfl

/-- **C77.** In histories with string keys, after an accepted call `get_key(name, container)` returns the key of that name that
the object uses and that has the entity. -/
theorem C77_key_found_partial (cs : List Call) (hs : ∀ c ∈ cs, ∃ s, c.key = .str s) (c : Call) (h' : Herd)
    (oid otype path name f : String) (hk : c.key = .str name) (ht : c.target = .ok (oid, otype, path))
    (hok : addRef (run {} cs) c = (h', .ok ())) :
    ∃ k o e ob u, getKey h' f oid path c.field name = .ok k ∧ h'.keys[k]? = some name ∧ h'.objects[o]? = some ob ∧
      ob.oid = oid ∧ ob.path = path ∧ ob.field = c.field ∧ (o, k) ∈ h'.objectKeys ∧ (e, k) ∈ h'.entityKeys ∧
      h'.entities[e]? = some (c.eid, u) := by
  obtain ⟨i, si, -⟩ := str_run cs {} inv_empty ⟨by simp, by simp⟩ hs
  generalize run {} cs = h at *
  have i' : Inv h' := by
    have := addRef_inv i c (by intro k hk'; rw [hk] at hk'; simp at hk')
    rwa [hok] at this
  obtain ⟨si', oid', otype', path', ht', hiff⟩ := str_step i si hk hok
  rw [ht] at ht'
  simp only [Except.ok.injEq, Prod.mk.injEq] at ht'
  obtain ⟨rfl, rfl, rfl⟩ := ht'
  obtain ⟨o, k, e, ob, u, h1, h2, h3, h4, h5, h6, h7, h8⟩ := (hiff oid path c.field name c.eid).2 (.inr ⟨rfl, rfl, rfl, rfl, rfl⟩)
  refine ⟨k, o, e, ob, u, ?_, h6, h1, h2, h3, h4, h5, h7, h8⟩
  unfold getKey
  rw [checkObject_found i' h1 (by simp [Obj.id, h2, h3, h4])]
  simp only
  have mem : ∀ k', (k' ∈ (h'.objectKeys.filter fun r => r.1 == o).map Prod.snd) ↔ (o, k') ∈ h'.objectKeys := by
    intro k'
    simp only [List.mem_map, List.mem_filter, beq_iff_eq]
    constructor
    · rintro ⟨⟨a, b⟩, ⟨m1, m2⟩, m3⟩
      simp only at m2 m3
      rw [← m2, ← m3]; exact m1
    · intro m; exact ⟨(o, k'), ⟨m, rfl⟩, rfl⟩
  have hk' : k ∈ which (· == name) h'.keys := mem_which.2 ⟨name, h6, by simp⟩
  cases hfind : ((h'.objectKeys.filter fun r => r.1 == o).map Prod.snd).find? fun k => (which (· == name) h'.keys).contains k with
  | none =>
    rw [List.find?_eq_none] at hfind
    have := hfind k ((mem k).2 h5)
    simp only [List.contains_iff_mem, hk', not_true] at this
  | some k2 =>
    simp only [Except.ok.injEq]
    have h9 := (mem k2).1 (List.mem_of_find?_eq_some hfind)
    have h10 := List.find?_some hfind
    simp only [List.contains_iff_mem, mem_which, beq_iff_eq, exists_eq_right] at h10
    exact si'.name o k2 k h9 h5 (by rw [h10, h6])

/-- **C77 (sound).** In every reachable state a key returned for an object has the name asked for and is used by the object. -/
theorem C77_key_sound (cs : List Call) (f oid path field name : String) (k : Nat)
    (hg : getKey (run {} cs) f oid path field name = .ok k) :
    let h := run {} cs
    h.keys[k]? = some name ∧ ∃ o ob, h.objects[o]? = some ob ∧ ob.oid = oid ∧ ob.path = path ∧ ob.field = field ∧
      (o, k) ∈ h.objectKeys := by
  intro h
  unfold getKey at hg
  cases hc : checkObject h f oid path field true with
  | error e => rw [hc] at hg; simp at hg
  | ok ref =>
    rw [hc] at hg
    cases ref with
    | missing x => simp at hg
    | row o =>
      simp only at hg
      split at hg
      · rename_i k' hfind
        simp only [Except.ok.injEq] at hg
        subst hg
        have h10 := List.find?_some hfind
        simp only [List.contains_iff_mem, mem_which, beq_iff_eq, exists_eq_right] at h10
        have h9 := List.mem_of_find?_eq_some hfind
        simp only [List.mem_map, List.mem_filter, beq_iff_eq] at h9
        obtain ⟨⟨a, b⟩, ⟨h1, h2⟩, h3⟩ := h9
        simp only at h2 h3
        subst h2; subst h3
        refine ⟨h10, ?_⟩
        rcases checkObject_ok hc with ⟨o', ob, h4, h5, h6⟩ | ⟨-, -, ⟨h4, -⟩ | ⟨j, h4, -⟩⟩
        · simp only [ObjRef.row.injEq] at h4
          subst h4
          simp only [Obj.id, Prod.mk.injEq] at h6
          exact ⟨a, ob, h5, h6.1, h6.2.1, h6.2.2, h1⟩
        · simp at h4
        · simp at h4
      · simp at hg

/-- **C77 (no container).** Without a container `get_key` returns exactly the keys of that name, in order, and raises ValueError
when there is none. -/
theorem C77_all (h : Herd) (name : String) :
    (∀ ks, getKeyAll h name = .ok ks → ks ≠ [] ∧ ks.Pairwise (· < ·) ∧ ∀ k, k ∈ ks ↔ h.keys[k]? = some name) ∧
    (name ∉ h.keys ↔ getKeyAll h name = .error .valueError) := by
  have hm : ∀ k, k ∈ which (· == name) h.keys ↔ h.keys[k]? = some name := by
    intro k; rw [mem_which]; simp
  unfold getKeyAll
  constructor
  · intro ks hk
    split at hk
    · simp at hk
    · simp only [Except.ok.injEq] at hk
      subst hk
      refine ⟨by assumption, ?_, hm⟩
      unfold which
      have : (h.keys.zipIdx.map Prod.snd).Pairwise (· < ·) := by
        rw [List.zipIdx_map_snd]; exact List.pairwise_lt_range'
      exact this.sublist (List.filter_sublist.map _)
  · constructor
    · intro hn
      rw [if_pos]
      rw [which_eq_nil]
      intro x hx
      simp only [beq_eq_false_iff_ne]
      rintro rfl; exact hn hx
    · intro hk hmem
      split at hk
      · rename_i hnil
        rw [which_eq_nil] at hnil
        have := hnil _ hmem
        simp at this
      · simp at hk

/-- non-vacuity -/
example : getKeyAll (run {} demo) "x" = .ok [0, 1] ∧ getKeyAll (run {} demo) "z" = .error .valueError ∧
    getKey (run {} demo) "f" "B" "p" "" "x" = .ok 1 := by
  refine ⟨rfl, rfl, rfl⟩

/-- **C77 fails** for a container that is not in the tables: AttributeError instead of the documented ValueError. -/
theorem C77_unknown_object_fails : ∃ cs, getKey (run {} cs) "f" "B" "" "" "x" = .error .attributeError :=
  ⟨[{ file := some "f", target := .ok ("A", "T", ""), key := .str "x", eid := "e", uri := some "u" }], by decide +kernel⟩

/-- **C77 fails** when an object uses two keys of one name (the second added as a `Key` row): a string key goes on to the last
one, while `get_key` returns the first, which does not have the new entity. -/
theorem C77_two_keys_fails : ∃ cs, Valid {} cs ∧ (run {} cs).entities[2]? = some ("e3", "u3") ∧
    (run {} cs).entityKeys.getLast? = some (2, 0) ∧ getKey (run {} cs) "f" "B" "" "" "x" = .ok 1 ∧ (2, 1) ∉ (run {} cs).entityKeys :=
  ⟨[{ file := some "f", target := .ok ("A", "T", ""), key := .str "x", eid := "e1", uri := some "u1" },
    { file := some "f", target := .ok ("B", "T", ""), key := .str "x", eid := "e2", uri := some "u2" },
    { file := some "f", target := .ok ("B", "T", ""), key := .row 0, eid := "e1" },
    { file := some "f", target := .ok ("B", "T", ""), key := .str "x", eid := "e3", uri := some "u3" }],
    by refine ⟨?_, ?_, ?_, ?_, trivial⟩ <;> intro k hk <;> simp at hk
       subst hk; decide +kernel,
    by decide +kernel, by decide +kernel, by decide +kernel, by decide +kernel⟩

end Verif.Herd

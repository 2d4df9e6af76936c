import Verif.Model.Herd
import Verif.Base.Tac

/-!
# Lemmas about external resources
-/

namespace Verif.Herd
open Verif

theorem mem_which {α : Type} {p : α → Bool} {l : List α} {i : Nat} : i ∈ which p l ↔ ∃ x, l[i]? = some x ∧ p x = true := by
  simp only [which, List.mem_map, List.mem_filter]
  constructor
  · rintro ⟨⟨x, j⟩, ⟨h1, h2⟩, rfl⟩
    exact ⟨x, by rwa [List.mem_zipIdx_iff_getElem?] at h1, h2⟩
  · rintro ⟨x, h1, h2⟩
    exact ⟨(x, i), ⟨by rwa [List.mem_zipIdx_iff_getElem?], h2⟩, rfl⟩

theorem which_nodup {α : Type} (p : α → Bool) (l : List α) : (which p l).Nodup := by
  unfold which
  have h : (l.zipIdx.map Prod.snd).Nodup := by
    rw [List.zipIdx_map_snd]; exact List.nodup_range'
  exact ((List.filter_sublist (l := l.zipIdx)).map Prod.snd).nodup h

theorem which_eq_nil {α : Type} {p : α → Bool} {l : List α} : which p l = [] ↔ ∀ x ∈ l, p x = false := by
  constructor
  · intro h x hx
    by_contra hp
    obtain ⟨i, hi⟩ := List.getElem?_of_mem hx
    have : i ∈ which p l := mem_which.2 ⟨x, hi, by simpa using hp⟩
    rw [h] at this; simp at this
  · intro h
    cases hw : which p l with
    | nil => rfl
    | cons i is =>
      have : i ∈ which p l := by rw [hw]; simp
      obtain ⟨x, h1, h2⟩ := mem_which.1 this
      rw [h x (List.mem_of_getElem? h1)] at h2; simp at h2

theorem which_unique {α β : Type} [DecidableEq β] {f : α → β} {b : β} {p : α → Bool} {l : List α} (hn : (l.map f).Nodup)
    (hp : ∀ x, p x = true → f x = b) : (which p l).length ≤ 1 := by
  by_contra hlt
  match hw : which p l with
  | [] => rw [hw] at hlt; simp at hlt
  | [_] => rw [hw] at hlt; simp at hlt
  | i :: j :: r =>
    have hi : i ∈ which p l := by rw [hw]; simp
    have hj : j ∈ which p l := by rw [hw]; simp
    have hij : i ≠ j := by
      have := which_nodup p l
      rw [hw] at this
      simp only [List.nodup_cons, List.mem_cons, not_or] at this
      exact this.1.1
    obtain ⟨x, hx, hpx⟩ := mem_which.1 hi
    obtain ⟨y, hy, hpy⟩ := mem_which.1 hj
    apply hij
    have hilt : i < (l.map f).length := by
      rw [List.length_map]; exact (List.getElem?_eq_some_iff.1 hx).1
    refine List.Nodup.getElem_inj_iff (i := i) (j := j) hn (hi := hilt) (hj := ?_) |>.1 ?_
    · rw [List.length_map]; exact (List.getElem?_eq_some_iff.1 hy).1
    · obtain ⟨hx1, hx2⟩ := List.getElem?_eq_some_iff.1 hx
      obtain ⟨hy1, hy2⟩ := List.getElem?_eq_some_iff.1 hy
      simp only [List.getElem_map, hx2, hy2, hp x hpx, hp y hpy]

theorem getEntity_some {h : Herd} {eid : String} {e : Nat} (he : getEntity h eid = some e) :
    ∃ u, h.entities[e]? = some (eid, u) := by
  have : e ∈ which (fun r : String × String => r.1 == eid) h.entities := List.mem_of_mem_head? he
  obtain ⟨⟨a, u⟩, h1, h2⟩ := mem_which.1 this
  simp only [beq_iff_eq] at h2
  subst h2
  exact ⟨u, h1⟩

theorem getEntity_none {h : Herd} {eid : String} : getEntity h eid = none ↔ ∀ r ∈ h.entities, r.1 ≠ eid := by
  unfold getEntity
  rw [List.head?_eq_none_iff, which_eq_nil]
  simp

/-! ## growth -/

/-- every table of `h` is the beginning of that of `h'` -/
structure Ext (h h' : Herd) : Prop where
  keys : h.keys <+: h'.keys
  files : h.files <+: h'.files
  entities : h.entities <+: h'.entities
  objects : h.objects <+: h'.objects
  objectKeys : h.objectKeys <+: h'.objectKeys
  entityKeys : h.entityKeys <+: h'.entityKeys

theorem Ext.refl (h : Herd) : Ext h h :=
  ⟨List.prefix_rfl, List.prefix_rfl, List.prefix_rfl, List.prefix_rfl, List.prefix_rfl, List.prefix_rfl⟩

theorem Ext.trans {a b c : Herd} (x : Ext a b) (y : Ext b c) : Ext a c :=
  ⟨x.keys.trans y.keys, x.files.trans y.files, x.entities.trans y.entities, x.objects.trans y.objects,
    x.objectKeys.trans y.objectKeys, x.entityKeys.trans y.entityKeys⟩

theorem prefix_get {α : Type} {l l' : List α} (h : l <+: l') {i : Nat} {x : α} (hx : l[i]? = some x) : l'[i]? = some x := by
  obtain ⟨t, rfl⟩ := h
  rw [List.getElem?_append_left (List.getElem?_eq_some_iff.1 hx).1]; exact hx

theorem ensureObject_ext (h : Herd) (file oid otype path field : String) (r : ObjRef) :
    Ext h (ensureObject h file oid otype path field r).1 := by
  have e := Ext.refl h
  cases r with
  | row o => exact e
  | missing f =>
    cases f with
    | some f => exact { e with objects := List.prefix_append _ _ }
    | none => exact { e with objects := List.prefix_append _ _, files := List.prefix_append _ _ }

theorem strKey_ext (h : Herd) (o : Nat) (s : String) : Ext h (strKey h o s).1 := by
  unfold strKey
  simp only
  split
  · exact Ext.refl h
  · exact { Ext.refl h with keys := List.prefix_append _ _ }

theorem linkEntity_ext (h : Herd) (ent : Option Nat) (eid : String) (uri : Option String) (k : Nat) :
    Ext h (linkEntity h ent eid uri k) := by
  unfold linkEntity
  split
  · split
    · exact Ext.refl h
    · exact { Ext.refl h with entityKeys := List.prefix_append _ _ }
  · exact { Ext.refl h with entityKeys := List.prefix_append _ _, entities := List.prefix_append _ _ }

theorem objectKeys_ext (h : Herd) (r : Nat × Nat) : Ext h { h with objectKeys := h.objectKeys ++ [r] } :=
  { Ext.refl h with objectKeys := List.prefix_append _ _ }

theorem populate_ext (h : Herd) (file oid otype path : String) (c : Call) (r : ObjRef) :
    Ext h (populate h file oid otype path c r).1 := by
  unfold populate
  have h1 := ensureObject_ext h file oid otype path c.field r
  cases hk : c.key with
  | none => exact h1
  | str s => exact ((h1.trans (strKey_ext _ _ s)).trans (objectKeys_ext _ _)).trans (linkEntity_ext _ _ _ _ _)
  | row k =>
    refine Ext.trans ?_ (linkEntity_ext _ _ _ _ _)
    simp only
    split
    · exact h1.trans (objectKeys_ext _ _)
    · exact h1

/-- the ways `add_ref` ends -/
theorem addRef_cases (h : Herd) (c : Call) :
    (∃ e, addRef h c = (h, .error e)) ∨
    (∃ f oid otype path ref, fileOf c = .ok (some f) ∧ c.target = .ok (oid, otype, path) ∧
      ¬(getEntity h c.eid = none ∧ c.uri = none) ∧ checkObject h f oid path c.field true = .ok ref ∧
      addRef h c = populate h f oid otype path c ref) := by
  unfold addRef
  cases hf : fileOf c with
  | error e => exact .inl ⟨e, rfl⟩
  | ok file =>
    simp only
    split
    · exact .inl ⟨_, rfl⟩
    · rename_i hent
      cases ht : c.target with
      | error e => exact .inl ⟨e, rfl⟩
      | ok t =>
        obtain ⟨oid, otype, path⟩ := t
        cases file with
        | none => exact .inl ⟨_, rfl⟩
        | some f =>
          simp only
          cases hc : checkObject h f oid path c.field true with
          | error e => exact .inl ⟨e, rfl⟩
          | ok ref => exact .inr ⟨f, oid, otype, path, ref, rfl, rfl, hent, hc, rfl⟩

theorem addRef_ext (h : Herd) (c : Call) : Ext h (addRef h c).1 := by
  rcases addRef_cases h c with ⟨e, he⟩ | ⟨f, oid, otype, path, ref, -, -, -, -, he⟩
  · rw [he]; exact Ext.refl h
  · rw [he]; exact populate_ext _ _ _ _ _ _ _

theorem run_ext : ∀ (cs : List Call) (h : Herd), Ext h (run h cs) := by
  intro cs
  induction cs with
  | nil => intro h; exact Ext.refl h
  | cons c cs ih => intro h; exact (addRef_ext h c).trans (ih _)

/-! ## integrity -/

/-- what identifies an object -/
def Obj.id (r : Obj) : String × String × String := (r.oid, r.path, r.field)

theorem is_iff {r : Obj} {oid path field : String} : r.is oid path field = true ↔ r.id = (oid, path, field) := by
  simp [Obj.is, Obj.id, and_assoc]

/-- the invariant of the tables -/
structure Inv (h : Herd) : Prop where
  objs : ∀ ob ∈ h.objects, ob.file < h.files.length
  ok : ∀ r ∈ h.objectKeys, r.1 < h.objects.length ∧ r.2 < h.keys.length
  ek : ∀ r ∈ h.entityKeys, r.1 < h.entities.length ∧ r.2 < h.keys.length
  objU : (h.objects.map Obj.id).Nodup
  filesU : h.files.Nodup
  entU : (h.entities.map Prod.fst).Nodup
  ekU : h.entityKeys.Nodup
  used : ∀ k, k < h.keys.length → ∃ o, (o, k) ∈ h.objectKeys

theorem inv_empty : Inv {} := by
  constructor <;> simp

theorem checkObject_ok {h : Herd} {f oid path field : String} {b : Bool} {ref : ObjRef}
    (hc : checkObject h f oid path field b = .ok ref) :
    (∃ o ob, ref = .row o ∧ h.objects[o]? = some ob ∧ ob.id = (oid, path, field)) ∨
    (b = true ∧ (∀ ob ∈ h.objects, ob.id ≠ (oid, path, field)) ∧
      ((ref = .missing none ∧ f ∉ h.files) ∨ ∃ i, ref = .missing (some i) ∧ h.files[i]? = some f)) := by
  unfold checkObject at hc
  simp only at hc
  split at hc
  · simp at hc
  · split at hc
    · rename_i o hw
      simp only [Except.ok.injEq] at hc
      have : o ∈ which (fun r : Obj => r.is oid path field) h.objects := by rw [hw]; simp
      obtain ⟨ob, h1, h2⟩ := mem_which.1 this
      exact .inl ⟨o, ob, hc.symm, h1, is_iff.1 h2⟩
    · rename_i hw
      split at hc
      · rename_i hb
        simp only [Except.ok.injEq] at hc
        right
        refine ⟨hb, ?_, ?_⟩
        · intro ob hob hid
          have := which_eq_nil.1 hw ob hob
          rw [is_iff.2 hid] at this; simp at this
        · cases hh : (which (· == f) h.files).head? with
          | none =>
            rw [hh] at hc
            refine .inl ⟨hc.symm, fun hf => ?_⟩
            rw [List.head?_eq_none_iff, which_eq_nil] at hh
            have := hh f hf
            simp at this
          | some i =>
            rw [hh] at hc
            refine .inr ⟨i, hc.symm, ?_⟩
            obtain ⟨x, h1, h2⟩ := mem_which.1 (List.mem_of_mem_head? hh)
            simp only [beq_iff_eq] at h2
            subst h2; exact h1
      · simp at hc
    · simp at hc

/-- the object is in its row -/
theorem ensureObject_spec {h : Herd} (i : Inv h) {f oid otype path field : String} {ref : ObjRef}
    (hc : checkObject h f oid path field true = .ok ref) :
    let r := ensureObject h f oid otype path field ref
    Inv r.1 ∧ (∃ ob, r.1.objects[r.2]? = some ob ∧ ob.id = (oid, path, field)) ∧ r.1.keys = h.keys ∧ r.1.entities = h.entities ∧
      r.1.objectKeys = h.objectKeys ∧ r.1.entityKeys = h.entityKeys ∧ (r.1.objects = h.objects ∨ r.2 = h.objects.length) := by
  intro r
  have nodup : (∀ ob ∈ h.objects, ob.id ≠ (oid, path, field)) → ∀ fi,
      ((h.objects ++ [(⟨fi, oid, otype, path, field⟩ : Obj)]).map Obj.id).Nodup := by
    intro hno fi
    rw [List.map_append, List.nodup_append]
    refine ⟨i.objU, by simp, ?_⟩
    intro a ha b hb
    simp only [List.map_cons, List.map_nil, List.mem_singleton] at hb
    subst hb
    obtain ⟨ob, h1, rfl⟩ := List.mem_map.1 ha
    exact hno ob h1
  rcases checkObject_ok hc with ⟨o, ob, rfl, h1, h2⟩ | ⟨-, hno, ⟨rfl, hf⟩ | ⟨fi, rfl, hf⟩⟩
  · exact ⟨i, ⟨ob, h1, h2⟩, rfl, rfl, rfl, rfl, .inl rfl⟩
  · refine ⟨⟨?_, ?_, i.ek, nodup hno _, ?_, i.entU, i.ekU, i.used⟩, ⟨⟨h.files.length, oid, otype, path, field⟩, ?_, rfl⟩,
      rfl, rfl, rfl, rfl, .inr rfl⟩
    · intro ob hob
      simp only [r, ensureObject, List.mem_append, List.mem_singleton, List.length_append, List.length_singleton] at hob ⊢
      rcases hob with hob | rfl
      · have := i.objs ob hob; omega
      · simp
    · intro x hx
      have := i.ok x hx
      simp only [r, ensureObject, List.length_append, List.length_singleton]
      exact ⟨by omega, this.2⟩
    · simp only [r, ensureObject]
      rw [List.nodup_append]
      refine ⟨i.filesU, by simp, ?_⟩
      intro a ha b hb
      simp only [List.mem_singleton] at hb
      subst hb
      intro e; subst e; exact hf ha
    · simp [r, ensureObject]
  · refine ⟨⟨?_, ?_, i.ek, nodup hno _, i.filesU, i.entU, i.ekU, i.used⟩, ⟨⟨fi, oid, otype, path, field⟩, ?_, rfl⟩,
      rfl, rfl, rfl, rfl, .inr rfl⟩
    · intro ob hob
      simp only [r, ensureObject, List.mem_append, List.mem_singleton] at hob ⊢
      rcases hob with hob | rfl
      · exact i.objs ob hob
      · exact (List.getElem?_eq_some_iff.1 hf).1
    · intro x hx
      have := i.ok x hx
      simp only [r, ensureObject, List.length_append, List.length_singleton]
      exact ⟨by omega, this.2⟩
    · simp [r, ensureObject]

/-- the key of a name used with the object: an old one or the next free row -/
theorem strKey_spec (h : Herd) (o : Nat) (s : String) :
    (∃ k, strKey h o s = (h, k) ∧ (o, k) ∈ h.objectKeys ∧ h.keys[k]? = some s) ∨
    (strKey h o s = ({ h with keys := h.keys ++ [s] }, h.keys.length) ∧ ∀ k, (o, k) ∈ h.objectKeys → h.keys[k]? ≠ some s) := by
  unfold strKey
  simp only
  have key : ∀ k, k ∈ ((h.objectKeys.filter fun r => r.1 == o).map Prod.snd).filter
      (fun k => (which (· == s) h.keys).contains k) ↔ (o, k) ∈ h.objectKeys ∧ h.keys[k]? = some s := by
    intro k
    simp only [List.mem_filter, List.mem_map, beq_iff_eq, List.contains_iff_mem, mem_which, exists_eq_right]
    constructor
    · rintro ⟨⟨⟨a, b⟩, ⟨h1, h2⟩, h3⟩, h4⟩
      simp only at h2 h3
      subst h2; subst h3
      exact ⟨h1, h4⟩
    · rintro ⟨h1, h2⟩
      exact ⟨⟨(o, k), ⟨h1, rfl⟩, rfl⟩, h2⟩
  split
  · rename_i k hk
    exact .inl ⟨k, rfl, (key k).1 (List.mem_of_getLast? hk)⟩
  · rename_i hk
    rw [List.getLast?_eq_none_iff] at hk
    refine .inr ⟨rfl, fun k h1 h2 => ?_⟩
    have := (key k).2 ⟨h1, h2⟩
    rw [hk] at this; simp at this

/-- entity part -/
theorem linkEntity_spec {h : Herd} (i : Inv h) {ent : Option Nat} {eid : String} {uri : Option String} {k : Nat}
    (hk : k < h.keys.length) (hent : ent = getEntity h eid) :
    let h' := linkEntity h ent eid uri k
    Inv h' ∧ h'.keys = h.keys ∧ h'.files = h.files ∧ h'.objects = h.objects ∧ h'.objectKeys = h.objectKeys ∧
      (∃ e u, h'.entities[e]? = some (eid, u) ∧ (e, k) ∈ h'.entityKeys ∧
        (∀ r, r ∈ h'.entityKeys ↔ r ∈ h.entityKeys ∨ r = (e, k))) ∧
      (∀ e a u, h'.entities[e]? = some (a, u) → h.entities[e]? = some (a, u) ∨ (e = h.entities.length ∧ a = eid)) := by
  intro h'
  cases he : getEntity h eid with
  | some e =>
    rw [he] at hent
    subst hent
    obtain ⟨u, hu⟩ := getEntity_some he
    by_cases hc : h.entityKeys.contains (e, k) = true
    · have : h' = h := by simp only [h', linkEntity, hc, if_true]
      rw [this]
      have hm : (e, k) ∈ h.entityKeys := by simpa using hc
      refine ⟨i, rfl, rfl, rfl, rfl, ⟨e, u, hu, hm, ?_⟩, fun e a u h => .inl h⟩
      intro r
      constructor
      · exact .inl
      · rintro (h | rfl)
        · exact h
        · exact hm
    · have : h' = { h with entityKeys := h.entityKeys ++ [(e, k)] } := by
        simp only [h', linkEntity]; rw [if_neg hc]
      rw [this]
      refine ⟨{ i with ek := ?_, ekU := ?_ }, rfl, rfl, rfl, rfl, ⟨e, u, hu, by simp, by intro r; simp⟩, fun e a u h => .inl h⟩
      · intro r hr
        rcases List.mem_append.1 hr with hr | hr
        · exact i.ek r hr
        · simp only [List.mem_singleton] at hr
          subst hr
          exact ⟨(List.getElem?_eq_some_iff.1 hu).1, hk⟩
      · simp only [List.nodup_append]
        refine ⟨i.ekU, by simp, ?_⟩
        intro a ha b hb
        simp only [List.mem_singleton] at hb
        subst hb
        intro e; subst e
        exact hc (by simpa using ha)
  | none =>
    rw [he] at hent
    subst hent
    have : h' = { h with entities := h.entities ++ [(eid, uri.getD "")], entityKeys := h.entityKeys ++ [(h.entities.length, k)] } := rfl
    rw [this]
    refine ⟨{ i with ek := ?_, entU := ?_, ekU := ?_ }, rfl, rfl, rfl, rfl,
      ⟨h.entities.length, uri.getD "", by simp, by simp, by intro r; simp⟩, ?_⟩
    · intro r hr
      simp only [List.length_append, List.length_singleton]
      rcases List.mem_append.1 hr with hr | hr
      · have := i.ek r hr; exact ⟨by omega, this.2⟩
      · simp only [List.mem_singleton] at hr
        subst hr
        exact ⟨by simp, hk⟩
    · simp only [List.map_append, List.nodup_append]
      refine ⟨i.entU, by simp, ?_⟩
      intro a ha b hb
      simp only [List.map_cons, List.map_nil, List.mem_singleton] at hb
      subst hb
      obtain ⟨r, h1, rfl⟩ := List.mem_map.1 ha
      exact getEntity_none.1 he r h1
    · simp only [List.nodup_append]
      refine ⟨i.ekU, by simp, ?_⟩
      intro a ha b hb
      simp only [List.mem_singleton] at hb
      subst hb
      intro e; subst e
      have := (i.ek _ ha).1
      simp at this
    · intro e a u hu
      simp only at hu
      by_cases hlt : e < h.entities.length
      · rw [List.getElem?_append_left hlt] at hu; exact .inl hu
      · rw [List.getElem?_append_right (by omega)] at hu
        have := (List.getElem?_eq_some_iff.1 hu).1
        simp only [List.length_singleton] at this
        have h0 : e - h.entities.length = 0 := by omega
        rw [h0] at hu
        simp only [List.getElem?_cons_zero, Option.some.injEq, Prod.mk.injEq] at hu
        exact .inr ⟨by omega, hu.1.symm⟩

theorem getEntity_congr {h h' : Herd} (e : h'.entities = h.entities) (eid : String) : getEntity h' eid = getEntity h eid := by
  unfold getEntity; rw [e]

/-- what an accepted call with a string key did -/
theorem populate_str {h : Herd} (i : Inv h) {f oid otype path : String} {c : Call} {ref : ObjRef} {s : String}
    (hk : c.key = .str s) (hc : checkObject h f oid path c.field true = .ok ref) :
    ∃ h', populate h f oid otype path c ref = (h', .ok ()) ∧ Inv h' ∧
      ∃ o k e u ob, h'.objects[o]? = some ob ∧ ob.id = (oid, path, c.field) ∧ h'.keys[k]? = some s ∧
        h'.entities[e]? = some (c.eid, u) ∧ (h'.objects = h.objects ∨ o = h.objects.length) ∧
        h'.objectKeys = h.objectKeys ++ [(o, k)] ∧
        ((h'.keys = h.keys ∧ (o, k) ∈ h.objectKeys ∧ h.keys[k]? = some s) ∨
          (h'.keys = h.keys ++ [s] ∧ k = h.keys.length ∧ ∀ k, (o, k) ∈ h.objectKeys → h.keys[k]? ≠ some s)) ∧
        (∀ r, r ∈ h'.entityKeys ↔ r ∈ h.entityKeys ∨ r = (e, k)) ∧
        (∀ e a u, h'.entities[e]? = some (a, u) → h.entities[e]? = some (a, u) ∨ (e = h.entities.length ∧ a = c.eid)) := by
  obtain ⟨i1, ⟨ob, hob, hid⟩, e1, e2, e3, e4, e5⟩ := ensureObject_spec (otype := otype) i hc
  unfold populate
  simp only [hk]
  generalize ensureObject h f oid otype path c.field ref = r at *
  obtain ⟨h1, o⟩ := r
  simp only at *
  have ho : o < h1.objects.length := (List.getElem?_eq_some_iff.1 hob).1
  rcases strKey_spec h1 o s with ⟨k, hs, hmem, hks⟩ | ⟨hs, hno⟩
  · rw [hs]
    simp only
    have hk1 : k < h1.keys.length := (List.getElem?_eq_some_iff.1 hks).1
    have i2 : Inv { h1 with objectKeys := h1.objectKeys ++ [(o, k)] } :=
      { i1 with
        ok := by
          intro x hx
          rcases List.mem_append.1 hx with hx | hx
          · exact i1.ok x hx
          · simp only [List.mem_singleton] at hx; subst hx; exact ⟨ho, hk1⟩
        used := by
          intro k' hk'
          obtain ⟨o', ho'⟩ := i1.used k' hk'
          exact ⟨o', by simp [ho']⟩ }
    obtain ⟨j, f1, f2, f3, f4, ⟨e, u, f5, f6, f7⟩, f8⟩ :=
      linkEntity_spec (uri := c.uri) i2 (k := k) hk1 ((getEntity_congr (h := h) (h' := { h1 with objectKeys := h1.objectKeys ++ [(o, k)] }) e2 c.eid).symm)
    refine ⟨_, rfl, j, o, k, e, u, ob, ?_, hid, ?_, f5, ?_, ?_, .inl ⟨?_, ?_, ?_⟩, ?_, ?_⟩
    · rw [f3]; exact hob
    · rw [f1]; exact hks
    · rw [f3]; exact e5
    · rw [f4, ← e3]
    · rw [f1]; exact e1
    · rw [← e3]; exact hmem
    · rw [← e1]; exact hks
    · intro r; rw [← e4]; exact f7 r
    · intro e a u hh; rw [← e2]; exact f8 e a u hh
  · rw [hs]
    simp only
    have i2 : Inv { h1 with keys := h1.keys ++ [s], objectKeys := h1.objectKeys ++ [(o, h1.keys.length)] } :=
      { i1 with
        ok := by
          intro x hx
          simp only [List.length_append, List.length_singleton]
          rcases List.mem_append.1 hx with hx | hx
          · have := i1.ok x hx; exact ⟨this.1, by omega⟩
          · simp only [List.mem_singleton] at hx; subst hx; exact ⟨ho, by simp⟩
        ek := by
          intro x hx
          simp only [List.length_append, List.length_singleton]
          have := i1.ek x hx; exact ⟨this.1, by omega⟩
        used := by
          intro k' hk'
          simp only [List.length_append, List.length_singleton] at hk'
          by_cases he : k' = h1.keys.length
          · exact ⟨o, by simp [he]⟩
          · obtain ⟨o', ho'⟩ := i1.used k' (by omega)
            exact ⟨o', by simp [ho']⟩ }
    obtain ⟨j, f1, f2, f3, f4, ⟨e, u, f5, f6, f7⟩, f8⟩ :=
      linkEntity_spec (uri := c.uri) i2 (k := h1.keys.length) (by simp)
        ((getEntity_congr (h := h) (h' := { h1 with keys := h1.keys ++ [s], objectKeys := h1.objectKeys ++ [(o, h1.keys.length)] }) e2 c.eid).symm)
    refine ⟨_, rfl, j, o, h1.keys.length, e, u, ob, ?_, hid, ?_, f5, ?_, ?_, .inr ⟨?_, ?_, ?_⟩, ?_, ?_⟩
    · rw [f3]; exact hob
    · rw [f1]; simp
    · rw [f3]; exact e5
    · rw [f4, ← e3]
    · rw [f1]; simp only; rw [e1]
    · rw [e1]
    · intro k h2; rw [← e1]; exact hno k (by rw [e3]; exact h2)
    · intro r; rw [← e4]; exact f7 r
    · intro e a u hh; rw [← e2]; exact f8 e a u hh

/-- what an accepted call with a `Key` row did -/
theorem populate_row {h : Herd} (i : Inv h) {f oid otype path : String} {c : Call} {ref : ObjRef} {k : Nat}
    (hk : c.key = .row k) (hlt : k < h.keys.length) (hc : checkObject h f oid path c.field true = .ok ref) :
    ∃ h', populate h f oid otype path c ref = (h', .ok ()) ∧ Inv h' ∧ h'.keys = h.keys ∧
      ∃ o e u ob, h'.objects[o]? = some ob ∧ ob.id = (oid, path, c.field) ∧ (o, k) ∈ h'.objectKeys ∧
        h'.entities[e]? = some (c.eid, u) ∧ (e, k) ∈ h'.entityKeys := by
  obtain ⟨i1, ⟨ob, hob, hid⟩, e1, e2, e3, e4, e5⟩ := ensureObject_spec (otype := otype) i hc
  unfold populate
  simp only [hk]
  generalize ensureObject h f oid otype path c.field ref = r at *
  obtain ⟨h1, o⟩ := r
  simp only at *
  have ho : o < h1.objects.length := (List.getElem?_eq_some_iff.1 hob).1
  have hk1 : k < h1.keys.length := by rw [e1]; exact hlt
  have aux : ∃ h2, (if rowNeedsLink h1 o k then { h1 with objectKeys := h1.objectKeys ++ [(o, k)] } else h1) = h2 ∧ Inv h2 ∧
      h2.keys = h1.keys ∧ h2.objects = h1.objects ∧ h2.entities = h1.entities ∧ (o, k) ∈ h2.objectKeys := by
    by_cases hn : rowNeedsLink h1 o k = true
    · rw [if_pos hn]
      refine ⟨_, rfl, { i1 with ok := ?_, used := ?_ }, rfl, rfl, rfl, by simp⟩
      · intro x hx
        rcases List.mem_append.1 hx with hx | hx
        · exact i1.ok x hx
        · simp only [List.mem_singleton] at hx; subst hx; exact ⟨ho, hk1⟩
      · intro k' hk'
        obtain ⟨o', ho'⟩ := i1.used k' hk'
        exact ⟨o', by simp [ho']⟩
    · rw [if_neg hn]
      refine ⟨_, rfl, i1, rfl, rfl, rfl, ?_⟩
      obtain ⟨o', ho'⟩ := i1.used k hk1
      simp only [rowNeedsLink, Bool.and_eq_true, Bool.not_eq_true', not_and, Bool.not_eq_false, List.any_eq_true, List.mem_filter,
        beq_iff_eq] at hn
      have hne : (h1.objectKeys.filter fun r => r.2 == k).isEmpty = false := by
        rw [List.isEmpty_eq_false_iff]
        intro hnil
        have : (o', k) ∈ h1.objectKeys.filter fun r => r.2 == k := List.mem_filter.2 ⟨ho', by simp⟩
        rw [hnil] at this; simp at this
      obtain ⟨⟨a, b⟩, ⟨h3, h4⟩, h5⟩ := hn hne
      simp only at h4 h5
      subst h4; subst h5
      exact h3
  obtain ⟨h2, e6, i2, g1, g2, g3, g4⟩ := aux
  rw [e6]
  obtain ⟨j, f1, f2, f3, f4, ⟨e, u, f5, f6, f7⟩, f8⟩ :=
    linkEntity_spec (uri := c.uri) i2 (k := k) (by rw [g1]; exact hk1) ((getEntity_congr (h := h) (h' := h2) (g3.trans e2) c.eid).symm)
  refine ⟨_, rfl, j, f1.trans (g1.trans e1), o, e, u, ob, ?_, hid, ?_, f5, f6⟩
  · rw [f3, g2]; exact hob
  · rw [f4]; exact g4

/-- the `Key` row of a call exists -/
def Call.valid (h : Herd) (c : Call) : Prop := ∀ k, c.key = .row k → k < h.keys.length

theorem addRef_inv {h : Herd} (i : Inv h) (c : Call) (hv : c.valid h) : Inv (addRef h c).1 := by
  rcases addRef_cases h c with ⟨e, he⟩ | ⟨f, oid, otype, path, ref, -, -, -, hc, he⟩
  · rw [he]; exact i
  · rw [he]
    cases hk : c.key with
    | none =>
      have := (ensureObject_spec (otype := otype) i hc).1
      simp only [populate, hk]
      exact this
    | str s =>
      obtain ⟨h', e1, i', -⟩ := populate_str (otype := otype) i hk hc
      rw [e1]; exact i'
    | row k =>
      obtain ⟨h', e1, i', -⟩ := populate_row (otype := otype) i hk (hv k hk) hc
      rw [e1]; exact i'

/-- every `Key` row used in a history exists when it is used -/
def Valid : Herd → List Call → Prop
  | _, [] => True
  | h, c :: cs => c.valid h ∧ Valid (addRef h c).1 cs

theorem run_inv : ∀ (cs : List Call) (h : Herd), Inv h → Valid h cs → Inv (run h cs) := by
  intro cs
  induction cs with
  | nil => intro h i _; exact i
  | cons c cs ih => intro h i hv; exact ih _ (addRef_inv i c hv.1) hv.2

end Verif.Herd

import Verif.Lemmas.H5WriteNew

/-!
# Lemmas about writing builders to a file: what is there already
-/

namespace Verif.H5Write
open Verif

/-- what a call may change: the attributes `A` and the content of the datasets `D` -/
def Allowed (A : Path → String → Prop) (D : Path → Prop) : Call → Prop
  | .attr p k _ => A p k
  | .fill p _ attrs => D p ∧ ∀ k ∈ Dict.keys attrs, A p k

/-- one object is like another, but for what may change -/
def Like (A : Path → String → Prop) (D : Path → Prop) (q : Path) (o o' : Obj) : Prop :=
  (¬ D q → o'.kind = o.kind) ∧ ∀ k, ¬ A q k → o'.attrs.get? k = o.attrs.get? k

/-- nothing of the file `f0` is changed but the attributes `A` and the content of the datasets `D` -/
structure Keep (f0 : Dict Path Obj) (W0 : List Nat) (A : Path → String → Prop) (D : Path → Prop) (st : St) : Prop where
  obj : ∀ q o, f0.get? q = some o → ∃ o', st.file.get? q = some o' ∧ Like A D q o o'
  calls : ∀ c ∈ st.queue, f0.get? c.1.path = none ∨ Allowed A D c.1
  wr : ∀ i ∈ W0, i ∈ st.written

variable {f0 : Dict Path Obj} {W0 : List Nat} {A : Path → String → Prop} {D : Path → Prop}

theorem like_rfl {q : Path} {o : Obj} : Like A D q o o := ⟨fun _ => rfl, fun _ _ => rfl⟩

theorem like_trans {q : Path} {a b c : Obj} (h : Like A D q a b) (h' : Like A D q b c) : Like A D q a c :=
  ⟨fun hd => (h'.1 hd).trans (h.1 hd), fun k hk => (h'.2 k hk).trans (h.2 k hk)⟩

theorem keep_fresh {st : St} (h : Keep f0 W0 A D st) {p : Path} (hp : p ∉ Dict.keys st.file) : f0.get? p = none := by
  cases ho : f0.get? p with
  | none => rfl
  | some o =>
    obtain ⟨o', h1, _⟩ := h.obj p o ho
    exact absurd (Dict.mem_keys_of_mem (Dict.mem_of_get? h1)) hp

theorem keep_raise {st : St} (h : Keep f0 W0 A D st) (e : Err) : Keep f0 W0 A D (st.raise e) := by
  unfold St.raise
  split
  · exact h
  · exact ⟨h.obj, h.calls, h.wr⟩

theorem keep_set {st : St} (h : Keep f0 W0 A D st) {p : Path} {o : Obj}
    (ho : ∀ o0, f0.get? p = some o0 → Like A D p o0 o) : Keep f0 W0 A D { st with file := st.file.set p o } := by
  refine ⟨fun q o0 h0 => ?_, h.calls, h.wr⟩
  by_cases e : q = p
  · subst e
    exact ⟨o, Dict.get?_set_self, ho o0 h0⟩
  · simp only [Dict.get?_set_ne e]
    exact h.obj q o0 h0

theorem keep_create {st : St} (h : Keep f0 W0 A D st) (p : Path) (k : HKind) : Keep f0 W0 A D (st.create p k) := by
  unfold St.create
  split
  · exact h
  · split
    · exact keep_raise h _
    · rename_i hp
      refine keep_set h (fun o0 h0 => ?_)
      rw [keep_fresh h (Dict.has_false_iff.1 (by simpa using hp))] at h0
      cases h0

theorem keep_modify {st : St} (h : Keep f0 W0 A D st) (p : Path) (f : Obj → Obj)
    (hf : f0.get? p = none ∨ ∀ o, Like A D p o (f o)) : Keep f0 W0 A D (st.modify p f) := by
  unfold St.modify
  split
  · exact h
  · split
    · exact keep_raise h _
    · rename_i o ho
      refine keep_set h (fun o0 h0 => ?_)
      rcases hf with hf | hf
      · rw [hf] at h0; cases h0
      · obtain ⟨o', h1, h2⟩ := h.obj p o0 h0
        rw [ho] at h1
        obtain rfl := Option.some.inj h1
        exact like_trans h2 (hf o)

theorem keep_setAttr {st : St} (h : Keep f0 W0 A D st) (p : Path) (k : String) (v : HVal)
    (hf : f0.get? p = none ∨ A p k) : Keep f0 W0 A D (st.setAttr p k v) := by
  refine keep_modify h p _ (hf.imp id (fun hk o => ⟨fun _ => rfl, fun k' hk' => ?_⟩))
  have e : k' ≠ k := by rintro rfl; exact hk' hk
  simp [Dict.get?_set_ne e]

theorem keep_enqueue {st : St} (h : Keep f0 W0 A D st) (c : Call) (hc : f0.get? c.path = none ∨ Allowed A D c) :
    Keep f0 W0 A D (st.enqueue c) := by
  unfold St.enqueue
  split
  · exact h
  · refine ⟨h.obj, ?_, h.wr⟩
    intro d hd
    rcases List.mem_append.1 hd with hd | hd
    · exact h.calls d hd
    · simp only [List.mem_singleton] at hd
      subst hd
      exact hc

theorem keep_mark {st : St} (h : Keep f0 W0 A D st) (i : Nat) : Keep f0 W0 A D (st.mark i) := by
  unfold St.mark
  split
  · exact h
  · exact ⟨h.obj, h.calls, fun j hj => List.mem_append_left _ (h.wr j hj)⟩

theorem keep_setAttributes {p : Path} : ∀ (l : Dict String WAttr) {st : St}, Keep f0 W0 A D st →
    (f0.get? p = none ∨ ∀ k ∈ Dict.keys l, A p k) → Keep f0 W0 A D (setAttributes p l st) := by
  intro l
  induction l with
  | nil => intro st h _; exact h
  | cons x l ih =>
    obtain ⟨k, v⟩ := x
    intro st h hl
    have hk : f0.get? p = none ∨ A p k := hl.imp id (fun hl => hl k (by simp [Dict.keys]))
    have hl' : f0.get? p = none ∨ ∀ k ∈ Dict.keys l, A p k :=
      hl.imp id (fun hl k' hk' => hl k' (by simp only [Dict.keys, List.map_cons]; exact List.mem_cons_of_mem _ hk'))
    cases v with
    | data d => exact ih (keep_setAttr h p k _ hk) hl'
    | ref t => exact ih (keep_enqueue h (.attr p k t) hk) hl'

theorem setAttributes_err {p : Path} : ∀ (l : Dict String WAttr) {st : St}, st.err.isSome → setAttributes p l st = st := by
  intro l
  induction l with
  | nil => intro st _; rfl
  | cons x l ih =>
    obtain ⟨k, v⟩ := x
    intro st h
    cases v with
    | data d => simp only [setAttributes, St.setAttr, St.modify, h, if_true]; exact ih h
    | ref t => simp only [setAttributes, St.enqueue, h, if_true]; exact ih h

theorem keep_require {st : St} (h : Keep f0 W0 A D st) (p : Path) : Keep f0 W0 A D (st.require p) := by
  unfold St.require
  split
  · exact h
  · split
    · rename_i hp
      refine keep_set h (fun o0 h0 => ?_)
      rw [keep_fresh h (Dict.get?_eq_none_iff.1 hp)] at h0
      cases h0
    · split
      · exact keep_raise h _
      · exact keep_raise h _
      · exact keep_raise h _
      · exact h

theorem keep_writeLinks {E : Env} {p : Path} : ∀ (l : List WLink) {st : St}, Keep f0 W0 A D st →
    Keep f0 W0 A D (writeLinks E p l st) := by
  intro l
  induction l with
  | nil => intro st h; exact h
  | cons x l ih =>
    intro st h
    refine ih ?_
    unfold writeLink
    split
    · exact h
    · split
      · exact keep_raise h _
      · exact keep_mark (keep_create h _ _) _

/-- is it a dataset of references? -/
def WData.isRef : WData → Bool
  | .data _ => false
  | _ => true

/-- what may be changed for the sake of one builder -/
def Touch (W0 : List Nat) (A : Path → String → Prop) (D : Path → Prop) (x : Path × Bld) : Prop :=
  (x.2.isData = false → ∀ k ∈ Dict.keys x.2.attrs, A x.1 k) ∧
  (x.2.isData = true → x.2.data.isRef = true → x.2.id ∉ W0 → D x.1 ∧ ∀ k ∈ Dict.keys x.2.attrs, A x.1 k)

theorem keep_writeDataset {p : Path} {id : Nat} {attrs : Dict String WAttr} {data : WData} {st : St}
    (h : Keep f0 W0 A D st) (ht : data.isRef = true → id ∉ W0 → D p ∧ ∀ k ∈ Dict.keys attrs, A p k) :
    Keep f0 W0 A D (writeDataset p id attrs data st) := by
  unfold writeDataset
  split
  · exact h
  · rename_i hw
    have hw : id ∉ W0 := fun hm => hw (h.wr _ hm)
    split
    · refine keep_mark ?_ _
      by_cases he : st.err.isSome
      · have h1 : ∀ k, st.create p k = st := by intro k; simp [St.create, he]
        rw [h1, setAttributes_err _ he]; exact h
      · by_cases hp : st.file.has p
        · rename_i d
          have h1 : (st.create p (.data d)) = st.raise .taken := by simp [St.create, he, hp]
          rw [h1, setAttributes_err _ (by simp [St.raise, he])]
          exact keep_raise h _
        · exact keep_setAttributes _ (keep_create h _ _)
            (Or.inl (keep_fresh h (Dict.has_false_iff.1 (by simpa using hp))))
    · rename_i hd
      have hr : data.isRef = true := by
        cases data with
        | data d => exact absurd rfl (hd d)
        | refs l => rfl
        | sref t => rfl
      exact keep_enqueue (keep_mark (keep_require h p) _) (.fill p data attrs) (Or.inr (ht hr hw))

mutual
theorem keep_writeNode (E : Env) : ∀ (t : Bld) (p : Path) (st : St), Keep f0 W0 A D st →
    (∀ x ∈ nodesAt (t.name :: p) t, Touch W0 A D x) → Keep f0 W0 A D (writeNode E p t st)
  | .node id name isData attrs data links subs, p, st => by
    intro h ht
    simp only [nodesAt, Bld.name] at ht
    cases isData with
    | true =>
      simp only [writeNode, if_true]
      exact keep_writeDataset h ((ht _ (List.mem_cons_self ..)).2 rfl)
    | false =>
      simp only [writeNode, Bool.false_eq_true, if_false] at ht ⊢
      have h1 : Keep f0 W0 A D (openGroup (name :: p) id st) := by
        unfold openGroup
        split
        · split
          · exact keep_raise h _
          · exact h
        · exact keep_create h _ _
      have h2 := keep_writeNodes E subs (name :: p) _ h1 (fun x hx => ht x (List.mem_cons_of_mem _ hx))
      exact keep_mark (keep_setAttributes attrs (keep_writeLinks links h2)
        (Or.inr ((ht _ (List.mem_cons_self ..)).1 rfl))) _

theorem keep_writeNodes (E : Env) : ∀ (l : List Bld) (p : Path) (st : St), Keep f0 W0 A D st →
    (∀ x ∈ nodesAtL p l, Touch W0 A D x) → Keep f0 W0 A D (writeNodes E p l st)
  | [], p, st => by intro h _; exact h
  | t :: l, p, st => by
    intro h ht
    exact keep_writeNodes E l p _ (keep_writeNode E t p st h (fun x hx => ht x (List.mem_append_left _ hx)))
      (fun x hx => ht x (List.mem_append_right _ hx))
end

theorem keep_runCall {E : Env} {c : Call} {st st' : St} (h : Keep f0 W0 A D st)
    (hc : f0.get? c.path = none ∨ Allowed A D c) (hr : runCall E c st = some st') : Keep f0 W0 A D st' := by
  cases c with
  | attr p k t =>
    simp only [runCall, Option.map_eq_some_iff] at hr
    obtain ⟨q, _, rfl⟩ := hr
    exact keep_setAttr h p k _ hc
  | fill p d attrs =>
    simp only [runCall, Option.map_eq_some_iff] at hr
    obtain ⟨k, _, rfl⟩ := hr
    refine keep_setAttributes attrs (keep_modify h p _ (hc.imp id (fun hc o => ⟨fun hd => absurd hc.1 hd, fun _ _ => rfl⟩)))
      (hc.imp id (fun hc => hc.2))

theorem keep_drain {E : Env} : ∀ (n : Nat) {st : St}, Keep f0 W0 A D st → Keep f0 W0 A D (drain E n st) := by
  intro n
  induction n with
  | zero => intro st h; exact keep_raise h _
  | succ n ih =>
    intro st h
    unfold drain
    split
    · exact h
    · split
      · exact h
      · rename_i c failed q hq
        have hc := h.calls (c, failed) (by rw [hq]; exact List.mem_cons_self ..)
        have h' : Keep f0 W0 A D { st with queue := q } :=
          ⟨h.obj, fun d hd => h.calls d (by rw [hq]; exact List.mem_cons_of_mem _ hd), h.wr⟩
        split
        · rename_i st' hr
          exact ih (keep_runCall h' hc hr)
        · split
          · exact keep_raise h' _
          · refine ih ⟨h.obj, fun d hd => ?_, h.wr⟩
            rcases List.mem_append.1 hd with hd | hd
            · exact h'.calls d hd
            · simp only [List.mem_singleton] at hd
              subst hd
              exact hc

/-- writing changes nothing but what it may -/
theorem keep_write {E : Env} {n : Nat} {root : Bld} {st : St} (hd : root.grp) (hq : st.queue = [])
    (ht : ∀ x ∈ nodesAt [] root, Touch st.written A D x) :
    Keep st.file st.written A D (writeBuilder E n root st) := by
  obtain ⟨id, name, isData, attrs, data, links, subs⟩ := root
  simp only [Bld.grp] at hd
  subst hd
  simp only [nodesAt, Bool.false_eq_true, if_false] at ht
  have h0 : Keep st.file st.written A D st :=
    ⟨fun q o h => ⟨o, h, like_rfl⟩, (by rw [hq]; intro c hc; cases hc), fun _ h => h⟩
  have h1 := keep_writeNodes E subs [] st h0 (fun x hx => ht x (List.mem_cons_of_mem _ hx))
  exact keep_mark (keep_drain n (keep_setAttributes attrs (keep_writeLinks links h1)
    (Or.inr ((ht _ (List.mem_cons_self ..)).1 rfl)))) _

end Verif.H5Write

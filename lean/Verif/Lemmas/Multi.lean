import Verif.Model.Multi
import Verif.Lemmas.Tree
import Verif.Lemmas.LabelledDict

/-!
# Lemmas about `MultiContainerInterface`
-/

namespace Verif.Multi
open Verif Verif.Tree Verif.LabelledDict

/-- the names and the number of objects are the same -/
structure Frame (st st' : State) : Prop where
  size : st'.w.size = st.w.size
  name : st'.name = st.name
  isCont : ∀ n, (st'.w.node n).isCont = (st.w.node n).isCont
  dtype : ∀ n, (st'.w.node n).dtype = (st.w.node n).dtype

theorem Frame.refl (st : State) : Frame st st := ⟨rfl, rfl, fun _ => rfl, fun _ => rfl⟩

theorem Frame.trans {a b c : State} (h : Frame a b) (g : Frame b c) : Frame a c :=
  ⟨g.size.trans h.size, g.name.trans h.name, fun n => (g.isCont n).trans (h.isCont n),
    fun n => (g.dtype n).trans (h.dtype n)⟩

theorem Frame.obj {st st' : State} (h : Frame st st') (x : Nat) : st'.obj x = st.obj x := by
  simp [State.obj, h.name]

/-- representation invariant -/
structure MInv (st : State) : Prop where
  ld : ∀ c a, LabelledDict.Inv (st.dict c a)
  key : ∀ c a, (st.dict c a).keyAttr = nameAttr
  obj : ∀ c a p, p ∈ (st.dict c a).items → p.2.id < st.w.size ∧ p.2 = st.obj p.2.id ∧ p.1 = st.name p.2.id

theorem minv_empty : MInv State.empty := by
  refine ⟨fun c a => ⟨?_, ?_⟩, fun _ _ => rfl, ?_⟩ <;> simp [State.empty, LabelledDict.init, Dict.keys]

theorem attached_dtype (w : World) (x c n : Nat) : ((attached w x c).node n).dtype = (w.node n).dtype := by
  simp only [attached, upd_node]
  by_cases h1 : n = c <;> by_cases h2 : n = x <;> simp_all

theorem removed_dtype (w : World) (c x n : Nat) : ((removed w c x).node n).dtype = (w.node n).dtype := by
  simp only [removed, upd_node]
  by_cases h1 : n = c <;> by_cases h2 : n = x <;> simp_all

theorem setParent_frame (w : World) (x : Nat) (p : Par) : (setParent w x p).1.size = w.size ∧
    (∀ n, ((setParent w x p).1.node n).isCont = (w.node n).isCont) ∧
    (∀ n, ((setParent w x p).1.node n).dtype = (w.node n).dtype) := by
  rcases setParent_shape w x p with h | ⟨c, -, -, h⟩ | ⟨-, -, h⟩
  · rw [h]; exact ⟨rfl, fun _ => rfl, fun _ => rfl⟩
  · rw [h]
    have s := attach_same w x c
    exact ⟨s.size, fun n => (s.isCont n).trans (attached_isCont w x c n), fun n => (s.dtype n).trans (attached_dtype w x c n)⟩
  · rw [h]
    refine ⟨rfl, ?_, ?_⟩ <;> (intro n; simp only [upd_node]; split <;> simp_all)

theorem setField_frame (w : World) (c x : Nat) : (setField w c x).1.size = w.size ∧
    (∀ n, ((setField w c x).1.node n).isCont = (w.node n).isCont) ∧
    (∀ n, ((setField w c x).1.node n).dtype = (w.node n).dtype) := by
  unfold setField
  split
  · have s := setModified_same w c true
    exact ⟨s.size, s.isCont, s.dtype⟩
  · exact setParent_frame w x (.cont c)

theorem removeChild_frame (w : World) (c x : Nat) : (removeChild w c x).1.size = w.size ∧
    (∀ n, ((removeChild w c x).1.node n).isCont = (w.node n).isCont) ∧
    (∀ n, ((removeChild w c x).1.node n).dtype = (w.node n).dtype) := by
  rcases removeChild_shape w c x with ⟨h, -, -⟩ | ⟨-, s⟩
  · rw [h]; exact ⟨rfl, fun _ => rfl, fun _ => rfl⟩
  · exact ⟨s.size, fun n => (s.isCont n).trans (removed_isCont w c x n), fun n => (s.dtype n).trans (removed_dtype w c x n)⟩

theorem resetParent_frame (w : World) (x : Nat) : (resetParent w x).1.size = w.size ∧
    (∀ n, ((resetParent w x).1.node n).isCont = (w.node n).isCont) ∧
    (∀ n, ((resetParent w x).1.node n).dtype = (w.node n).dtype) := by
  unfold resetParent
  split
  · exact ⟨rfl, fun _ => rfl, fun _ => rfl⟩
  · exact removeChild_frame _ _ _
  · exact ⟨rfl, fun _ => rfl, fun _ => rfl⟩

/-- What one round of the loop of `add` does. -/
theorem addOne_cases {st : State} (hk : ∀ c a, (st.dict c a).keyAttr = nameAttr) (c a x : Nat) :
    (∃ e, addOne st c a x = ({ st with w := (setField st.w c x).1 }, .error e) ∧
      ((setField st.w c x).2 = .error e ∨ ((setField st.w c x).2 = .ok () ∧ (st.dict c a).items.has (st.name x) = true))) ∨
    ((setField st.w c x).2 = .ok () ∧ (st.dict c a).items.has (st.name x) = false ∧
      addOne st c a x = (({ st with w := (setField st.w c x).1 } : State).setDict c a
        { st.dict c a with
          items := (st.dict c a).items.set (st.name x) (st.obj x)
          log := (st.dict c a).log ++ [.added (st.obj x)] }, .ok ())) := by
  unfold addOne
  cases hs : setField st.w c x with
  | mk w' r =>
    cases r with
    | error e => exact .inl ⟨e, rfl, .inl rfl⟩
    | ok u =>
      simp only
      cases hh : (st.dict c a).items.has (st.name x) with
      | true =>
        left
        simp only [if_true]
        cases hg : getitem (st.dict c a) (st.name x) with
        | error e => exact ⟨e, rfl, .inr ⟨trivial, trivial⟩⟩
        | ok f => exact ⟨_, rfl, .inr ⟨trivial, trivial⟩⟩
      | false =>
        right
        refine ⟨trivial, rfl, ?_⟩
        simp only [Bool.false_eq_true, if_false]
        have ha : (State.obj { st with w := w' } x).attr (st.dict c a).keyAttr = some (st.name x) := by
          rw [hk c a]; simp [State.obj, Obj.attr, Dict.get?]
        have : setitem (st.dict c a) (st.name x) (State.obj { st with w := w' } x) =
            ({ st.dict c a with
              items := (st.dict c a).items.set (st.name x) (st.obj x)
              log := (st.dict c a).log ++ [.added (st.obj x)] }, .ok ()) := by
          unfold setitem
          rw [hh]
          simp only [Bool.false_eq_true, if_false]
          rw [ha]
          simp [State.obj]
        rw [this]

theorem addOne_frame {st : State} (hi : MInv st) (c a x : Nat) : Frame st (addOne st c a x).1 := by
  obtain ⟨h1, h2, h3⟩ := setField_frame st.w c x
  rcases addOne_cases hi.key c a x with ⟨e, h, -⟩ | ⟨-, -, h⟩ <;> rw [h] <;> exact ⟨h1, rfl, h2, h3⟩

theorem MInv.world {st : State} (hi : MInv st) {w : World} (h : st.w.size ≤ w.size) : MInv { st with w := w } :=
  ⟨hi.ld, hi.key, fun c a p hp => ⟨lt_of_lt_of_le (hi.obj c a p hp).1 h, (hi.obj c a p hp).2⟩⟩

theorem MInv.setDict {st : State} (hi : MInv st) {c a : Nat} {d : LD} (hd : LabelledDict.Inv d) (hk : d.keyAttr = nameAttr)
    (ho : ∀ p ∈ d.items, p.2.id < st.w.size ∧ p.2 = st.obj p.2.id ∧ p.1 = st.name p.2.id) : MInv (st.setDict c a d) := by
  refine ⟨?_, ?_, ?_⟩
  · intro c' a'; simp only [State.setDict]; split
    · exact hd
    · exact hi.ld c' a'
  · intro c' a'; simp only [State.setDict]; split
    · exact hk
    · exact hi.key c' a'
  · intro c' a' p hp
    simp only [State.setDict] at hp
    split at hp
    · exact ho p hp
    · exact hi.obj c' a' p hp

theorem addOne_inv {st : State} (hi : MInv st) (c a x : Nat) (hx : x < st.w.size) : MInv (addOne st c a x).1 := by
  obtain ⟨h1, -, -⟩ := setField_frame st.w c x
  rcases addOne_cases hi.key c a x with ⟨e, h, -⟩ | ⟨-, hh, h⟩
  · rw [h]; exact hi.world (le_of_eq h1.symm)
  · rw [h]
    refine MInv.setDict (hi.world (le_of_eq h1.symm)) ?_ (hi.key c a) ?_
    · refine ⟨Dict.set_nodup (hi.ld c a).nodup, ?_⟩
      intro p hp
      rcases Dict.set_mem hp with rfl | hp
      · simp only [hi.key]; simp [State.obj, Obj.attr, Dict.get?]
      · exact (hi.ld c a).label p hp
    · intro p hp
      rcases Dict.set_mem hp with rfl | hp
      · exact ⟨by show x < _; simp only; rw [h1]; exact hx, rfl, rfl⟩
      · obtain ⟨g1, g2⟩ := hi.obj c a p hp
        exact ⟨by simp only; rw [h1]; exact g1, g2⟩

theorem addLoop_inv : ∀ (xs : List Nat) {st : State} (_ : MInv st) (c a : Nat) (_ : ∀ x ∈ xs, x < st.w.size),
    MInv (addLoop st c a xs).1 ∧ Frame st (addLoop st c a xs).1 := by
  intro xs
  induction xs with
  | nil => intro st hi c a _; exact ⟨hi, Frame.refl st⟩
  | cons x xs ih =>
    intro st hi c a hx
    unfold addLoop
    have i1 := addOne_inv hi c a x (hx x (by simp))
    have f1 := addOne_frame hi c a x
    cases h : addOne st c a x with
    | mk st' r =>
      rw [h] at i1 f1
      cases r with
      | error e => exact ⟨i1, f1⟩
      | ok u =>
        have hs : st'.w.size = st.w.size := f1.size
        obtain ⟨g1, g2⟩ := ih i1 c a (fun y hy => by rw [hs]; exact hx y (by simp [hy]))
        exact ⟨g1, f1.trans g2⟩

theorem new_inv {st : State} (hi : MInv st) (i : Bool) (t : Nat) (e : Option Nat) (n : Str) : MInv (st.new i t e n) := by
  refine ⟨hi.ld, hi.key, ?_⟩
  intro c a p hp
  obtain ⟨h1, h2, h3⟩ := hi.obj c a p hp
  have hn : p.2.id ≠ st.w.size := Nat.ne_of_lt h1
  refine ⟨Nat.lt_succ_of_lt h1, ?_, ?_⟩
  · rw [h2]; simp [State.obj, State.new, hn]
  · rw [h3]; simp [State.new, hn]

/-- `x` is in the dictionary `a` of `c` -/
def Holds (st : State) (c a x : Nat) : Prop := ∃ p ∈ (st.dict c a).items, p.2.id = x

theorem holds_iff {st : State} (hi : MInv st) (c a x : Nat) :
    Holds st c a x ↔ Dict.get? (st.dict c a).items (st.name x) = some (st.obj x) := by
  constructor
  · rintro ⟨p, hp, rfl⟩
    obtain ⟨-, h2, h3⟩ := hi.obj c a p hp
    rw [← h2, ← h3]
    exact Dict.get?_of_mem (hi.ld c a).nodup hp
  · intro h
    exact ⟨_, Dict.mem_of_get? h, rfl⟩

theorem get?_holds {st : State} (hi : MInv st) {c a : Nat} {n : Str} {o : Obj}
    (h : Dict.get? (st.dict c a).items n = some o) : o = st.obj o.id ∧ n = st.name o.id ∧ Holds st c a o.id := by
  have hm := Dict.mem_of_get? h
  obtain ⟨-, h2, h3⟩ := hi.obj c a _ hm
  exact ⟨h2, h3, _, hm, rfl⟩

theorem mem_set_new {κ α : Type} [DecidableEq κ] {d : Dict κ α} {k : κ} {v : α} (h : d.has k = false) (p : κ × α) :
    p ∈ d.set k v ↔ p ∈ d ∨ p = (k, v) := by
  rw [Dict.set_of_not_mem (Dict.has_false_iff.1 h)]; simp

theorem addOne_holds {st : State} (hi : MInv st) (c a x : Nat) (c' a' y : Nat) :
    Holds (addOne st c a x).1 c' a' y ↔
      Holds st c' a' y ∨ ((addOne st c a x).2 = .ok () ∧ c' = c ∧ a' = a ∧ y = x) := by
  rcases addOne_cases hi.key c a x with ⟨e, h, -⟩ | ⟨-, hh, h⟩
  · rw [h]; simp [Holds]
  · rw [h]
    by_cases hca : c' = c ∧ a' = a
    · obtain ⟨rfl, rfl⟩ := hca
      simp only [Holds, State.setDict]
      simp only [and_self, if_true, true_and, mem_set_new hh]
      constructor
      · rintro ⟨p, hp | rfl, rfl⟩
        · exact .inl ⟨p, hp, rfl⟩
        · exact .inr rfl
      · rintro (⟨p, hp, rfl⟩ | rfl)
        · exact ⟨p, .inl hp, rfl⟩
        · exact ⟨_, .inr rfl, rfl⟩
    · simp only [Holds, State.setDict, hca, if_false]
      constructor
      · exact .inl
      · rintro (h | ⟨-, h1, h2, -⟩)
        · exact h
        · exact absurd ⟨h1, h2⟩ hca

/-- Everything added so far is there, nothing else is, and no dictionary has lost anything. -/
theorem addLoop_holds : ∀ (xs : List Nat) {st : State} (_ : MInv st) (c a : Nat) (_ : ∀ x ∈ xs, x < st.w.size),
    ∃ ys, ys <+: xs ∧ ((addLoop st c a xs).2 = .ok () → ys = xs) ∧ ∀ c' a' y,
      Holds (addLoop st c a xs).1 c' a' y ↔ Holds st c' a' y ∨ (c' = c ∧ a' = a ∧ y ∈ ys) := by
  intro xs
  induction xs with
  | nil => intro st _ c a _; exact ⟨[], List.prefix_rfl, fun _ => rfl, by simp [addLoop]⟩
  | cons x xs ih =>
    intro st hi c a hx
    unfold addLoop
    have hh := addOne_holds hi c a x
    have i1 := addOne_inv hi c a x (hx x (by simp))
    have f1 := addOne_frame hi c a x
    cases h : addOne st c a x with
    | mk st' r =>
      rw [h] at hh i1 f1
      cases r with
      | error e =>
        refine ⟨[], List.nil_prefix, by simp, ?_⟩
        intro c' a' y
        simpa using hh c' a' y
      | ok u =>
        obtain ⟨ys, h1, h2, h3⟩ := ih i1 c a (fun y hy => by rw [f1.size]; exact hx y (by simp [hy]))
        refine ⟨x :: ys, by simpa using h1, fun h => by rw [h2 h], ?_⟩
        intro c' a' y
        simp only [h3, hh]
        simp only [List.mem_cons]
        tauto

/-! ### removals -/

/-- what the callback does to the state -/
theorem onRemove_cases (st : State) (c : Nat) (ev : Event) :
    (onRemove st c ev).1 = st ∨
    ∃ o, ev = .removed o ∧ (st.w.node o.id).parent = .cont c ∧
      onRemove st c ev = ({ st with w := (removeChild st.w c o.id).1 }, (removeChild st.w c o.id).2) := by
  cases ev with
  | added o => exact .inl rfl
  | removedSet os => exact .inl rfl
  | removed o =>
    unfold onRemove
    by_cases h : (st.w.node o.id).parent = .cont c
    · exact .inr ⟨o, rfl, h, by simp only [h, if_true]⟩
    · left; simp only [h, if_false]

theorem onRemove_inv {st : State} (hi : MInv st) (c : Nat) (ev : Event) :
    MInv (onRemove st c ev).1 ∧ Frame st (onRemove st c ev).1 ∧ (onRemove st c ev).1.dict = st.dict := by
  rcases onRemove_cases st c ev with h | ⟨o, -, -, h⟩
  · rw [h]; exact ⟨hi, Frame.refl st, rfl⟩
  · rw [h]
    obtain ⟨h1, h2, h3⟩ := removeChild_frame st.w c o.id
    exact ⟨hi.world (le_of_eq h1.symm), ⟨h1, rfl, h2, h3⟩, rfl⟩

/-- a removal of one object from a dictionary, before the callback; `b`: by `del` -/
structure Dropped (b : Bool) (st : State) (c a : Nat) (d' : LD) (k : Str) (o : Obj) : Prop where
  mem : (k, o) ∈ (st.dict c a).items
  items : ∀ p, p ∈ d'.items ↔ p ∈ (st.dict c a).items ∧ p.1 ≠ k
  inv : LabelledDict.Inv d'
  key : d'.keyAttr = nameAttr
  log : d'.log = [.removed o] ∨ (b = true ∧ hasEq k = true ∧ ∃ ev, d'.log = [ev])

theorem delitem_dropped {st : State} (hi : MInv st) {c a : Nat} {k : Str} {d' : LD}
    (h : LabelledDict.delitem { st.dict c a with log := [] } k = (d', .ok ())) :
    ∃ o, Dropped true st c a d' k o := by
  have hinv : LabelledDict.Inv ({ st.dict c a with log := [] } : LD) := ⟨(hi.ld c a).nodup, (hi.ld c a).label⟩
  have hd := delitem_inv (k := k) hinv
  rw [h] at hd
  unfold LabelledDict.delitem at h
  split at h
  · simp at h
  · rename_i item hg
    split at h
    · rename_i hk
      simp only [Prod.mk.injEq, and_true] at h
      obtain ⟨o, ho⟩ := Option.isSome_iff_exists.1 (show (Dict.get? (st.dict c a).items k).isSome = true from hk)
      refine ⟨o, ⟨Dict.mem_of_get? ho, ?_, hd, ?_, ?_⟩⟩
      · intro p; rw [← h]; exact Dict.mem_del
      · rw [← h]; exact hi.key c a
      · rw [← h]
        by_cases he : hasEq k = true
        · exact .inr ⟨rfl, he, _, rfl⟩
        · left
          unfold getitem at hg
          simp only [he] at hg
          have : dictGet { st.dict c a with log := [] } k = .ok (.one o) := by
            unfold dictGet; simp [ho]
          simp only [Bool.false_eq_true, if_false, this, Except.ok.injEq] at hg
          rw [← hg]; rfl
    · simp at h

theorem pop_dropped {st : State} (hi : MInv st) {c a : Nat} {k : Str} {d' : LD} {o : Obj}
    (h : LabelledDict.pop { st.dict c a with log := [] } k = (d', .ok o)) :
    Dropped false st c a d' k o := by
  have hinv : LabelledDict.Inv ({ st.dict c a with log := [] } : LD) := ⟨(hi.ld c a).nodup, (hi.ld c a).label⟩
  have hd := pop_inv (k := k) hinv
  rw [h] at hd
  unfold LabelledDict.pop at h
  split at h
  · simp at h
  · rename_i o' ho
    simp only [Prod.mk.injEq, Except.ok.injEq] at h
    obtain ⟨h1, rfl⟩ := h
    refine ⟨Dict.mem_of_get? ho, ?_, hd, ?_, ?_⟩
    · intro p; rw [← h1]; exact Dict.mem_del
    · rw [← h1]; exact hi.key c a
    · rw [← h1]; exact .inl rfl

theorem popitem_dropped {st : State} (hi : MInv st) {c a : Nat} {k : Str} {d' : LD} {o : Obj}
    (h : LabelledDict.popitem { st.dict c a with log := [] } = (d', .ok (k, o))) :
    Dropped false st c a d' k o ∧ d'.items = (st.dict c a).items.dropLast ∧ d'.log = [.removed o] := by
  have hinv : LabelledDict.Inv ({ st.dict c a with log := [] } : LD) := ⟨(hi.ld c a).nodup, (hi.ld c a).label⟩
  have hd := popitem_inv hinv
  rw [h] at hd
  unfold LabelledDict.popitem at h
  split at h
  · simp at h
  · rename_i k' o' ho
    simp only [Prod.mk.injEq, Except.ok.injEq] at h
    obtain ⟨h1, rfl, rfl⟩ := h
    have ho' : (st.dict c a).items.getLast? = some (k', o') := ho
    have hsplit : (st.dict c a).items = (st.dict c a).items.dropLast ++ [(k', o')] := by
      rw [List.getLast?_eq_some_iff] at ho'
      obtain ⟨l, hl⟩ := ho'
      rw [hl]; simp
    have hnd := (hi.ld c a).nodup
    refine ⟨⟨?_, ?_, hd, ?_, ?_⟩, ?_, ?_⟩
    · rw [hsplit]; simp
    · intro p; rw [← h1]
      show p ∈ (st.dict c a).items.dropLast ↔ _
      rw [hsplit] at hnd
      simp only [Dict.keys, List.map_append, List.map_cons, List.map_nil, List.nodup_append, List.mem_map] at hnd
      constructor
      · intro hp
        exact ⟨by rw [hsplit]; simp [hp], fun he => hnd.2.2 p.1 ⟨p, hp, rfl⟩ k' (by simp) he⟩
      · rintro ⟨hp, hne⟩
        rw [hsplit] at hp
        rcases List.mem_append.1 hp with hp | hp
        · exact hp
        · simp at hp; rw [hp] at hne; exact absurd rfl hne
    · rw [← h1]; exact hi.key c a
    · rw [← h1]; exact .inl rfl
    · rw [← h1]
    · rw [← h1]; rfl

theorem Dropped.setDict_inv {st : State} (hi : MInv st) {c a : Nat} {d' : LD} {k : Str} {o : Obj} {b : Bool} (h : Dropped b st c a d' k o) :
    MInv (st.setDict c a { d' with log := [] }) :=
  hi.setDict ⟨h.inv.nodup, h.inv.label⟩ h.key (fun p hp => hi.obj c a p ((h.items p).1 hp).1)

theorem Dropped.holds {st : State} (hi : MInv st) {c a : Nat} {d' : LD} {k : Str} {o : Obj} {b : Bool} (h : Dropped b st c a d' k o)
    (c' a' y : Nat) : Holds (st.setDict c a { d' with log := [] }) c' a' y ↔
      Holds st c' a' y ∧ ¬ (c' = c ∧ a' = a ∧ st.name y = k) := by
  unfold Holds
  by_cases hca : c' = c ∧ a' = a
  · obtain ⟨rfl, rfl⟩ := hca
    simp only [State.setDict, and_self, if_true, true_and, h.items]
    constructor
    · rintro ⟨p, ⟨hp, hk⟩, rfl⟩
      exact ⟨⟨p, hp, rfl⟩, fun he => hk ((hi.obj _ _ p hp).2.2.trans he)⟩
    · rintro ⟨⟨p, hp, rfl⟩, hk⟩
      exact ⟨p, ⟨hp, fun he => hk ((hi.obj _ _ p hp).2.2.symm.trans he)⟩, rfl⟩
  · simp only [State.setDict, hca, if_false]
    constructor
    · intro h; exact ⟨h, fun ⟨h1, h2, _⟩ => hca ⟨h1, h2⟩⟩
    · exact fun h => h.1

theorem onEvents_one (st : State) (c : Nat) (ev : Event) : onEvents st c [ev] = onRemove st c ev := by
  unfold onEvents
  cases h : onRemove st c ev with
  | mk st' r => cases r with
    | error e => rfl
    | ok u => rfl

/-- The three ways to remove one object have one shape. -/
inductive Removal (b : Bool) (st : State) (c a : Nat) (k : Str) (res : State × Except Err Unit) : Prop
  | none (e : Err) (h : res = (st, .error e))
  | some (d' : LD) (o : Obj) (hd : Dropped b st c a d' k o)
      (h : res = onEvents (st.setDict c a { d' with log := [] }) c d'.log)

theorem del_removal {st : State} (hi : MInv st) (c a : Nat) (k : Str) : Removal true st c a k (del st c a k) := by
  unfold del
  cases h : LabelledDict.delitem { st.dict c a with log := [] } k with
  | mk d' r => cases r with
    | error e => exact .none e rfl
    | ok u =>
      obtain ⟨o, ho⟩ := delitem_dropped hi (show _ = (d', Except.ok ()) from h)
      exact .some d' o ho rfl

theorem pop_removal {st : State} (hi : MInv st) (c a : Nat) (k : Str) : Removal false st c a k (pop st c a k) := by
  unfold pop
  cases h : LabelledDict.pop { st.dict c a with log := [] } k with
  | mk d' r => cases r with
    | error e => exact .none e rfl
    | ok o => exact .some d' o (pop_dropped hi h) rfl

theorem popitem_removal {st : State} (hi : MInv st) (c a : Nat) :
    ∃ k, Removal false st c a k (popitem st c a) := by
  unfold popitem
  cases h : LabelledDict.popitem { st.dict c a with log := [] } with
  | mk d' r => cases r with
    | error e => exact ⟨[], .none e rfl⟩
    | ok p => exact ⟨p.1, .some d' p.2 (popitem_dropped hi h).1 rfl⟩

theorem Removal.inv {st : State} (hi : MInv st) {c a : Nat} {k : Str} {res : State × Except Err Unit}
    {b : Bool} (h : Removal b st c a k res) : MInv res.1 ∧ Frame st res.1 := by
  cases h with
  | none e h => rw [h]; exact ⟨hi, Frame.refl st⟩
  | some d' o hd h =>
    have i1 := hd.setDict_inv hi
    have f1 : Frame st (st.setDict c a { d' with log := [] }) := ⟨rfl, rfl, fun _ => rfl, fun _ => rfl⟩
    have : ∃ ev, d'.log = [ev] := by
      rcases hd.log with h | ⟨-, -, h⟩
      · exact ⟨_, h⟩
      · exact h
    obtain ⟨ev, hl⟩ := this
    rw [h, hl, onEvents_one]
    obtain ⟨g1, g2, -⟩ := onRemove_inv i1 c ev
    exact ⟨g1, f1.trans g2⟩

/-- what a removal leaves in the dictionaries -/
theorem Removal.holds {st : State} (hi : MInv st) {c a : Nat} {k : Str} {res : State × Except Err Unit}
    {b : Bool} (h : Removal b st c a k res) : res.1 = st ∨ ∀ c' a' y, Holds res.1 c' a' y ↔
      Holds st c' a' y ∧ ¬ (c' = c ∧ a' = a ∧ st.name y = k) := by
  cases h with
  | none e h => rw [h]; exact .inl rfl
  | some d' o hd h =>
    right
    have : ∃ ev, d'.log = [ev] := by
      rcases hd.log with h | ⟨-, -, h⟩
      · exact ⟨_, h⟩
      · exact h
    obtain ⟨ev, hl⟩ := this
    obtain ⟨-, -, g⟩ := onRemove_inv (hd.setDict_inv hi) c ev
    intro c' a' y
    rw [h, hl, onEvents_one, ← hd.holds hi c' a' y]
    simp only [Holds, g]

theorem clearLoop_inv : ∀ (k : Nat) {st : State} (_ : MInv st) (c a : Nat),
    MInv (clearLoop k st c a).1 ∧ Frame st (clearLoop k st c a).1 := by
  intro k
  induction k with
  | zero => intro st hi c a; exact ⟨hi, Frame.refl st⟩
  | succ k ih =>
    intro st hi c a
    unfold clearLoop
    split
    · exact ⟨hi, Frame.refl st⟩
    · obtain ⟨_, hr⟩ := popitem_removal hi c a
      obtain ⟨i1, f1⟩ := hr.inv hi
      cases h : popitem st c a with
      | mk st' r =>
        rw [h] at i1 f1
        cases r with
        | error e => exact ⟨i1, f1⟩
        | ok u =>
          obtain ⟨g1, g2⟩ := ih i1 c a
          exact ⟨g1, f1.trans g2⟩

/-! ### all operations -/

/-- what the guard of `step` ensures -/
def Valid (st : State) (op : Op) : Prop :=
  (∀ n ∈ op.args, n < st.w.size) ∧ ∀ c, op.self = some c → (st.w.node c).isCont = true

theorem step_cases (conf : Nat → Nat → Bool) (st : State) (op : Op) :
    step conf st op = (st, .error .unsupported) ∨ (Valid st op ∧ step conf st op = match op with
    | .new i t e n => (st.new i t e n, .ok ())
    | .setParent x p => ({ st with w := (Tree.setParent st.w x p).1 }, (Tree.setParent st.w x p).2)
    | .resetParent x => ({ st with w := (Tree.resetParent st.w x).1 }, (Tree.resetParent st.w x).2)
    | .add c a arg => add conf st c a arg
    | .create c a t e n => create conf st c a t e n
    | .assign c a arg => assign conf st c a arg
    | .del c a k => del st c a k
    | .pop c a k => pop st c a k
    | .popitem c a => popitem st c a
    | .clear c a => clear st c a) := by
  unfold step
  split
  · exact .inl rfl
  · rename_i hg
    right
    simp only [Bool.or_eq_true, not_or, List.any_eq_true, decide_eq_true_eq, not_exists, not_and, not_le] at hg
    refine ⟨⟨hg.1, ?_⟩, ?_⟩
    · intro c hc
      have h2 := hg.2
      rw [hc] at h2
      simpa using h2
    · cases op <;> rfl

theorem add_inv' (conf : Nat → Nat → Bool) {st : State} (hi : MInv st) (c a : Nat) (arg : Arg)
    (hx : ∀ x ∈ arg.objs, x < st.w.size) : MInv (add conf st c a arg).1 ∧ Frame st (add conf st c a arg).1 := by
  cases arg with
  | one x =>
    simp only [add]
    split
    · exact addLoop_inv [x] hi c a hx
    · exact ⟨hi, Frame.refl st⟩
  | many xs => exact addLoop_inv xs hi c a hx

theorem step_inv (conf : Nat → Nat → Bool) {st : State} (hi : MInv st) (op : Op) : MInv (step conf st op).1 := by
  rcases step_cases conf st op with h | ⟨⟨hv, -⟩, h⟩
  · rw [h]; exact hi
  · rw [h]
    cases op with
    | new i t e n => exact new_inv hi i t e n
    | setParent x p => exact hi.world (le_of_eq (setParent_frame st.w x p).1.symm)
    | resetParent x => exact hi.world (le_of_eq (resetParent_frame st.w x).1.symm)
    | add c a arg => exact (add_inv' conf hi c a arg (fun x hx => hv x (by simp [Op.args, Op.adds, hx]))).1
    | create c a t e n =>
      exact (add_inv' conf (new_inv hi true t e n) c a (.one st.w.size)
        (by intro x hx; simp [Arg.objs] at hx; subst hx; exact Nat.lt_succ_self _)).1
    | assign c a arg =>
      cases arg with
      | none => exact hi
      | some arg => cases arg with
        | one x => exact hi
        | many xs => exact (add_inv' conf hi c a (.many xs) (fun x hx => hv x (by simpa [Op.args, Op.adds] using .inr hx))).1
    | del c a k => exact ((del_removal hi c a k).inv hi).1
    | pop c a k => exact ((pop_removal hi c a k).inv hi).1
    | popitem c a => exact ((popitem_removal hi c a).choose_spec.inv hi).1
    | clear c a => exact (clearLoop_inv _ hi c a).1

theorem run_inv (conf : Nat → Nat → Bool) : ∀ (ops : List Op) {st : State}, MInv st → MInv (run conf st ops) := by
  intro ops
  induction ops with
  | nil => intro st hi; exact hi
  | cons op ops ih => intro st hi; exact ih (step_inv conf hi op)

/-! ### ownership -/

theorem setParent_owner {w : World} {x : Nat} {p : Par} {y : Nat} (h : (w.node y).parent ≠ .none) :
    ((setParent w x p).1.node y).parent ≠ .none := by
  rcases setParent_shape w x p with e | ⟨c, -, -, e⟩ | ⟨hx, -, e⟩
  · rw [e]; exact h
  · rw [e, (attach_same w x c).parent, attached_parent]
    split
    · simp
    · exact h
  · rw [e]
    simp only [upd_node]
    split
    · rename_i hy; subst hy; exact absurd hx h
    · exact h

theorem setField_owner {w : World} {c x : Nat} {y : Nat} (h : (w.node y).parent ≠ .none) :
    ((setField w c x).1.node y).parent ≠ .none := by
  unfold setField
  split
  · rw [(setModified_same w c true).parent]; exact h
  · exact setParent_owner h

theorem setField_owned {w : World} {c x : Nat} (h : (setField w c x).2 = .ok ()) :
    ((setField w c x).1.node x).parent ≠ .none := by
  unfold setField at h ⊢
  cases hp : w.contParent x with
  | some p =>
    simp only
    rw [(setModified_same w c true).parent]
    unfold World.contParent at hp
    intro h0; rw [h0] at hp; simp at hp
  | none =>
    simp only [hp] at h ⊢
    by_cases hx : (w.node x).parent = .none
    · rcases setParent_shape w x (.cont c) with e | ⟨c', e', -, e⟩ | ⟨-, -, e⟩
      · exfalso
        have h2 := e
        unfold setParent at h2
        rw [hx] at h2
        simp only [reduceCtorEq, if_false] at h2
        by_cases hc : (w.node c).isCont = true
        · simp only [hc, if_true] at h2
          have := attached_parent w x c x
          rw [← (attach_same w x c).parent, h2, hx] at this
          simp at this
        · simp only [hc] at h2
          have : ((w.upd x fun n => { n with parent := .cont c }).node x).parent = .cont c := by simp
          simp only [Bool.false_eq_true, if_false] at h2
          rw [h2, hx] at this
          simp at this
      · simp only [Par.cont.injEq] at e'
        subst e'
        rw [e, (attach_same w x c).parent, attached_parent]
        simp
      · rw [e]; simp
    · exact setParent_owner hx

theorem removeChild_owner {w : World} {c x y : Nat} (hy : y ≠ x) (h : (w.node y).parent ≠ .none) :
    ((removeChild w c x).1.node y).parent ≠ .none := by
  rcases removeChild_shape w c x with ⟨e, -, -⟩ | ⟨-, e⟩
  · rw [e]; exact h
  · rw [e.parent, removed_parent]; simp only [hy, if_false]; exact h

/-- every object in a dictionary has a parent -/
def Owned (st : State) : Prop := ∀ c a x, Holds st c a x → (st.w.node x).parent ≠ .none

theorem addOne_owned {st : State} (hi : MInv st) (ho : Owned st) (c a x : Nat) : Owned (addOne st c a x).1 := by
  intro c' a' y hy
  have hw : (addOne st c a x).1.w = (setField st.w c x).1 := by
    rcases addOne_cases hi.key c a x with ⟨e, h, -⟩ | ⟨-, -, h⟩ <;> rw [h] <;> rfl
  rw [hw]
  rcases (addOne_holds hi c a x c' a' y).1 hy with h | ⟨h, -, -, rfl⟩
  · exact setField_owner (ho c' a' y h)
  · rcases addOne_cases hi.key c a y with ⟨e, h', -⟩ | ⟨h', -, -⟩
    · rw [h'] at h; simp at h
    · exact setField_owned h'

theorem addLoop_owned : ∀ (xs : List Nat) {st : State} (_ : MInv st) (_ : Owned st) (c a : Nat)
    (_ : ∀ x ∈ xs, x < st.w.size), Owned (addLoop st c a xs).1 := by
  intro xs
  induction xs with
  | nil => intro st _ ho c a _; exact ho
  | cons x xs ih =>
    intro st hi ho c a hx
    unfold addLoop
    have o1 := addOne_owned hi ho c a x
    have i1 := addOne_inv hi c a x (hx x (by simp))
    have f1 := addOne_frame hi c a x
    cases h : addOne st c a x with
    | mk st' r =>
      rw [h] at o1 i1 f1
      cases r with
      | error e => exact o1
      | ok u => exact ih i1 o1 c a (fun y hy => by rw [f1.size]; exact hx y (by simp [hy]))

theorem add_owned (conf : Nat → Nat → Bool) {st : State} (hi : MInv st) (ho : Owned st) (c a : Nat) (arg : Arg)
    (hx : ∀ x ∈ arg.objs, x < st.w.size) : Owned (add conf st c a arg).1 := by
  cases arg with
  | one x =>
    simp only [add]
    split
    · exact addLoop_owned [x] hi ho c a hx
    · exact ho
  | many xs => exact addLoop_owned xs hi ho c a hx

theorem new_owned {st : State} (hi : MInv st) (ho : Owned st) (i : Bool) (t : Nat) (e : Option Nat) (n : Str) :
    Owned (st.new i t e n) := by
  rintro c a x ⟨p, hp, rfl⟩
  have h1 := (hi.obj c a p hp).1
  have : (((st.new i t e n).w).node p.2.id) = st.w.node p.2.id := by
    simp only [State.new, World.new]
    rw [if_neg (Nat.ne_of_lt h1)]
  rw [this]
  exact ho c a _ ⟨p, hp, rfl⟩

/-- the operations that take a parent away -/
def Op.removes : Op → Bool
  | .resetParent _ | .del _ _ _ | .pop _ _ _ | .popitem _ _ | .clear _ _ => true
  | _ => false

theorem step_owned (conf : Nat → Nat → Bool) {st : State} (hi : MInv st) (ho : Owned st) {op : Op} (hr : op.removes = false) :
    Owned (step conf st op).1 := by
  rcases step_cases conf st op with h | ⟨⟨hv, -⟩, h⟩
  · rw [h]; exact ho
  · rw [h]
    cases op with
    | new i t e n => exact new_owned hi ho i t e n
    | setParent x p => exact fun c a y hy => setParent_owner (ho c a y hy)
    | add c a arg => exact add_owned conf hi ho c a arg (fun x hx => hv x (by simp [Op.args, Op.adds, hx]))
    | create c a t e n =>
      exact add_owned conf (new_inv hi true t e n) (new_owned hi ho true t e n) c a (.one st.w.size)
        (by intro x hx; simp [Arg.objs] at hx; subst hx; exact Nat.lt_succ_self _)
    | assign c a arg =>
      cases arg with
      | none => exact ho
      | some arg => cases arg with
        | one x => exact ho
        | many xs => exact add_owned conf hi ho c a (.many xs) (fun x hx => hv x (by simpa [Op.args, Op.adds] using .inr hx))
    | resetParent x => simp [Op.removes] at hr
    | del c a k => simp [Op.removes] at hr
    | pop c a k => simp [Op.removes] at hr
    | popitem c a => simp [Op.removes] at hr
    | clear c a => simp [Op.removes] at hr

/-- no object is in two dictionaries -/
def Excl (st : State) : Prop := ∀ c a c' a' x, Holds st c a x → Holds st c' a' x → c = c' ∧ a = a'

theorem Removal.owned {st : State} (hi : MInv st) (ho : Owned st) (he : Excl st) {c a : Nat} {k : Str}
    {res : State × Except Err Unit} {b : Bool} (h : Removal b st c a k res)
    (hb : b = true → hasEq k = false) : Owned res.1 ∧ Excl res.1 := by
  have hh := h.holds hi
  cases h with
  | none e h => rw [h]; exact ⟨ho, he⟩
  | some d' o hd h =>
    constructor
    · have hl : d'.log = [.removed o] := by
        rcases hd.log with h | ⟨h1, h2, -⟩
        · exact h
        · rw [hb h1] at h2; simp at h2
      have hs : ∀ c' a' y, Holds (st.setDict c a { d' with log := [] }) c' a' y →
          (st.w.node y).parent ≠ .none := fun c' a' y hy => ho c' a' y (((hd.holds hi c' a' y).1 hy).1)
      rw [h, hl, onEvents_one]
      rcases onRemove_cases (st.setDict c a { d' with log := [] }) c (.removed o) with e | ⟨o', hev', hp, e⟩
      · rw [e]; exact hs
      · rw [e]
        simp only [Event.removed.injEq] at hev'
        subst hev'
        intro c' a' y hy
        have hy' : Holds (st.setDict c a { d' with log := [] }) c' a' y := hy
        by_cases hyo : y = o.id
        · -- the object taken away is nowhere else
          exfalso
          obtain ⟨g1, g2, g3⟩ := hi.obj c a _ hd.mem
          obtain ⟨k1, k2⟩ := (hd.holds hi c' a' y).1 hy'
          obtain ⟨rfl, rfl⟩ := he c' a' c a y k1 ⟨_, hd.mem, hyo.symm⟩
          exact k2 ⟨rfl, rfl, by rw [hyo]; exact g3.symm⟩
        · exact removeChild_owner hyo (hs c' a' y hy')
    · rcases hh with e | hh
      · rw [e]; exact he
      · intro c1 a1 c2 a2 x h1 h2
        exact he c1 a1 c2 a2 x ((hh c1 a1 x).1 h1).1 ((hh c2 a2 x).1 h2).1

theorem clearLoop_owned : ∀ (k : Nat) {st : State} (_ : MInv st) (_ : Owned st) (_ : Excl st) (c a : Nat),
    Owned (clearLoop k st c a).1 ∧ Excl (clearLoop k st c a).1 := by
  intro k
  induction k with
  | zero => intro st _ ho he c a; exact ⟨ho, he⟩
  | succ k ih =>
    intro st hi ho he c a
    unfold clearLoop
    split
    · exact ⟨ho, he⟩
    · obtain ⟨_, hr⟩ := popitem_removal hi c a
      obtain ⟨i1, -⟩ := hr.inv hi
      obtain ⟨o1, e1⟩ := hr.owned hi ho he (by simp)
      cases h : popitem st c a with
      | mk st' r =>
        rw [h] at i1 o1 e1
        cases r with
        | error e => exact ⟨o1, e1⟩
        | ok u => exact ih i1 o1 e1 c a

/-- An operation that shares nothing and detaches nothing but through the dictionaries: what it adds is in no dictionary yet,
and is not given twice; keys to delete have no `==`. -/
def Fair (st : State) (op : Op) : Prop :=
  (∀ x ∈ op.adds, ∀ c a, ¬ Holds st c a x) ∧ (∀ x, op ≠ .resetParent x) ∧ (∀ c a k, op = .del c a k → hasEq k = false)

theorem add_excl {st : State} (hi : MInv st) (he : Excl st) (c a : Nat) (xs : List Nat)
    (hx : ∀ x ∈ xs, x < st.w.size) (hf : ∀ x ∈ xs, ∀ c a, ¬ Holds st c a x) : Excl (addLoop st c a xs).1 := by
  obtain ⟨ys, hp, -, hh⟩ := addLoop_holds xs hi c a hx
  intro c1 a1 c2 a2 x h1 h2
  rw [hh] at h1 h2
  rcases h1 with h1 | ⟨rfl, rfl, h1⟩ <;> rcases h2 with h2 | ⟨rfl, rfl, h2⟩
  · exact he _ _ _ _ x h1 h2
  · exact absurd h1 (hf x (hp.subset h2) _ _)
  · exact absurd h2 (hf x (hp.subset h1) _ _)
  · exact ⟨rfl, rfl⟩

theorem step_fair (conf : Nat → Nat → Bool) {st : State} (hi : MInv st) (ho : Owned st) (he : Excl st) {op : Op}
    (hf : Fair st op) : Owned (step conf st op).1 ∧ Excl (step conf st op).1 := by
  rcases step_cases conf st op with h | ⟨⟨hv, -⟩, h⟩
  · rw [h]; exact ⟨ho, he⟩
  · have hr := step_owned conf hi ho (op := op)
    rw [h] at hr ⊢
    cases op with
    | new i t e n => exact ⟨hr rfl, he⟩
    | setParent x p => exact ⟨hr rfl, he⟩
    | add c a arg =>
      refine ⟨hr rfl, ?_⟩
      have hx : ∀ x ∈ arg.objs, x < st.w.size := fun x hx => hv x (by simp [Op.args, Op.adds, hx])
      cases arg with
      | one x =>
        simp only [add]
        split
        · exact add_excl hi he c a [x] hx hf.1
        · exact he
      | many xs => exact add_excl hi he c a xs hx hf.1
    | create c a t e n =>
      refine ⟨hr rfl, ?_⟩
      simp only [create, add]
      split
      · refine add_excl (new_inv hi true t e n) he c a _ (by simp [State.new, World.new]) ?_
        intro x hx c' a' hh
        simp at hx; subst hx
        obtain ⟨p, hp, hpe⟩ := hh
        exact Nat.lt_irrefl _ (hpe ▸ (hi.obj c' a' p hp).1)
      · exact he
    | assign c a arg =>
      refine ⟨hr rfl, ?_⟩
      cases arg with
      | none => exact he
      | some arg => cases arg with
        | one x => exact he
        | many xs => exact add_excl hi he c a xs (fun x hx => hv x (by simpa [Op.args, Op.adds] using .inr hx)) hf.1
    | resetParent x => exact absurd rfl (hf.2.1 x)
    | del c a k => exact (del_removal hi c a k).owned hi ho he (fun _ => hf.2.2 c a k rfl)
    | pop c a k => exact (pop_removal hi c a k).owned hi ho he (by simp)
    | popitem c a => exact (popitem_removal hi c a).choose_spec.owned hi ho he (by simp)
    | clear c a => exact clearLoop_owned _ hi ho he c a

/-! ### the tree -/

theorem setField_tinv {w : World} (h : Tree.Inv w) {c x : Nat} (hc : c < w.size) (hx : x < w.size) :
    Tree.Inv (setField w c x).1 := by
  have e : Tree.step w (.setField c x) = setField w c x := by
    unfold Tree.step; simp [Tree.Op.args, hc, hx]
  rw [← e]; exact h.step trivial

theorem removeChild_tinv {w : World} (h : Tree.Inv w) {c x : Nat} (hc : c < w.size) (hx : x < w.size) :
    Tree.Inv (removeChild w c x).1 := by
  have e : Tree.step w (.removeChild c x) = removeChild w c x := by
    unfold Tree.step; simp [Tree.Op.args, hc, hx]
  rw [← e]; exact h.step trivial

theorem addLoop_tinv : ∀ (xs : List Nat) {st : State} (_ : MInv st) (_ : Tree.Inv st.w) (c a : Nat) (_ : c < st.w.size)
    (_ : ∀ x ∈ xs, x < st.w.size), Tree.Inv (addLoop st c a xs).1.w := by
  intro xs
  induction xs with
  | nil => intro st _ ht c a _ _; exact ht
  | cons x xs ih =>
    intro st hi ht c a hc hx
    unfold addLoop
    have hw : (addOne st c a x).1.w = (setField st.w c x).1 := by
      rcases addOne_cases hi.key c a x with ⟨e, h, -⟩ | ⟨-, -, h⟩ <;> rw [h] <;> rfl
    have t1 : Tree.Inv (addOne st c a x).1.w := by rw [hw]; exact setField_tinv ht hc (hx x (by simp))
    have i1 := addOne_inv hi c a x (hx x (by simp))
    have f1 := addOne_frame hi c a x
    cases h : addOne st c a x with
    | mk st' r =>
      rw [h] at t1 i1 f1
      cases r with
      | error e => exact t1
      | ok u =>
        exact ih i1 t1 c a (by rw [f1.size]; exact hc) (fun y hy => by rw [f1.size]; exact hx y (by simp [hy]))

theorem add_tinv (conf : Nat → Nat → Bool) {st : State} (hi : MInv st) (ht : Tree.Inv st.w) (c a : Nat) (arg : Arg)
    (hc : c < st.w.size) (hx : ∀ x ∈ arg.objs, x < st.w.size) : Tree.Inv (add conf st c a arg).1.w := by
  cases arg with
  | one x =>
    simp only [add]
    split
    · exact addLoop_tinv [x] hi ht c a hc hx
    · exact ht
  | many xs => exact addLoop_tinv xs hi ht c a hc hx

theorem new_tinv {st : State} (ht : Tree.Inv st.w) (i : Bool) (t : Nat) (n : Str) : Tree.Inv (st.new i t none n).w := by
  have : (st.new i t none n).w = (Tree.step st.w (.new i t none)).1 := by
    unfold Tree.step; simp [Tree.Op.args, State.new]
  rw [this]; exact ht.step trivial

theorem getitem_mem {d : LD} {k : Str} {o : Obj} (h : getitem d k = .ok (.one o)) : ∃ k', (k', o) ∈ d.items := by
  unfold getitem at h
  have hg : ∀ k, dictGet d k = .ok (.one o) → ∃ k', (k', o) ∈ d.items := by
    intro k hk
    unfold dictGet at hk
    split at hk
    · rename_i o' ho
      simp at hk; subst hk
      exact ⟨k, Dict.mem_of_get? ho⟩
    · simp at hk
  split at h
  · split at h
    · simp only at h
      split at h
      · simp at h
      · split at h
        · simp at h
        · split at h
          · simp at h
          · exact hg _ h
    · simp at h
  · exact hg _ h

/-- the objects given to the callback exist -/
theorem onEvents_tinv {st : State} (ht : Tree.Inv st.w) {c : Nat} (hc : c < st.w.size) {ev : Event}
    (ho : ∀ o, ev = .removed o → o.id < st.w.size) : Tree.Inv (onEvents st c [ev]).1.w := by
  rw [onEvents_one]
  rcases onRemove_cases st c ev with e | ⟨o, hev, -, e⟩
  · rw [e]; exact ht
  · rw [e]; exact removeChild_tinv ht hc (ho o hev)

theorem del_tinv {st : State} (hi : MInv st) (ht : Tree.Inv st.w) {c : Nat} (hc : c < st.w.size) (a : Nat) (k : Str) :
    Tree.Inv (del st c a k).1.w := by
  unfold del
  cases h : LabelledDict.delitem { st.dict c a with log := [] } k with
  | mk d' r => cases r with
    | error e => exact ht
    | ok u =>
      simp only
      have h' := h
      unfold LabelledDict.delitem at h'
      split at h'
      · simp at h'
      · rename_i item hg
        split at h'
        · simp only [Prod.mk.injEq, and_true] at h'
          rw [← h']
          simp only [List.nil_append]
          refine onEvents_tinv (st := st.setDict c a _) ht hc ?_
          intro o ho
          cases item with
          | set os => simp at ho
          | one o' =>
            simp at ho; subst ho
            obtain ⟨k', hm⟩ := getitem_mem hg
            exact (hi.obj c a _ hm).1
        · simp at h'

theorem Removal.tinv {st : State} (hi : MInv st) (ht : Tree.Inv st.w) {c : Nat} (hc : c < st.w.size) {a : Nat} {k : Str}
    {res : State × Except Err Unit} (h : Removal false st c a k res) : Tree.Inv res.1.w := by
  cases h with
  | none e h => rw [h]; exact ht
  | some d' o hd h =>
    have hl : d'.log = [.removed o] := by
      rcases hd.log with h | ⟨h1, -⟩
      · exact h
      · simp at h1
    rw [h, hl]
    refine onEvents_tinv (st := st.setDict c a _) ht hc ?_
    intro o' ho
    simp at ho; subst ho
    exact (hi.obj c a _ hd.mem).1

theorem clearLoop_tinv : ∀ (k : Nat) {st : State} (_ : MInv st) (_ : Tree.Inv st.w) (c a : Nat) (_ : c < st.w.size),
    Tree.Inv (clearLoop k st c a).1.w := by
  intro k
  induction k with
  | zero => intro st _ ht c a _; exact ht
  | succ k ih =>
    intro st hi ht c a hc
    unfold clearLoop
    split
    · exact ht
    · obtain ⟨_, hr⟩ := popitem_removal hi c a
      obtain ⟨i1, f1⟩ := hr.inv hi
      have t1 := hr.tinv hi ht hc
      cases h : popitem st c a with
      | mk st' r =>
        rw [h] at i1 f1 t1
        cases r with
        | error e => exact t1
        | ok u => exact ih i1 t1 c a (by rw [f1.size]; exact hc)

/-- objects compared by identity -/
def Op.plain : Op → Prop
  | .new _ _ (some _) _ => False
  | .create _ _ _ (some _) _ => False
  | _ => True

theorem step_tinv (conf : Nat → Nat → Bool) {st : State} (hi : MInv st) (ht : Tree.Inv st.w) {op : Op} (hp : op.plain) :
    Tree.Inv (step conf st op).1.w := by
  rcases step_cases conf st op with h | ⟨⟨hv, -⟩, h⟩
  · rw [h]; exact ht
  · rw [h]
    cases op with
    | new i t e n => cases e with
      | none => exact new_tinv ht i t n
      | some k => exact hp.elim
    | setParent x p =>
      have e : Tree.step st.w (.setParent x p) = Tree.setParent st.w x p := by
        unfold Tree.step
        rw [if_neg]
        intro hh
        obtain ⟨n, hn, hle⟩ := List.any_eq_true.1 hh
        have := hv n (by cases p <;> simpa [Op.args, Tree.Op.args] using hn)
        simp at hle; omega
      simp only [← e]; exact ht.step trivial
    | resetParent x =>
      have e : Tree.step st.w (.resetParent x) = Tree.resetParent st.w x := by
        unfold Tree.step
        rw [if_neg]
        intro hh
        obtain ⟨n, hn, hle⟩ := List.any_eq_true.1 hh
        have := hv n (by simpa [Op.args, Tree.Op.args] using hn)
        simp at hle; omega
      simp only [← e]; exact ht.step trivial
    | add c a arg =>
      exact add_tinv conf hi ht c a arg (hv c (by simp [Op.args, Op.self])) (fun x hx => hv x (by simp [Op.args, Op.adds, hx]))
    | create c a t e n => cases e with
      | none =>
        exact add_tinv conf (new_inv hi true t none n) (new_tinv ht true t n) c a (.one st.w.size)
          (Nat.lt_succ_of_lt (hv c (by simp [Op.args, Op.self])))
          (by intro x hx; simp [Arg.objs] at hx; subst hx; exact Nat.lt_succ_self _)
      | some k => exact hp.elim
    | assign c a arg =>
      cases arg with
      | none => exact ht
      | some arg => cases arg with
        | one x => exact ht
        | many xs =>
          exact add_tinv conf hi ht c a (.many xs) (hv c (by simp [Op.args, Op.self]))
            (fun x hx => hv x (by simpa [Op.args, Op.adds] using .inr hx))
    | del c a k => exact del_tinv hi ht (hv c (by simp [Op.args, Op.self])) a k
    | pop c a k => exact (pop_removal hi c a k).tinv hi ht (hv c (by simp [Op.args, Op.self]))
    | popitem c a => exact (popitem_removal hi c a).choose_spec.tinv hi ht (hv c (by simp [Op.args, Op.self]))
    | clear c a => exact clearLoop_tinv _ hi ht c a (hv c (by simp [Op.args, Op.self]))

theorem run_tinv (conf : Nat → Nat → Bool) : ∀ (ops : List Op) {st : State}, MInv st → Tree.Inv st.w →
    (∀ op ∈ ops, op.plain) → Tree.Inv (run conf st ops).w := by
  intro ops
  induction ops with
  | nil => intro st _ ht _; exact ht
  | cons op ops ih =>
    intro st hi ht hp
    exact ih (step_inv conf hi op) (step_tinv conf hi ht (hp op (by simp))) (fun o ho => hp o (by simp [ho]))

/-- What a removal that succeeds does to the tree. -/
theorem Removal.detached {st : State} {c a : Nat} {k : Str} {st' : State} {b : Bool}
    (h : Removal b st c a k (st', .ok ())) (hb : b = true → hasEq k = false) :
    ∃ o, (k, o) ∈ (st.dict c a).items ∧
      (((st.w.node o.id).parent = .cont c ∧ SameTree (removed st.w c o.id) st'.w) ∨
       ((st.w.node o.id).parent ≠ .cont c ∧ st'.w = st.w)) := by
  cases h with
  | none e h => simp at h
  | some d' o hd h =>
    refine ⟨o, hd.mem, ?_⟩
    have hl : d'.log = [.removed o] := by
      rcases hd.log with h | ⟨h1, h2, -⟩
      · exact h
      · rw [hb h1] at h2; simp at h2
    rw [hl, onEvents_one] at h
    unfold onRemove at h
    by_cases hp : (st.w.node o.id).parent = .cont c
    · left
      refine ⟨hp, ?_⟩
      have hp' : ((st.setDict c a { d' with log := [] }).w.node o.id).parent = .cont c := hp
      simp only [hp', if_true] at h
      have hw : (st.setDict c a { d' with log := [] }).w = st.w := rfl
      rw [hw] at h
      rcases removeChild_shape st.w c o.id with ⟨-, e, -⟩ | ⟨-, e⟩
      · rw [Prod.ext_iff] at h
        rw [← h.2] at e; simp at e
      · rw [Prod.ext_iff] at h
        have h1 : st' = _ := h.1
        rw [h1]; exact e
    · right
      refine ⟨hp, ?_⟩
      have hp' : ((st.setDict c a { d' with log := [] }).w.node o.id).parent ≠ .cont c := hp
      simp only [hp', if_false] at h
      simp only [Prod.mk.injEq] at h
      rw [h.1]; rfl

/-! ### types -/

/-- everything in a dictionary is of the declared types -/
def Typed (conf : Nat → Nat → Bool) (st : State) : Prop := ∀ c a x, Holds st c a x → conf a (st.w.node x).dtype = true

theorem addLoop_typed (conf : Nat → Nat → Bool) {st : State} (hi : MInv st) (ht : Typed conf st) (c a : Nat) (xs : List Nat)
    (hx : ∀ x ∈ xs, x < st.w.size) (hc : ∀ x ∈ xs, conf a (st.w.node x).dtype = true) : Typed conf (addLoop st c a xs).1 := by
  obtain ⟨ys, hp, -, hh⟩ := addLoop_holds xs hi c a hx
  have f := (addLoop_inv xs hi c a hx).2
  intro c' a' y hy
  rw [f.dtype]
  rcases (hh c' a' y).1 hy with h | ⟨rfl, rfl, h⟩
  · exact ht c' a' y h
  · exact hc y (hp.subset h)

theorem new_typed (conf : Nat → Nat → Bool) {st : State} (hi : MInv st) (ht : Typed conf st) (i : Bool) (t : Nat)
    (e : Option Nat) (n : Str) : Typed conf (st.new i t e n) := by
  rintro c a x ⟨p, hp, rfl⟩
  have h1 := (hi.obj c a p hp).1
  have : (((st.new i t e n).w).node p.2.id) = st.w.node p.2.id := by
    simp only [State.new, World.new]
    rw [if_neg (Nat.ne_of_lt h1)]
  rw [this]
  exact ht c a _ ⟨p, hp, rfl⟩

theorem Removal.typed (conf : Nat → Nat → Bool) {st : State} (hi : MInv st) (ht : Typed conf st) {c a : Nat} {k : Str}
    {res : State × Except Err Unit} {b : Bool} (h : Removal b st c a k res) : Typed conf res.1 := by
  have f := (h.inv hi).2
  rcases h.holds hi with e | hh
  · rw [e]; exact ht
  · intro c' a' y hy
    rw [f.dtype]
    exact ht c' a' y ((hh c' a' y).1 hy).1

theorem clearLoop_typed (conf : Nat → Nat → Bool) : ∀ (k : Nat) {st : State} (_ : MInv st) (_ : Typed conf st) (c a : Nat),
    Typed conf (clearLoop k st c a).1 := by
  intro k
  induction k with
  | zero => intro st _ ht c a; exact ht
  | succ k ih =>
    intro st hi ht c a
    unfold clearLoop
    split
    · exact ht
    · obtain ⟨_, hr⟩ := popitem_removal hi c a
      obtain ⟨i1, -⟩ := hr.inv hi
      have t1 := hr.typed conf hi ht
      cases h : popitem st c a with
      | mk st' r =>
        rw [h] at i1 t1
        cases r with
        | error e => exact t1
        | ok u => exact ih i1 t1 c a

theorem step_typed (conf : Nat → Nat → Bool) {st : State} (hi : MInv st) (ht : Typed conf st) {op : Op}
    (hf : ∀ c a xs, (op = .add c a (.many xs) ∨ op = .assign c a (some (.many xs))) →
        ∀ x ∈ xs, conf a (st.w.node x).dtype = true) : Typed conf (step conf st op).1 := by
  rcases step_cases conf st op with h | ⟨⟨hv, -⟩, h⟩
  · rw [h]; exact ht
  · rw [h]
    cases op with
    | new i t e n => exact new_typed conf hi ht i t e n
    | setParent x p => intro c a y hy; simp only [(setParent_frame st.w x p).2.2]; exact ht c a y hy
    | resetParent x => intro c a y hy; simp only [(resetParent_frame st.w x).2.2]; exact ht c a y hy
    | add c a arg =>
      have hx : ∀ x ∈ arg.objs, x < st.w.size := fun x hx => hv x (by simp [Op.args, Op.adds, hx])
      cases arg with
      | one x =>
        simp only [add]
        split
        · rename_i hc
          exact addLoop_typed conf hi ht c a [x] hx (by simpa using hc)
        · exact ht
      | many xs => exact addLoop_typed conf hi ht c a xs hx (hf c a xs (.inl rfl))
    | create c a t e n =>
      simp only [create, add]
      split
      · rename_i hc
        exact addLoop_typed conf (new_inv hi true t e n) (new_typed conf hi ht true t e n) c a _
          (by simp [State.new, World.new]) (by simpa using hc)
      · exact new_typed conf hi ht true t e n
    | assign c a arg =>
      cases arg with
      | none => exact ht
      | some arg => cases arg with
        | one x => exact ht
        | many xs =>
          exact addLoop_typed conf hi ht c a xs (fun x hx => hv x (by simpa [Op.args, Op.adds] using .inr hx))
            (hf c a xs (.inr rfl))
    | del c a k => exact (del_removal hi c a k).typed conf hi ht
    | pop c a k => exact (pop_removal hi c a k).typed conf hi ht
    | popitem c a => exact (popitem_removal hi c a).choose_spec.typed conf hi ht
    | clear c a => exact clearLoop_typed conf _ hi ht c a

end Verif.Multi

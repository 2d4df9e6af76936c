import Verif.Model.LabelledDict

namespace Verif.LabelledDict
open Verif

/-- representation invariant (helper) -/
structure Inv (d : LD) : Prop where
  nodup : (Dict.keys d.items).Nodup
  label : ∀ p ∈ d.items, p.2.attr d.keyAttr = some p.1

theorem setitem_inv {d : LD} {k v} (h : Inv d) : Inv (setitem d k v).1 := by
  unfold setitem
  split
  · exact h
  · split
    · exact h
    · rename_i a ha
      split
      · exact h
      · rename_i hk
        have hk : k = a := Decidable.not_not.1 hk
        refine ⟨Dict.set_nodup h.nodup, ?_⟩
        intro p hp
        rcases Dict.set_mem hp with rfl | hp
        · simp [ha, hk]
        · exact h.label p hp

theorem add_inv {d : LD} {v} (h : Inv d) : Inv (add d v).1 := by
  unfold add; split
  · exact h
  · exact setitem_inv h

theorem del_inv {d : LD} {k l} (h : Inv d) : Inv { d with items := d.items.del k, log := l } :=
  ⟨Dict.del_nodup h.nodup, fun p hp => h.label p (Dict.mem_del.1 hp).1⟩

theorem pop_inv {d : LD} {k} (h : Inv d) : Inv (pop d k).1 := by
  unfold pop; split
  · exact h
  · exact del_inv h

theorem popitem_inv {d : LD} (h : Inv d) : Inv (popitem d).1 := by
  unfold popitem; split
  · exact h
  · refine ⟨?_, fun p hp => h.label p ((List.dropLast_sublist _).subset hp)⟩
    have : (Dict.keys d.items.dropLast).Sublist (Dict.keys d.items) :=
      (List.dropLast_sublist _).map _
    exact this.nodup h.nodup

theorem clearLoop_inv {n} {d : LD} (h : Inv d) : Inv (clearLoop n d) := by
  induction n generalizing d with
  | zero => exact h
  | succ n ih => unfold clearLoop; split
                 · exact h
                 · exact ih (popitem_inv h)

theorem delitem_inv {d : LD} {k} (h : Inv d) : Inv (delitem d k).1 := by
  unfold delitem; split
  · exact h
  · split
    · exact del_inv h
    · exact h

theorem step_state {d : LD} {o : Op} : (step d o).1 =
    (match o with
    | .setitem k v => (setitem d k v).1 | .add v => (add d v).1 | .pop k => (pop d k).1
    | .popitem => (popitem d).1 | .clear => (clear d).1 | .delitem k => (delitem d k).1
    | .setdefault _ => d | .update => d) := by
  cases o <;> simp only [step] <;> split <;> simp_all

theorem step_inv {d : LD} {o : Op} (h : Inv d) : Inv (step d o).1 := by
  rw [step_state]
  cases o with
  | setitem k v => exact setitem_inv h
  | add v => exact add_inv h
  | pop k => exact pop_inv h
  | popitem => exact popitem_inv h
  | clear => exact clearLoop_inv h
  | delitem k => exact delitem_inv h
  | setdefault k => exact h
  | update => exact h

theorem foldl_inv {d : LD} {ops : List Op} (h : Inv d) : Inv (ops.foldl (fun d o => (step d o).1) d) := by
  induction ops generalizing d with
  | nil => exact h
  | cons o ops ih => exact ih (step_inv h)

theorem run_inv (ka : Str) (ops : List Op) : Inv (run ka ops) :=
  foldl_inv ⟨by simp [init, Dict.keys], by simp [init]⟩

theorem clearLoop_nil (n : Nat) (d : LD) (h : d.items.length ≤ n) : (clearLoop n d).items = [] := by
  induction n generalizing d with
  | zero => simpa [clearLoop] using h
  | succ n ih =>
    unfold clearLoop; split
    · rename_i h0; simpa using h0
    · apply ih
      unfold popitem
      split <;> rename_i hl
      · rw [List.getLast?_eq_none_iff] at hl; simp [hl]
      · simp; omega

end Verif.LabelledDict

namespace Verif.LabelledDict
open Verif

theorem step_keyAttr (o : Op) (d : LD) : (step d o).1.keyAttr = d.keyAttr := by
  rw [step_state]
  have hp : ∀ d : LD, (popitem d).1.keyAttr = d.keyAttr := by
    intro d; unfold popitem; split <;> rfl
  have hc : ∀ n (d : LD), (clearLoop n d).keyAttr = d.keyAttr := by
    intro n; induction n with
    | zero => intro d; rfl
    | succ n ih => intro d; unfold clearLoop; split
                   · rfl
                   · rw [ih, hp]
  have hs : ∀ k v, (setitem d k v).1.keyAttr = d.keyAttr := by
    intro k v; unfold setitem; split
    · rfl
    · split
      · rfl
      · split <;> rfl
  cases o with
  | setitem k v => exact hs k v
  | add v => simp only [add]; split
             · rfl
             · exact hs _ v
  | pop k => simp only [pop]; split <;> rfl
  | popitem => exact hp d
  | clear => exact hc _ d
  | delitem k => simp only [delitem]; split
                 · rfl
                 · split <;> rfl
  | setdefault k => rfl
  | update => rfl

theorem run_keyAttr (ka : Str) (ops : List Op) : (run ka ops).keyAttr = ka := by
  unfold run
  suffices ∀ (ops : List Op) (d : LD), (ops.foldl (fun d o => (step d o).1) d).keyAttr = d.keyAttr from
    this ops (init ka)
  intro ops
  induction ops with
  | nil => intro d; rfl
  | cons o ops ih => intro d; rw [List.foldl_cons, ih, step_keyAttr]

/-- removals in the log, counted per object (helper) -/
def cnt (o : Obj) (l : List Event) : Int := ((l.count (.added o) : Nat) : Int) - (l.count (.removed o) : Nat)

theorem cnt_append (o : Obj) (l m : List Event) : cnt o (l ++ m) = cnt o l + cnt o m := by
  simp [cnt, List.count_append]; omega

/-- number of times `o` is stored -/
def stored (o : Obj) (d : Dict Str Obj) : Nat := (Dict.values d).count o

theorem count_del (o : Obj) (d : Dict Str Obj) (k : Str) (v : Obj) (hn : (Dict.keys d).Nodup)
    (h : Dict.get? d k = some v) :
    (stored o d : Int) = stored o (d.del k) + (if v = o then 1 else 0) := by
  induction d with
  | nil => simp at h
  | cons p d ih =>
    obtain ⟨k', v'⟩ := p
    simp only [Dict.keys, List.map_cons, List.nodup_cons] at hn
    by_cases hk : k' = k
    · subst hk
      simp [Dict.get?] at h; subst h
      have : Dict.del ((k', v') :: d) k' = d := by
        unfold Dict.del
        simp only [ne_eq, decide_not, List.filter_cons, decide_true, Bool.not_true]
        rw [List.filter_eq_self.2]; · simp
        intro a ha
        have : a.1 ∈ d.map Prod.fst := List.mem_map_of_mem ha
        simp; intro e; exact hn.1 (e ▸ this)
      rw [this]
      simp [stored, Dict.values, List.count_cons, beq_iff_eq]
      split <;> simp
    · simp [Dict.get?, hk] at h
      have := ih hn.2 h
      have e : Dict.del ((k', v') :: d) k = (k', v') :: Dict.del d k := by simp [Dict.del, hk]
      rw [e]
      simp only [stored, Dict.values, List.map_cons, List.count_cons] at this ⊢
      rw [Int.natCast_add, this, Int.natCast_add]; omega

/-- bookkeeping invariant: adds minus removals = stored -/
def Bal (d : LD) : Prop := ∀ o, cnt o d.log = stored o d.items

theorem cnt_added (o v : Obj) : cnt o [.added v] = if v = o then 1 else 0 := by
  by_cases h : v = o <;> simp [cnt, h]

theorem cnt_removed (o v : Obj) : cnt o [.removed v] = - (if v = o then 1 else 0) := by
  by_cases h : v = o <;> simp [cnt, h]

theorem setitem_bal {d : LD} {k v} (h : Bal d) : Bal (setitem d k v).1 := by
  unfold setitem; split
  · exact h
  · rename_i hk
    split
    · exact h
    · split
      · exact h
      · intro o
        have hk : k ∉ Dict.keys d.items := Dict.has_false_iff.1 (by simpa using hk)
        simp only [cnt_append, h o, Dict.set_of_not_mem hk, cnt_added]
        simp only [stored, Dict.values, List.map_append, List.map_cons, List.map_nil, List.count_append,
          List.count_cons, List.count_nil, beq_iff_eq]
        split <;> simp

theorem popitem_bal {d : LD} (h : Bal d) : Bal (popitem d).1 := by
  unfold popitem; split
  · exact h
  · rename_i k v hl
    intro o
    simp only [cnt_append, h o, cnt_removed]
    have e : d.items = d.items.dropLast ++ [(k, v)] := by
      have hne : d.items ≠ [] := by intro e; simp [e] at hl
      have := List.dropLast_concat_getLast hne
      rw [List.getLast?_eq_some_getLast hne, Option.some.injEq] at hl
      rw [hl] at this; exact this.symm
    have : stored o d.items = stored o d.items.dropLast + (if v = o then 1 else 0) := by
      conv => lhs; rw [e]
      simp [stored, Dict.values, List.count_append, List.count_cons]
    simp only [this]; split <;> simp <;> omega

theorem pop_bal {d : LD} {k} (hi : Inv d) (h : Bal d) : Bal (pop d k).1 := by
  unfold pop; split
  · exact h
  · rename_i v hv
    intro o
    simp only [cnt_append, h o, cnt_removed]
    have := count_del o d.items k v hi.nodup hv
    simp only [this]; omega

theorem clearLoop_bal {n} {d : LD} (h : Bal d) : Bal (clearLoop n d) := by
  induction n generalizing d with
  | zero => exact h
  | succ n ih => unfold clearLoop; split
                 · exact h
                 · exact ih (popitem_bal h)

theorem delitem_bal {d : LD} {k} (hk : hasEq k = false) (hi : Inv d) (h : Bal d) : Bal (delitem d k).1 := by
  unfold delitem getitem
  simp only [hk]
  unfold dictGet
  cases hg : Dict.get? d.items k with
  | none => simpa using h
  | some v =>
    have hh : d.items.has k = true := by simp [Dict.has, hg]
    simp only [hh, if_true, Bool.false_eq_true, if_false]
    intro o
    simp only [cnt_append, h o, cnt_removed]
    have := count_del o d.items k v hi.nodup hg
    simp only [this]; omega

end Verif.LabelledDict

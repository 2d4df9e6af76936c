import Verif.Lemmas.LabelledDict

/-!
# Properties of `LabelledDict`: C01, C02, C61, C62
-/

namespace Verif.LabelledDict
open Verif

private def s (x : String) : Str := x.toList
/-- object #1, name 'a', colour 'red' -/
private def oa : Obj := ⟨1, [(s "name", s "a"), (s "colour", s "red")]⟩
private def ob : Obj := ⟨2, [(s "name", s "b"), (s "colour", s "red")]⟩
private def oNoName : Obj := ⟨3, [(s "colour", s "red")]⟩
private def oEq : Obj := ⟨4, [(s "name", s "x==y")]⟩

/-- **C01.** After any history of calls (each may be rejected), every value is stored under its own key attribute and
no key occurs twice. -/
theorem C01_labels_agree (keyAttr : Str) (ops : List Op) :
    (∀ k v, (k, v) ∈ (run keyAttr ops).items → v.attr keyAttr = some k) ∧
    ((run keyAttr ops).items.map Prod.fst).Nodup := by
  have h := run_inv keyAttr ops
  refine ⟨fun k v hm => ?_, h.nodup⟩
  have := h.label (k, v) hm
  rwa [show (run keyAttr ops).keyAttr = keyAttr from run_keyAttr keyAttr ops] at this

/-- non-trivial: two values stored, one bad key and one duplicate rejected on the way -/
example : (run (s "name") [.add oa, .setitem (s "z") ob, .add oa, .add ob]).items =
    [(s "a", oa), (s "b", ob)] := by decide

/-- Specification of the outcome of `d[k] = v`: which exception, in order of precedence. -/
def setOutcome (d : LD) (k : Str) (v : Obj) : Option Err :=
  if k ∈ d.items.map Prod.fst then some .typeError
  else if v.attr d.keyAttr = none then some .valueError
  else if v.attr d.keyAttr ≠ some k then some .keyError
  else none

/-- **C02 (a).** `d[k] = v` raises TypeError for an existing key, else ValueError for a value without the key
attribute, else KeyError for a key that differs from it; otherwise it is accepted and the new item goes last, with all
other items and their order unchanged. -/
theorem C02_setitem (d : LD) (k : Str) (v : Obj) :
    (step d (.setitem k v)).2 = setOutcome d k v ∧
    (step d (.setitem k v)).1.items =
      (if setOutcome d k v = none then d.items ++ [(k, v)] else d.items) := by
  unfold setOutcome step setitem
  by_cases hk : k ∈ d.items.map Prod.fst
  · have : d.items.has k = true := Dict.has_iff.2 hk
    simp only [this, hk, if_true]; simp
  · have : d.items.has k = false := Dict.has_false_iff.2 hk
    simp only [this, hk, if_false, Bool.false_eq_true]
    cases ha : v.attr d.keyAttr with
    | none => simp
    | some a =>
      by_cases hka : k = a
      · subst hka; simp; exact Dict.set_of_not_mem hk
      · have : ¬ (some a = some k) := by simp; exact fun e => hka e.symm
        simp [hka, this]

/-- all four outcomes occur -/
example : setOutcome (run (s "name") [.add oa]) (s "a") ob = some .typeError ∧
    setOutcome (run (s "name") [.add oa]) (s "q") oNoName = some .valueError ∧
    setOutcome (run (s "name") [.add oa]) (s "q") ob = some .keyError ∧
    setOutcome (run (s "name") [.add oa]) (s "b") ob = none := by decide

/-- **C02 (b).** A call that raises leaves the dict exactly as it was (items, order, and no callback was made). -/
theorem C02_rejected_unchanged (d : LD) (o : Op) (e : Err) (h : (step d o).2 = some e) : (step d o).1 = d := by
  have hs : ∀ k v e, (setitem d k v).2 = .error e → (setitem d k v).1 = d := by
    intro k v e; unfold setitem; split
    · simp
    · split
      · simp
      · split
        · simp
        · intro h; cases h
  cases o with
  | setitem k v =>
    simp only [step] at h ⊢
    cases hx : setitem d k v with | mk d' r => cases r with
      | ok => simp [hx] at h
      | error e' => have := hs k v e'; rw [hx] at this; exact this rfl
  | add v =>
    simp only [step, add] at h ⊢
    cases ha : v.attr d.keyAttr with
    | none => simp
    | some a =>
      simp only [ha] at h ⊢
      cases hx : setitem d a v with | mk d' r => cases r with
        | ok => simp [hx] at h
        | error e' => have := hs a v e'; rw [hx] at this; exact this rfl
  | pop k =>
    simp only [step, pop] at h ⊢
    cases hg : Dict.get? d.items k <;> simp_all
  | popitem =>
    simp only [step, popitem] at h ⊢
    cases hg : d.items.getLast? <;> simp_all
  | clear => simp [step, clear] at h
  | delitem k =>
    simp only [step, delitem] at h ⊢
    cases hg : getitem d k with
    | error e' => simp
    | ok f =>
      simp only [hg] at h ⊢
      by_cases hh : d.items.has k = true
      · simp [hh] at h
      · simp [hh]
  | setdefault k => rfl
  | update => rfl

example : (step (run (s "name") [.add oa]) (.pop (s "zz"))).2 = some .keyError := by decide

/-- **C02 (c).** Removal removes exactly the named item and keeps the order of the others; `popitem` removes the last
one; `clear` empties the dict. -/
theorem C02_removals (keyAttr : Str) (ops : List Op) :
    let d := run keyAttr ops
    (∀ k, (step d (.pop k)).2 = none → (step d (.pop k)).1.items = d.items.filter (fun p => decide (p.1 ≠ k))
        ∧ k ∈ d.items.map Prod.fst) ∧
    (∀ k, (step d (.delitem k)).2 = none → (step d (.delitem k)).1.items = d.items.filter (fun p => decide (p.1 ≠ k))
        ∧ k ∈ d.items.map Prod.fst) ∧
    ((step d .popitem).2 = none → (step d .popitem).1.items = d.items.dropLast ∧ d.items ≠ []) ∧
    (step d .clear).1.items = [] := by
  intro d
  refine ⟨?_, ?_, ?_, ?_⟩
  · intro k h
    simp only [step, pop] at h ⊢
    cases hg : Dict.get? d.items k with
    | none => simp [hg] at h
    | some v => exact ⟨rfl, Dict.mem_keys_of_mem (Dict.mem_of_get? hg)⟩
  · intro k h
    simp only [step, delitem] at h ⊢
    cases hg : getitem d k with
    | error e => simp [hg] at h
    | ok f =>
      simp only [hg] at h ⊢
      by_cases hh : d.items.has k = true
      · simp only [hh, if_true]; exact ⟨rfl, Dict.has_iff.1 hh⟩
      · simp [hh] at h
  · intro h
    simp only [step, popitem] at h ⊢
    cases hg : d.items.getLast? with
    | none => simp [hg] at h
    | some p => exact ⟨rfl, by intro e; simp [e] at hg⟩
  · exact clearLoop_nil _ _ (Nat.le_refl _)

example : (step (run (s "name") [.add oa, .add ob]) (.pop (s "a"))).1.items = [(s "b", ob)] := by decide

/-- keys used for deletion with `del d[k]` contain no `==` -/
def PlainDel : Op → Prop
  | .delitem k => hasEq k = false
  | _ => True

/-- **C61 (partial).** The callbacks tell the true story: for every object, (number of `add_callable` calls) −
(number of `remove_callable` calls) = number of times it is stored now.  Proved for histories whose `del d[k]` keys
contain no "=="; see `C61_callbacks_fails` for why the full statement is false. -/
theorem C61_callbacks_partial (keyAttr : Str) (ops : List Op) (hp : ∀ o ∈ ops, PlainDel o) (v : Obj) :
    ((run keyAttr ops).log.count (.added v) : Int) - (run keyAttr ops).log.count (.removed v) =
      ((run keyAttr ops).items.map Prod.snd).count v := by
  have key : ∀ (ops : List Op) (d : LD), (∀ o ∈ ops, PlainDel o) → Inv d → Bal d →
      Bal (ops.foldl (fun d o => (step d o).1) d) := by
    intro ops
    induction ops with
    | nil => intro d _ _ h; exact h
    | cons o ops ih =>
      intro d hp hi hb
      rw [List.foldl_cons]
      refine ih _ (fun o ho => hp o (List.mem_cons_of_mem _ ho)) (step_inv hi) ?_
      rw [step_state]
      have ho := hp o List.mem_cons_self
      cases o with
      | setitem k v => exact setitem_bal hb
      | add v => simp only [add]; split
                 · exact hb
                 · exact setitem_bal hb
      | pop k => exact pop_bal hi hb
      | popitem => exact popitem_bal hb
      | clear => exact clearLoop_bal hb
      | delitem k => exact delitem_bal ho hi hb
      | setdefault k => exact hb
      | update => exact hb
  exact key ops (init keyAttr) hp ⟨by simp [init, Dict.keys], by simp [init]⟩
    (by intro o; simp [init, cnt, stored, Dict.values]) v

example : ∀ o ∈ [Op.add oa, .delitem (s "a"), .add ob, .clear], PlainDel o := by
  simp [PlainDel]; decide

/-- **C61 fails in full**: the value named `x==y` is added and deleted again; the deletion succeeds, the value is gone,
but the remove callback was called with a (here empty) set instead of the value. -/
theorem C61_callbacks_fails :
    let d := run (s "name") [.add oEq, .delitem (s "x==y")]
    d.items = [] ∧ d.log = [.added oEq, .removedSet []] ∧
    ((d.log.count (.added oEq) : Int) - d.log.count (.removed oEq) ≠ (d.items.map Prod.snd).count oEq) := by
  decide

/-- **C62 (partial).** Every stored value is found under its key by `d[k]`, and only stored values are found; keys must
not contain "==" (see `C62_lookup_fails`). -/
theorem C62_lookup_partial (keyAttr : Str) (ops : List Op) (k : Str) (hk : hasEq k = false) (v : Obj) :
    getitem (run keyAttr ops) k = .ok (.one v) ↔ (k, v) ∈ (run keyAttr ops).items := by
  unfold getitem dictGet
  simp only [hk, Bool.false_eq_true, if_false]
  rw [← Dict.get?_eq_some_iff (run_inv keyAttr ops).nodup]
  cases Dict.get? (run keyAttr ops).items k <;> simp

example : hasEq (s "a") = false ∧ (s "a", oa) ∈ (run (s "name") [.add oa, .add ob]).items := by decide

/-- **C62 fails in full**: a value whose key contains "==" is stored but not retrievable by its key, and cannot be
deleted by key if the part before "==" is the key attribute. -/
theorem C62_lookup_fails :
    (s "x==y", oEq) ∈ (run (s "name") [.add oEq]).items ∧
    getitem (run (s "name") [.add oEq]) (s "x==y") = .ok (.set []) := by decide

/-- **C62 (query form).** `d['attr == val']` returns exactly the stored values whose attribute equals `val`, for an
attribute other than the key attribute. -/
theorem C62_query (keyAttr : Str) (ops : List Op) (q key val : Str)
    (hq : ∃ a b, splitEq q = [a, b] ∧ strip a = key ∧ strip b = val)
    (h1 : key ≠ []) (h2 : val ≠ []) (h3 : key ≠ keyAttr) :
    ∃ os, getitem (run keyAttr ops) q = .ok (.set os) ∧
      ∀ o, o ∈ os ↔ (∃ k, (k, o) ∈ (run keyAttr ops).items) ∧ o.attr key = some val := by
  obtain ⟨a, b, hs, rfl, rfl⟩ := hq
  have hka := run_keyAttr keyAttr ops
  unfold getitem hasEq
  rw [hs]
  simp only [List.length_cons, List.length_nil, Nat.zero_add, Nat.lt_add_one, decide_true, if_true, h1, h2,
    if_false, hka]
  rw [if_pos h3]
  refine ⟨_, rfl, fun o => ?_⟩
  simp [Dict.values, List.mem_filter]

example : ∃ a b, splitEq (s "colour == red") = [a, b] ∧ strip a = s "colour" ∧ strip b = s "red" :=
  ⟨s "colour ", s " red", by decide⟩
example : getitem (run (s "name") [.add oa, .add ob]) (s "colour == red") = .ok (.set [oa, ob]) := by decide

end Verif.LabelledDict

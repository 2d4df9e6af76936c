import Verif.Model.DocShare

/-!
# Argument descriptions that are shared, and macros (C256–C258)
-/

namespace Verif.DocShare
open Verif

/-! ## What `__resolve_type` gives -/

/-- `t` mentions the atom `a`, at any depth. -/
inductive Mentions : Ty → Atom → Prop
  | atom (a : Atom) : Mentions (.atom a) a
  | seq (l : List Ty) (t : Ty) (a : Atom) : t ∈ l → Mentions t a → Mentions (.seq l) a

/-- what an atom stands for: a macro for its classes, anything else for itself -/
def Stands (ms : Macros) (b a : Atom) : Prop :=
  (∃ m cs c, b = .str m ∧ ms.get? m = some cs ∧ c ∈ cs ∧ a = .cls c) ∨ (a = b ∧ ∀ m, b = .str m → ms.get? m = none)

theorem mem_flatAtom (ms : Macros) (b a : Atom) : a ∈ flatAtom ms b ↔ Stands ms b a := by
  cases b with
  | any => simp [flatAtom, Stands]
  | cls c => simp [flatAtom, Stands]
  | str m =>
    simp only [flatAtom, Stands]
    cases h : ms.get? m with
    | none => simp [h]
    | some cs =>
      simp only [List.mem_map, Atom.str.injEq]
      constructor
      · rintro ⟨c, hc, rfl⟩; exact .inl ⟨m, cs, c, rfl, h, hc, rfl⟩
      · rintro (⟨m', cs', c, rfl, h', hc, rfl⟩ | ⟨_, h'⟩)
        · rw [h] at h'; cases h'; exact ⟨c, hc, rfl⟩
        · have := h' m rfl; rw [h] at this; cases this

mutual
theorem mem_flat (ms : Macros) (a : Atom) : ∀ t : Ty, a ∈ flat ms t ↔ ∃ b, Mentions t b ∧ Stands ms b a
  | .atom b => by
    rw [flat, mem_flatAtom]
    constructor
    · intro h; exact ⟨b, .atom b, h⟩
    · rintro ⟨b', hm, h⟩; cases hm; exact h
  | .seq l => by
    rw [flat, mem_flatL ms a l]
    constructor
    · rintro ⟨t, ht, b, hm, h⟩; exact ⟨b, .seq l t b ht hm, h⟩
    · rintro ⟨b, hm, h⟩
      cases hm with
      | seq _ t _ ht hm => exact ⟨t, ht, b, hm, h⟩
theorem mem_flatL (ms : Macros) (a : Atom) : ∀ l : List Ty, a ∈ flatL ms l ↔ ∃ t ∈ l, ∃ b, Mentions t b ∧ Stands ms b a
  | [] => by simp [flatL]
  | t :: l => by
    rw [flatL, List.mem_append, mem_flat ms a t, mem_flatL ms a l]
    simp only [List.mem_cons, exists_eq_or_imp]
end

theorem mentions_map (l : List Atom) (a : Atom) : Mentions (.seq (l.map .atom)) a ↔ a ∈ l := by
  constructor
  · intro h
    cases h with
    | seq _ t _ ht hm =>
      obtain ⟨b, hb, rfl⟩ := List.mem_map.mp ht
      cases hm
      exact hb
  · intro h
    exact .seq _ _ _ (List.mem_map.mpr ⟨a, h, rfl⟩) (.atom a)

theorem mentions_resolve (ms : Macros) (t : Ty) (a : Atom) : Mentions (resolve ms t) a ↔ ∃ b, Mentions t b ∧ Stands ms b a := by
  rw [← mem_flat]
  cases t with
  | seq l => rw [resolve, mentions_map, flat]
  | atom b =>
    rw [flat]
    cases b with
    | any =>
      simp only [resolve, flatAtom, List.mem_singleton]
      constructor
      · intro h; cases h; rfl
      · rintro rfl; exact .atom _
    | cls c =>
      simp only [resolve, flatAtom, List.mem_singleton]
      constructor
      · intro h; cases h; rfl
      · rintro rfl; exact .atom _
    | str m =>
      simp only [resolve, flatAtom]
      cases h : ms.get? m with
      | none =>
        simp only [List.mem_singleton]
        constructor
        · intro h; cases h; rfl
        · rintro rfl; exact .atom _
      | some cs =>
        have := mentions_map (cs.map .cls) a
        simp only [List.map_map] at this
        exact this

/-! ## States that a program can reach -/

/-- The dictionaries of functions exist. -/
def Ok (s : St) : Prop := ∀ as ∈ s.funs, ∀ a ∈ as, a < s.next

theorem idx_mem {s : St} {as : List Nat} {n : String} {a : Nat} (h : idx s as n = some a) : a ∈ as ∧ (s.heap a).name = n := by
  have := List.mem_of_getLast? h
  simpa using this

theorem pick_mem {s : St} {as : List Nat} : ∀ {ns : List String} {bs : List Nat}, pick s as ns = .ok bs → ∀ b ∈ bs, b ∈ as
  | [], bs, h => by simp only [pick] at h; cases h; simp
  | n :: ns, bs, h => by
    rw [pick] at h
    cases hi : idx s as n with
    | none => simp [hi] at h
    | some a =>
      simp only [hi] at h
      cases hp : pick s as ns with
      | error e => simp [hp, Except.map] at h
      | ok cs =>
        simp only [hp, Except.map] at h
        cases h
        intro b hb
        rcases List.mem_cons.mp hb with rfl | hb
        · exact (idx_mem hi).1
        · exact pick_mem hp b hb

theorem getDocval_mem {s : St} {f : Nat} {ns : List String} {bs : List Nat} (h : getDocval s f ns = .ok bs) (b : Nat) (hb : b ∈ bs) :
    ∃ as, s.funs[f]? = some as ∧ b ∈ as := by
  unfold getDocval at h
  split at h
  · split at h
    · cases h; cases hb
    · cases h
  · rename_i as hf
    split at h
    · cases h; exact ⟨_, hf, hb⟩
    · exact ⟨as, hf, pick_mem h b hb⟩

theorem getDocval_lt {s : St} (ho : Ok s) {f : Nat} {ns : List String} {bs : List Nat} (h : getDocval s f ns = .ok bs) :
    ∀ b ∈ bs, b < s.next := by
  intro b hb
  obtain ⟨as, hf, hb⟩ := getDocval_mem h b hb
  exact ho as (List.mem_of_getElem? hf) b hb

theorem decorate_ok {s : St} (h : Ok s) {old : List Nat} (ho : ∀ a ∈ old, a < s.next) (lits : List Arg) : Ok (decorate s old lits) := by
  intro as has a ha
  simp only [decorate, List.mem_append, List.mem_singleton] at has ⊢
  rcases has with has | rfl
  · have := h as has a ha; omega
  · have : a ∈ old ++ (List.range lits.length).map (s.next + ·) := by
      rcases List.mem_append.mp ha with h | h <;> exact (List.mem_filter.mp h).1
    rcases List.mem_append.mp this with h | h
    · have := ho a h; omega
    · obtain ⟨i, hi, rfl⟩ := List.mem_map.mp h
      have := List.mem_range.mp hi
      omega

theorem step_ok {s : St} (h : Ok s) (op : Op) : Ok (step s op) := by
  cases op with
  | decorate f ns lits =>
    simp only [step]
    cases hg : getDocval s f ns with
    | error e => exact h
    | ok as => exact decorate_ok h (getDocval_lt h hg) lits
  | «macro» m c => exact h
  | change f n t =>
    simp only [step]
    split <;> exact h

theorem run_ok : ∀ (ops : List Op) (s : St), Ok s → Ok (run s ops)
  | [], _, h => h
  | op :: ops, _, h => run_ok ops _ (step_ok h op)

theorem start_ok (ms : Macros) : Ok (St.start ms) := by
  intro as h; cases h

/-! ## C256 -/

theorem alloc_old {s : St} {lits : List Arg} {a : Nat} (h : a < s.next) : alloc s lits a = s.heap a := by
  unfold alloc
  rw [if_neg (by omega)]

theorem alloc_new (s : St) (lits : List Arg) : ((List.range lits.length).map (s.next + ·)).map (alloc s lits) = lits := by
  apply List.ext_getElem
  · simp
  · intro i h1 h2
    simp [alloc, h2]

theorem map_filter_heap {α β : Type} (h : α → β) (p : β → Bool) (l : List α) : (l.filter fun a => p (h a)).map h = (l.map h).filter p := by
  rw [List.filter_map]; rfl

/-- **C256 (what a function takes).** After any history: the arguments of a function that is decorated with what `get_docval` returns,
followed by further descriptions, are exactly those, with their types resolved; those without a default come first, and otherwise the
order is kept. -/
theorem C256_arguments (ms : Macros) (ops : List Op) (f : Nat) (ns : List String) (lits : List Arg) (as : List Nat)
    (h : getDocval (run (St.start ms) ops) f ns = .ok as) :
    let s := run (St.start ms) ops
    let given := (as.map s.heap ++ lits).map fun a => (⟨a.name, resolve s.macros a.ty, a.dflt⟩ : Arg)
    args (step s (.decorate f ns lits)) s.funs.length = given.filter (fun a => !a.dflt) ++ given.filter (fun a => a.dflt) := by
  intro s given
  have hlt : ∀ a ∈ as, a < s.next := getDocval_lt (run_ok ops _ (start_ok ms)) h
  simp only [step]
  rw [show getDocval s f ns = .ok as from h]
  simp only [args, decorate, List.getElem?_append_right (Nat.le_refl _), Nat.sub_self, List.getElem?_cons_zero, Option.getD_some,
    List.map_append]
  generalize hL : as ++ (List.range lits.length).map (s.next + ·) = L
  generalize hh : (fun a => if a ∈ L then (alloc s lits a).resolved s.macros else alloc s lits a) = hp
  have hg : L.map hp = given := by
    have : L.map hp = L.map (fun a => (alloc s lits a).resolved s.macros) := by
      apply List.map_congr_left
      intro a ha
      simp only [← hh, if_pos ha]
    rw [this, ← hL, List.map_append]
    have e1 : as.map (fun a => (alloc s lits a).resolved s.macros) = (as.map s.heap).map (Arg.resolved s.macros) := by
      rw [List.map_map]
      apply List.map_congr_left
      intro a ha
      simp [alloc_old (hlt a ha)]
    have e2 : ((List.range lits.length).map (s.next + ·)).map (fun a => (alloc s lits a).resolved s.macros) =
        lits.map (Arg.resolved s.macros) := by
      have := congrArg (List.map (Arg.resolved s.macros)) (alloc_new s lits)
      rw [← this]
      simp [List.map_map]
    rw [e1, e2, ← List.map_append]
    rfl
  have e1 : ∀ a, (if a ∈ L then (alloc s lits a).resolved s.macros else alloc s lits a) = hp a := fun a => congrFun hh a
  simp only [e1]
  rw [map_filter_heap hp (fun a => !a.dflt), map_filter_heap hp (fun a => a.dflt), hg]

theorem pick_names {s : St} {as : List Nat} : ∀ {ns : List String} {bs : List Nat}, pick s as ns = .ok bs →
    bs.map (fun b => (s.heap b).name) = ns
  | [], bs, h => by simp only [pick] at h; cases h; rfl
  | n :: ns, bs, h => by
    rw [pick] at h
    cases hi : idx s as n with
    | none => simp [hi] at h
    | some a =>
      simp only [hi] at h
      cases hp : pick s as ns with
      | error e => simp [hp, Except.map] at h
      | ok cs =>
        simp only [hp, Except.map] at h
        cases h
        simp [(idx_mem hi).2, pick_names hp]

theorem pick_error {s : St} {as : List Nat} : ∀ {ns : List String} {e : Err}, pick s as ns = .error e →
    e = .valueError ∧ ∃ n ∈ ns, ∀ a ∈ as, (s.heap a).name ≠ n
  | [], e, h => by simp only [pick] at h; cases h
  | n :: ns, e, h => by
    rw [pick] at h
    cases hi : idx s as n with
    | none =>
      simp only [hi] at h
      cases h
      refine ⟨rfl, n, List.mem_cons_self, ?_⟩
      intro a ha hn
      have : (as.filter fun a => (s.heap a).name == n) = [] := List.getLast?_eq_none_iff.mp hi
      have hm : a ∈ as.filter fun a => (s.heap a).name == n := List.mem_filter.mpr ⟨ha, by simpa using hn⟩
      rw [this] at hm
      cases hm
    | some a =>
      simp only [hi] at h
      cases hp : pick s as ns with
      | error e' =>
        simp only [hp, Except.map] at h
        cases h
        obtain ⟨h1, m, hm, h2⟩ := pick_error hp
        exact ⟨h1, m, List.mem_cons_of_mem _ hm, h2⟩
      | ok cs => simp [hp, Except.map] at h

/-- **C256 (what `get_docval` finds).** For a decorated function: without names it returns all arguments; with names it returns arguments
of the function of exactly these names in this order, and it raises, a ValueError, exactly if the function has no argument of one of the
names. -/
theorem C256_found (s : St) (f : Nat) (hf : f < s.funs.length) (ns : List String) :
    (∃ as, getDocval s f [] = .ok as ∧ as.map s.heap = args s f) ∧
    (ns ≠ [] → ((∃ bs, getDocval s f ns = .ok bs ∧ (bs.map s.heap).map Arg.name = ns ∧ ∀ b ∈ bs, s.heap b ∈ args s f) ∧
        ∀ n ∈ ns, ∃ a ∈ args s f, a.name = n) ∨
      (getDocval s f ns = .error .valueError ∧ ∃ n ∈ ns, ∀ a ∈ args s f, a.name ≠ n)) := by
  have he : s.funs[f]? = some s.funs[f] := List.getElem?_eq_getElem hf
  refine ⟨⟨s.funs[f], by simp [getDocval, he], by simp [args, he]⟩, ?_⟩
  intro hns
  have hg : getDocval s f ns = pick s s.funs[f] ns := by
    unfold getDocval
    simp only [he]
    rw [if_neg hns]
  have ha : args s f = s.funs[f].map s.heap := by simp [args, he]
  rw [hg, ha]
  cases hp : pick s s.funs[f] ns with
  | ok bs =>
    refine .inl ⟨⟨bs, rfl, by rw [List.map_map]; exact pick_names hp, fun b hb => List.mem_map.mpr ⟨b, pick_mem hp b hb, rfl⟩⟩, ?_⟩
    intro n hn
    rw [← pick_names hp] at hn
    obtain ⟨b, hb, rfl⟩ := List.mem_map.mp hn
    exact ⟨s.heap b, List.mem_map.mpr ⟨b, pick_mem hp b hb, rfl⟩, rfl⟩
  | error e =>
    obtain ⟨rfl, n, hn, h⟩ := pick_error hp
    refine .inr ⟨rfl, n, hn, ?_⟩
    intro a ha
    obtain ⟨b, hb, rfl⟩ := List.mem_map.mp ha
    exact h b hb

/-- macro `array` with two classes -/
def demoMacros : Macros := [("array", [1, 2])]

/-- a function with two arguments, and one that takes the second of them and another one -/
def demo : List Op := [.decorate 9 [] [⟨"x", .atom (.str "array"), true⟩, ⟨"y", .seq [.atom (.cls 5), .atom (.str "array")], false⟩],
  .decorate 0 ["x"] [⟨"z", .atom (.str "Foo"), false⟩]]

/-- names and types of the arguments, with lists of atoms for lists -/
def view (s : St) (f : Nat) : List (String × List Atom) := (args s f).map fun a => (a.name, flat [] a.ty)

/-- non-vacuity -/
example : view (run (St.start demoMacros) demo) 0 = [("y", [.cls 5, .cls 1, .cls 2]), ("x", [.cls 1, .cls 2])] ∧
    view (run (St.start demoMacros) demo) 1 = [("z", [.str "Foo"]), ("x", [.cls 1, .cls 2])] ∧
    (getDocval (run (St.start demoMacros) demo) 0 ["q"]) = .error .valueError ∧
    (getDocval (run (St.start demoMacros) demo) 0 ["x", "y"]) = .ok [0, 1] := by
  refine ⟨?_, ?_, ?_, ?_⟩ <;> decide +kernel

/-! ## C257 -/

/-- Nothing in the type is the name of a macro, and it is not a list of lists. -/
def Settled (ms : Macros) (t : Ty) : Prop := resolve ms t = t

theorem flatL_atoms (ms : Macros) : ∀ l : List Atom, flatL ms (l.map .atom) = l.flatMap (flatAtom ms)
  | [] => rfl
  | a :: l => by rw [List.map_cons, flatL, flat, flatL_atoms ms l]; rfl

theorem flatAtom_keys {ms ms' : Macros} (hk : ∀ m, (ms.get? m).isSome = (ms'.get? m).isSome) (a b : Atom) (h : b ∈ flatAtom ms a) :
    flatAtom ms' b = [b] := by
  cases a with
  | any => simp only [flatAtom, List.mem_singleton] at h; subst h; rfl
  | cls c => simp only [flatAtom, List.mem_singleton] at h; subst h; rfl
  | str m =>
    simp only [flatAtom] at h
    cases hm : ms.get? m with
    | none =>
      simp only [hm, List.mem_singleton] at h
      subst h
      have := hk m
      rw [hm] at this
      have h' : ms'.get? m = none := by
        cases h2 : ms'.get? m with
        | none => rfl
        | some _ => rw [h2] at this; cases this
      simp [flatAtom, h']
    | some cs =>
      simp only [hm, List.mem_map] at h
      obtain ⟨c, -, rfl⟩ := h
      rfl

mutual
theorem flat_keys {ms ms' : Macros} (hk : ∀ m, (ms.get? m).isSome = (ms'.get? m).isSome) : ∀ (t : Ty) (b : Atom), b ∈ flat ms t →
    flatAtom ms' b = [b]
  | .atom a, b, h => by rw [flat] at h; exact flatAtom_keys hk a b h
  | .seq l, b, h => by rw [flat] at h; exact flatL_keys hk l b h
theorem flatL_keys {ms ms' : Macros} (hk : ∀ m, (ms.get? m).isSome = (ms'.get? m).isSome) : ∀ (l : List Ty) (b : Atom),
    b ∈ flatL ms l → flatAtom ms' b = [b]
  | [], b, h => by simp [flatL] at h
  | t :: l, b, h => by
    rw [flatL] at h
    rcases List.mem_append.mp h with h | h
    · exact flat_keys hk t b h
    · exact flatL_keys hk l b h
end

theorem flatMap_id {ms : Macros} : ∀ {l : List Atom}, (∀ b ∈ l, flatAtom ms b = [b]) → l.flatMap (flatAtom ms) = l
  | [], _ => rfl
  | a :: l, h => by
    rw [List.flatMap_cons, h a List.mem_cons_self, flatMap_id fun b hb => h b (List.mem_cons_of_mem _ hb)]
    rfl

/-- What was resolved stays as it is as long as the names of the macros are the same. -/
theorem settled_resolve {ms ms' : Macros} (hk : ∀ m, (ms.get? m).isSome = (ms'.get? m).isSome) (t : Ty) :
    resolve ms' (resolve ms t) = resolve ms t := by
  cases t with
  | seq l =>
    rw [resolve, resolve, flatL_atoms, flatMap_id (fun b hb => flatL_keys hk l b hb)]
  | atom a =>
    cases a with
    | any => rfl
    | cls c => rfl
    | str m =>
      simp only [resolve]
      cases hm : ms.get? m with
      | none =>
        have := hk m
        rw [hm] at this
        have h' : ms'.get? m = none := by
          cases h2 : ms'.get? m with
          | none => rfl
          | some _ => rw [h2] at this; cases this
        simp [h']
      | some cs =>
        have e : (cs.map fun c => Ty.atom (.cls c)) = (cs.map Atom.cls).map Ty.atom := by rw [List.map_map]; rfl
        show resolve ms' (.seq (cs.map fun c => Ty.atom (.cls c))) = .seq (cs.map fun c => Ty.atom (.cls c))
        rw [e, resolve, flatL_atoms, flatMap_id]
        intro b hb
        obtain ⟨c, -, rfl⟩ := List.mem_map.mp hb
        rfl

/-- an operation that neither changes a description nor makes a new macro -/
def Quiet (ms : Macros) : Op → Prop
  | .decorate _ _ _ => True
  | .macro m _ => (ms.get? m).isSome = true
  | .change _ _ _ => False

/-- every description of a function was resolved with macros of the present names -/
structure Inv (ms : Macros) (s : St) : Prop where
  ok : Ok s
  keys : ∀ m, (s.macros.get? m).isSome = (ms.get? m).isSome
  settled : ∀ as ∈ s.funs, ∀ a ∈ as, ∃ ms' t, (∀ m, (Dict.get? ms' m).isSome = (ms.get? m).isSome) ∧ (s.heap a).ty = resolve ms' t

theorem decorate_heap {ms : Macros} {s : St} (h : Inv ms s) {old : List Nat} (ho : ∀ a ∈ old, ∃ as ∈ s.funs, a ∈ as) (lits : List Arg)
    (a : Nat) (ha : a < s.next) : (decorate s old lits).heap a = s.heap a := by
  simp only [decorate]
  split
  · rename_i hm
    rw [alloc_old ha]
    rcases List.mem_append.mp hm with hm | hm
    · obtain ⟨as, has, hm⟩ := ho a hm
      obtain ⟨ms', t, hk, ht⟩ := h.settled as has a hm
      have : resolve s.macros (s.heap a).ty = (s.heap a).ty := by
        rw [ht]
        exact settled_resolve (fun m => by rw [hk, h.keys]) t
      unfold Arg.resolved
      rw [this]
    · obtain ⟨i, -, rfl⟩ := List.mem_map.mp hm
      omega
  · exact alloc_old ha

theorem step_inv {ms : Macros} {s : St} (h : Inv ms s) {op : Op} (hq : Quiet ms op) :
    Inv ms (step s op) ∧ (∃ r, (step s op).funs = s.funs ++ r) ∧ ∀ a < s.next, (step s op).heap a = s.heap a := by
  cases op with
  | change f n t => exact absurd hq id
  | «macro» m c =>
    refine ⟨⟨h.ok, ?_, h.settled⟩, ⟨[], by simp [step, addMacro]⟩, fun _ _ => rfl⟩
    intro m'
    simp only [step, addMacro, Dict.get?_set]
    split
    · rename_i e
      subst e
      simpa using hq.symm
    · exact h.keys m'
  | decorate f ns lits =>
    simp only [step]
    cases hg : getDocval s f ns with
    | error e => exact ⟨h, ⟨[], by simp⟩, fun _ _ => rfl⟩
    | ok as =>
      have hlt := getDocval_lt h.ok hg
      have ho : ∀ a ∈ as, ∃ bs ∈ s.funs, a ∈ bs := by
        intro a ha
        obtain ⟨bs, hb, hm⟩ := getDocval_mem hg a ha
        exact ⟨bs, List.mem_of_getElem? hb, hm⟩
      refine ⟨⟨decorate_ok h.ok hlt lits, h.keys, ?_⟩, ⟨_, rfl⟩, decorate_heap h ho lits⟩
      intro bs hbs a ha
      rcases List.mem_append.mp (show bs ∈ s.funs ++ [_] from hbs) with hb | hb
      · obtain ⟨ms', t, hk, ht⟩ := h.settled bs hb a ha
        exact ⟨ms', t, hk, by rw [decorate_heap h ho lits a (h.ok bs hb a ha)]; exact ht⟩
      · rw [List.mem_singleton] at hb
        subst hb
        have hm : a ∈ as ++ (List.range lits.length).map (s.next + ·) := by
          rcases List.mem_append.mp ha with hx | hx <;> exact (List.mem_filter.mp hx).1
        refine ⟨s.macros, (alloc s lits a).ty, h.keys, ?_⟩
        simp only [decorate]
        rw [if_pos hm]
        rfl

theorem run_inv {ms : Macros} : ∀ (ops : List Op) (s : St), Inv ms s → (∀ op ∈ ops, Quiet ms op) →
    Inv ms (run s ops) ∧ ∀ f < s.funs.length, args (run s ops) f = args s f
  | [], _, h, _ => ⟨h, fun _ _ => rfl⟩
  | op :: ops, s, h, hq => by
    obtain ⟨h1, ⟨r, hr⟩, h3⟩ := step_inv h (hq op List.mem_cons_self)
    obtain ⟨h4, h5⟩ := run_inv ops _ h1 fun o ho => hq o (List.mem_cons_of_mem _ ho)
    refine ⟨h4, fun f hf => ?_⟩
    rw [run, h5 f (by rw [hr, List.length_append]; omega)]
    unfold args
    rw [hr, List.getElem?_append_left hf, List.getElem?_eq_getElem hf]
    simp only [Option.getD_some]
    apply List.map_congr_left
    intro a ha
    exact h3 a (h.ok _ (List.getElem_mem hf) a ha)

/-- **C257 (arguments stay).** In any history in which no description that `get_docval` returned is changed and classes are added only
to macros that exist from the beginning, the arguments of a function, with their types, are for ever those it was decorated with,
however often they are used for other functions.  Missing: `C257_stay_fails`. -/
theorem C257_stay_partial (ms : Macros) (pre ops : List Op) (hp : ∀ op ∈ pre, Quiet ms op) (ho : ∀ op ∈ ops, Quiet ms op) (f : Nat)
    (hf : f < (run (St.start ms) pre).funs.length) :
    args (run (run (St.start ms) pre) ops) f = args (run (St.start ms) pre) f := by
  have h0 : Inv ms (St.start ms) := ⟨start_ok ms, (fun _ => rfl), (fun as h => nomatch h)⟩
  exact (run_inv ops _ (run_inv pre _ h0 hp).1 ho).2 f hf

/-- non-vacuity -/
example : (∀ op ∈ demo, Quiet demoMacros op) ∧ Quiet demoMacros (.macro "array" 7) ∧
    view (run (St.start demoMacros) (demo ++ [.macro "array" 7, .decorate 0 [] []])) 0 = view (run (St.start demoMacros) demo) 0 := by
  refine ⟨?_, rfl, by decide +kernel⟩
  intro op h
  simp only [demo, List.mem_cons, List.not_mem_nil, or_false] at h
  rcases h with rfl | rfl <;> trivial

/-- **C257 (violated).** What `get_docval` returns is not a copy: changing it changes the function and those that were decorated with
it.  And when a class is added to a new macro, decorating one function with an argument of another one changes the other one. -/
theorem C257_stay_fails :
    view (run (St.start demoMacros) (demo ++ [.change 1 "x" (.atom (.cls 8))])) 0 = [("y", [.cls 5, .cls 1, .cls 2]), ("x", [.cls 8])] ∧
    view (run (St.start demoMacros) (demo ++ [.macro "Foo" 6])) 1 = [("z", [.str "Foo"]), ("x", [.cls 1, .cls 2])] ∧
    view (run (St.start demoMacros) (demo ++ [.macro "Foo" 6, .decorate 1 ["z"] []])) 1 = [("z", [.cls 6]), ("x", [.cls 1, .cls 2])] := by
  refine ⟨?_, ?_, ?_⟩ <;> decide +kernel

/-! ## C258 -/

/-- **C258 (macros at the time of decoration).** The types a new argument has after decoration are exactly those mentioned, at any depth,
in its description, with every macro replaced by all the classes added to it until then.  Missing: classes that are added later
(`C258_macro_fails`). -/
theorem C258_macro_partial (ms : Macros) (ops : List Op) (n : String) (t : Ty) (d : Bool) (a : Atom) :
    let s := run (St.start ms) ops
    ∃ t', (args (step s (.decorate s.funs.length [] [⟨n, t, d⟩])) s.funs.length).map Arg.ty = [t'] ∧
      (Mentions t' a ↔ ∃ b, Mentions t b ∧ Stands s.macros b a) := by
  intro s
  refine ⟨resolve s.macros t, ?_, mentions_resolve _ _ _⟩
  have hg : getDocval s s.funs.length [] = .ok [] := by simp [getDocval]
  have := C256_arguments ms ops s.funs.length [] [⟨n, t, d⟩] [] hg
  simp only at this
  rw [this]
  cases d <;> rfl

/-- **C258 (adding a class).** Adding a class to a macro adds it there, and only there, and removes nothing. -/
theorem C258_added (s : St) (m : String) (c : Nat) (m' : String) (c' : Nat) :
    (∃ cs, (addMacro s m c).macros.get? m' = some cs ∧ c' ∈ cs) ↔
      (∃ cs, s.macros.get? m' = some cs ∧ c' ∈ cs) ∨ (m' = m ∧ c' = c) := by
  simp only [addMacro, Dict.get?_set]
  by_cases e : m' = m
  · subst e
    cases h : s.macros.get? m' with
    | none => simp
    | some cs => simp
  · simp [e]

/-- non-vacuity -/
example : Mentions (.seq [.atom (.cls 5), .seq [.atom (.str "array")]]) (.str "array") ∧ Stands demoMacros (.str "array") (.cls 2) :=
  ⟨.seq _ (.seq [.atom (.str "array")]) _ (by simp) (.seq _ (.atom (.str "array")) _ (by simp) (.atom _)), .inl ⟨"array", [1, 2], 2, rfl, rfl, by simp, rfl⟩⟩

/-- **C258 (violated).** A class that is added to a macro after a function was decorated is not accepted by that function, though one
that is decorated later accepts it. -/
theorem C258_macro_fails :
    view (run (St.start demoMacros) (demo ++ [.macro "array" 3])) 0 = [("y", [.cls 5, .cls 1, .cls 2]), ("x", [.cls 1, .cls 2])] ∧
    view (run (St.start demoMacros) (demo ++ [.macro "array" 3, .decorate 9 [] [⟨"x", .atom (.str "array"), false⟩]])) 2 =
      [("x", [.cls 1, .cls 2, .cls 3])] := by
  refine ⟨?_, ?_⟩ <;> decide +kernel

end Verif.DocShare

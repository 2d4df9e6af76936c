import Verif.Model.Hooks

/-!
# Theorems about functions that run when a class is created (C232)
-/

namespace Verif.Hooks
open Verif

/-- the function `h` of the class at place `i`, with the name `n` in the source -/
def Defines (mro : List Cls) (i : Nat) (n : Name) (h : Hook) : Prop := ∃ c, mro[i]? = some c ∧ (n, h) ∈ c.hooks

/-- in each class functions have different names -/
def WF (mro : List Cls) : Prop := ∀ c ∈ mro, c.names.Nodup

theorem lt_irrefl (a : Name) : lt a a = false := by
  induction a with
  | nil => rfl
  | cons c a ih => simp [lt, ih]

theorem lt_trans {a b c : Name} (h : lt a b = true) (h' : lt b c = true) : lt a c = true := by
  induction a generalizing b c with
  | nil =>
    cases c with
    | nil => cases b <;> simp [lt] at h'
    | cons => rfl
  | cons x a ih =>
    cases b with
    | nil => simp [lt] at h
    | cons y b =>
      cases c with
      | nil => simp [lt] at h'
      | cons z c =>
        simp only [lt, Bool.or_eq_true, decide_eq_true_eq, Bool.and_eq_true] at *
        rcases h with h | ⟨rfl, h⟩
        · rcases h' with h' | ⟨rfl, h'⟩
          · exact .inl (Nat.lt_trans h h')
          · exact .inl h
        · rcases h' with h' | ⟨rfl, h'⟩
          · exact .inl h'
          · exact .inr ⟨rfl, ih h h'⟩

theorem lt_total {a b : Name} (h : lt a b = false) (hne : a ≠ b) : lt b a = true := by
  induction a generalizing b with
  | nil =>
    cases b with
    | nil => exact absurd rfl hne
    | cons => simp [lt] at h
  | cons x a ih =>
    cases b with
    | nil => rfl
    | cons y b =>
      simp only [lt, Bool.or_eq_false_iff, decide_eq_false_iff_not, Bool.or_eq_true, decide_eq_true_eq, Bool.and_eq_true, Bool.and_eq_false_iff] at *
      rcases Nat.lt_trichotomy y.toNat x.toNat with hl | hl | hl
      · exact .inl hl
      · have : y = x := Char.toNat_inj.1 hl
        subst this
        refine .inr ⟨rfl, ih ?_ fun e => hne (by rw [e])⟩
        rcases h.2 with h2 | h2
        · exact (h2 rfl).elim
        · exact h2
      · exact absurd hl h.1

theorem mem_insert {x y : Name} {l : List Name} : y ∈ insert x l ↔ y = x ∨ y ∈ l := by
  induction l with
  | nil => simp [insert]
  | cons z l ih =>
    unfold insert
    split
    · rename_i e; subst e; simp
    · split
      · simp
      · simp only [List.mem_cons, ih]
        constructor
        · rintro (h | h | h)
          · exact .inr (.inl h)
          · exact .inl h
          · exact .inr (.inr h)
        · rintro (h | h | h)
          · exact .inr (.inl h)
          · exact .inl h
          · exact .inr (.inr h)

theorem insert_sorted {x : Name} {l : List Name} (h : l.Pairwise fun a b => lt a b = true) : (insert x l).Pairwise fun a b => lt a b = true := by
  induction l with
  | nil => simp [insert]
  | cons z l ih =>
    have hz := List.pairwise_cons.1 h
    unfold insert
    split
    · exact h
    · rename_i hne
      split
      · rename_i hlt
        refine List.pairwise_cons.2 ⟨?_, h⟩
        intro y hy
        rcases List.mem_cons.1 hy with rfl | hy
        · exact hlt
        · exact lt_trans hlt (hz.1 y hy)
      · rename_i hlt
        refine List.pairwise_cons.2 ⟨?_, ih hz.2⟩
        intro y hy
        rcases mem_insert.1 hy with rfl | hy
        · exact lt_total (by simpa using hlt) hne
        · exact hz.1 y hy

theorem foldr_sorted (l : List Name) : (l.foldr insert []).Pairwise fun a b => lt a b = true := by
  induction l with
  | nil => exact .nil
  | cons x l ih => exact insert_sorted ih

theorem mem_foldr {x : Name} {l : List Name} : x ∈ l.foldr insert [] ↔ x ∈ l := by
  induction l with
  | nil => simp
  | cons y l ih => simp [mem_insert, ih]

theorem own_iff {c : Cls} (hc : c.names.Nodup) {n : Name} {h : Hook} : c.own n = some h ↔ ∃ m, (m, h) ∈ c.hooks ∧ mangle c.name m = n := by
  unfold Cls.own
  unfold Cls.names Dict.keys at hc
  generalize c.hooks = d at hc
  induction d with
  | nil => simp
  | cons p d ih =>
    simp only [List.map_cons, List.nodup_cons] at hc
    rw [List.find?_cons]
    by_cases hp : mangle c.name p.1 = n
    · simp only [hp, decide_true]
      constructor
      · intro e; cases e; exact ⟨p.1, List.mem_cons_self, hp⟩
      · rintro ⟨m, hm, he⟩
        rcases List.mem_cons.1 hm with e | hm
        · rw [← e]; rfl
        · refine absurd ?_ hc.1
          rw [hp, ← he]
          exact List.mem_map.2 ⟨m, List.mem_map.2 ⟨_, hm, rfl⟩, rfl⟩
    · simp only [hp, decide_false]
      rw [ih hc.2]
      constructor
      · rintro ⟨m, hm, he⟩; exact ⟨m, List.mem_cons_of_mem _ hm, he⟩
      · rintro ⟨m, hm, he⟩
        rcases List.mem_cons.1 hm with e | hm
        · cases e; exact absurd he hp
        · exact ⟨m, hm, he⟩

theorem own_none {c : Cls} {n : Name} : c.own n = none ↔ n ∉ c.names := by
  unfold Cls.own Cls.names Dict.keys
  rw [Option.map_eq_none_iff, List.find?_eq_none]
  constructor
  · intro h hm
    obtain ⟨m, hk, rfl⟩ := List.mem_map.1 hm
    obtain ⟨p, hp, rfl⟩ := List.mem_map.1 hk
    exact h p hp (by simp)
  · intro h p hp he
    exact h (by
      have he : mangle c.name p.1 = n := by simpa using he
      rw [← he]
      exact List.mem_map.2 ⟨p.1, List.mem_map.2 ⟨p, hp, rfl⟩, rfl⟩)

theorem resolve_iff {mro : List Cls} (hw : WF mro) {n : Name} {h : Hook} :
    resolve mro n = some h ↔ ∃ (i : Nat) (m : Name) (c : Cls), mro[i]? = some c ∧ (m, h) ∈ c.hooks ∧ mangle c.name m = n ∧ ∀ j < i, ∀ c', mro[j]? = some c' → n ∉ c'.names := by
  induction mro with
  | nil => simp [resolve]
  | cons c cs ih =>
    have ih := ih fun c' hc' => hw c' (List.mem_cons_of_mem _ hc')
    unfold resolve
    cases ho : c.own n with
    | some g =>
      have hm := (own_iff (hw c List.mem_cons_self)).1 ho
      constructor
      · intro e
        cases e
        obtain ⟨m, hm, he⟩ := hm
        exact ⟨0, m, c, rfl, hm, he, fun j hj => absurd hj (Nat.not_lt_zero j)⟩
      · rintro ⟨i, m, c', hi, hm', he, hall⟩
        cases i with
        | zero =>
          cases hi
          have := (own_iff (hw c List.mem_cons_self)).2 ⟨m, hm', he⟩
          rw [ho] at this
          exact this
        | succ i =>
          have := hall 0 (Nat.succ_pos i) c rfl
          rw [own_none.2 this] at ho
          cases ho
    | none =>
      have hn := own_none.1 ho
      simp only
      rw [ih]
      constructor
      · rintro ⟨i, m, c', hi, hm', he, hall⟩
        refine ⟨i + 1, m, c', hi, hm', he, ?_⟩
        intro j hj c'' hc''
        cases j with
        | zero => cases hc''; exact hn
        | succ j => exact hall j (Nat.lt_of_succ_lt_succ hj) c'' hc''
      · rintro ⟨i, m, c', hi, hm', he, hall⟩
        cases i with
        | zero =>
          cases hi
          rw [← he] at hn
          exact absurd (List.mem_map.2 ⟨m, Dict.mem_keys_of_mem hm', rfl⟩) hn
        | succ i => exact ⟨i, m, c', hi, hm', he, fun j hj c'' hc'' => hall (j + 1) (Nat.succ_lt_succ hj) c'' hc''⟩

theorem names_mem {mro : List Cls} {i : Nat} {c : Cls} {m : Name} {h : Hook} (hi : mro[i]? = some c) (hm : (m, h) ∈ c.hooks) : mangle c.name m ∈ dir mro := by
  unfold dir
  rw [mem_foldr]
  exact List.mem_flatMap.2 ⟨c, List.mem_of_getElem? hi, List.mem_map.2 ⟨m, Dict.mem_keys_of_mem hm, rfl⟩⟩

/-- a function is run before the class is made if and only if it has the mark, some class in the order defines it, and no earlier class defines one with the same
attribute name; so too for functions run after -/
theorem C232_runs (mro : List Cls) (hw : WF mro) (h : Hook) : (h ∈ runPre mro ↔ h.pre = true ∧ ∃ (i : Nat) (m : Name) (c : Cls), mro[i]? = some c ∧ (m, h) ∈ c.hooks ∧
      ∀ j < i, ∀ c', mro[j]? = some c' → mangle c.name m ∉ c'.names) ∧
    (h ∈ runPost mro ↔ h.post = true ∧ ∃ (i : Nat) (m : Name) (c : Cls), mro[i]? = some c ∧ (m, h) ∈ c.hooks ∧
      ∀ j < i, ∀ c', mro[j]? = some c' → mangle c.name m ∉ c'.names) := by
  have key : h ∈ (dir mro).filterMap (resolve mro) ↔ ∃ (i : Nat) (m : Name) (c : Cls), mro[i]? = some c ∧ (m, h) ∈ c.hooks ∧
      ∀ j < i, ∀ c', mro[j]? = some c' → mangle c.name m ∉ c'.names := by
    rw [List.mem_filterMap]
    constructor
    · rintro ⟨n, -, hr⟩
      obtain ⟨i, m, c, hi, hm, rfl, hall⟩ := (resolve_iff hw).1 hr
      exact ⟨i, m, c, hi, hm, hall⟩
    · rintro ⟨i, m, c, hi, hm, hall⟩
      exact ⟨_, names_mem hi hm, (resolve_iff hw).2 ⟨i, m, c, hi, hm, rfl, hall⟩⟩
  unfold runPre runPost
  rw [List.mem_filter, List.mem_filter, key]
  exact ⟨and_comm, and_comm⟩

/-- no function is run twice before, or twice after, if functions are different objects -/
theorem C232_once (mro : List Cls) (hw : WF mro) (hd : ∀ (i j : Nat) (n m : Name) (c c' : Cls) (h : Hook), mro[i]? = some c → mro[j]? = some c' → (n, h) ∈ c.hooks → (m, h) ∈ c'.hooks → mangle c.name n = mangle c'.name m) :
    (runPre mro).Nodup ∧ (runPost mro).Nodup := by
  have hs : (dir mro).Pairwise fun a b => lt a b = true := foldr_sorted _
  have hn : ((dir mro).filterMap (resolve mro)).Nodup := by
    unfold List.Nodup
    rw [List.pairwise_filterMap]
    refine hs.imp ?_
    intro a b hab x hx y hy e
    subst e
    obtain ⟨i, m, c, hi, hm, rfl, -⟩ := (resolve_iff hw).1 hx
    obtain ⟨j, m', c', hj, hm', rfl, -⟩ := (resolve_iff hw).1 hy
    rw [hd i j m m' c c' x hi hj hm hm', lt_irrefl] at hab
    cases hab
  exact ⟨hn.filter _, hn.filter _⟩

theorem takeWhile_name {c : Name} (hc : '_' ∉ c) (n : Name) : (c ++ '_' :: n).takeWhile (fun x => decide (x ≠ '_')) = c := by
  induction c with
  | nil => simp
  | cons x c ih =>
    have hx : x ≠ '_' := fun e => hc (e ▸ List.mem_cons_self)
    simp only [List.cons_append, List.takeWhile_cons, hx, ne_eq, not_false_eq_true, decide_true, if_true]
    rw [ih fun e => hc (List.mem_cons_of_mem _ e)]

theorem mangle_private {c n : Name} (hc : '_' ∉ c) (hn : isPrivate n = true) : ∃ r, n = '_' :: r ∧ mangle c n = '_' :: (c ++ '_' :: r) := by
  have h1 : c.dropWhile (· = '_') = c := by
    cases c with
    | nil => rfl
    | cons x c =>
      have hx : x ≠ '_' := fun e => hc (e ▸ List.mem_cons_self)
      simp [hx]
  unfold mangle
  rw [if_pos hn, h1]
  unfold isPrivate at hn
  split at hn
  · exact ⟨_, rfl, rfl⟩
  · cases hn

/-- every marked function of every class is run exactly once for each new class, if the functions have private names and the classes have different names without
underscores -/
theorem C232_private (mro : List Cls) (hn : (mro.map (·.name)).Nodup) (hu : ∀ c ∈ mro, '_' ∉ c.name ∧ c.hooks.keys.Nodup ∧ ∀ m ∈ c.hooks.keys, isPrivate m = true) (i : Nat) (m : Name) (h : Hook)
    (hd : Defines mro i m h) : (h.pre = true → h ∈ runPre mro) ∧ (h.post = true → h ∈ runPost mro) := by
  have hw : WF mro := by
    intro c hc
    obtain ⟨h1, h2, h3⟩ := hu c hc
    unfold Cls.names
    unfold List.Nodup
    rw [List.pairwise_map]
    refine List.Pairwise.imp_of_mem ?_ h2
    intro a b ha hb hab e
    obtain ⟨r, rfl, e1⟩ := mangle_private h1 (h3 a ha)
    obtain ⟨r', rfl, e2⟩ := mangle_private h1 (h3 b hb)
    rw [e1, e2] at e
    simp only [List.cons.injEq, true_and] at e
    have e := List.append_cancel_left e
    exact hab e
  obtain ⟨c, hi, hm⟩ := hd
  have hfirst : ∀ j < i, ∀ c', mro[j]? = some c' → mangle c.name m ∉ c'.names := by
    intro j hj c' hc' he
    obtain ⟨m', hm', e⟩ := List.mem_map.1 he
    have k := hu c (List.mem_of_getElem? hi)
    have k' := hu c' (List.mem_of_getElem? hc')
    obtain ⟨r, rfl, e1⟩ := mangle_private k.1 (k.2.2 m (Dict.mem_keys_of_mem hm))
    obtain ⟨r', rfl, e2⟩ := mangle_private k'.1 (k'.2.2 m' hm')
    rw [e1, e2] at e
    simp only [List.cons.injEq, true_and] at e
    have : c'.name = c.name := by rw [← takeWhile_name k'.1 r', e, takeWhile_name k.1 r]
    have hi' : (mro.map (·.name))[i]? = some c.name := by simp [hi]
    have hj' : (mro.map (·.name))[j]? = some c.name := by simp [hc', this]
    have hlt : i < (mro.map (·.name)).length := (List.getElem?_eq_some_iff.1 hi').1
    have hjt : j < (mro.map (·.name)).length := (List.getElem?_eq_some_iff.1 hj').1
    rw [List.getElem?_eq_getElem hlt] at hi'
    rw [List.getElem?_eq_getElem hjt] at hj'
    exact List.pairwise_iff_getElem.1 hn j i hjt hlt hj ((Option.some.inj hj').trans (Option.some.inj hi').symm)
  have r := C232_runs mro hw h
  exact ⟨fun hp => r.1.2 ⟨hp, i, m, c, hi, hm, hfirst⟩, fun hp => r.2.2 ⟨hp, i, m, c, hi, hm, hfirst⟩⟩

/-- a class with a private function for each time -/
def clsB : Cls := ⟨"B".toList, [("__make".toList, ⟨1, true, false⟩), ("__check".toList, ⟨2, false, true⟩)]⟩
/-- its base class -/
def clsZ : Cls := ⟨"Z".toList, [("__make".toList, ⟨3, true, false⟩)]⟩

example : (create [clsB, clsZ]).map (·.id) = [1, 3, 2] ∧ (([clsB, clsZ].map (·.name)).Nodup) ∧ Defines [clsB, clsZ] 1 "__make".toList ⟨3, true, false⟩ :=
  ⟨by decide +kernel, by decide +kernel, clsZ, rfl, List.mem_cons_self⟩

example : ∀ c ∈ [clsB, clsZ], '_' ∉ c.name ∧ c.hooks.keys.Nodup ∧ ∀ m ∈ c.hooks.keys, isPrivate m = true := by decide +kernel

/-- the function of the base class runs after that of the class: the order is that of the names -/
theorem C232_order_fails : (runPre [clsB, clsZ]).map (·.id) = [1, 3] ∧ (runPre [⟨"Z".toList, clsB.hooks⟩, ⟨"B".toList, clsZ.hooks⟩]).map (·.id) = [3, 1] := by decide +kernel

/-- a class with the name of its base class: the function of the base class does not run -/
theorem C232_same_name_fails : runPre [clsB, ⟨"B".toList, clsZ.hooks⟩] = [⟨1, true, false⟩] := by decide +kernel

/-- a function whose name ends with underscores is not private: that of the base class does not run -/
theorem C232_dunder_fails : runPre [⟨"B".toList, [("__make__".toList, ⟨1, true, false⟩)]⟩, ⟨"Z".toList, [("__make__".toList, ⟨3, true, false⟩)]⟩] = [⟨1, true, false⟩] := by decide +kernel

/-- a class whose name differs by an underscore at the beginning: the same -/
theorem C232_underscore_fails : runPre [clsB, ⟨"_B".toList, clsZ.hooks⟩] = [⟨1, true, false⟩] := by decide +kernel

end Verif.Hooks

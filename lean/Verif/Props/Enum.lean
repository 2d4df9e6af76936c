import Verif.Model.Enum

/-!
# Properties of enumerated columns
-/

namespace Verif.Enum
open Verif

variable {τ : Type} [DecidableEq τ]

private theorem precision_spec {n b : Nat} (h : precision n = some b) : n ≤ 2 ^ b := by
  unfold precision at h
  simp only at h
  by_cases hw : 8 * max 1 (if Nat.clog 2 n ≤ 8 then 1 else 2 ^ ((Nat.clog 2 n - 8 + 7) / 8)) ≤ 64
  · rw [if_pos hw] at h
    simp only [Option.some.injEq] at h
    subst h
    refine le_trans (Nat.le_pow_clog (by norm_num) n) (Nat.pow_le_pow_right (by norm_num) ?_)
    split
    · omega
    · rename_i hc
      have h1 : (Nat.clog 2 n - 8 + 7) / 8 < 2 ^ ((Nat.clog 2 n - 8 + 7) / 8) := Nat.lt_two_pow_self
      omega
  · rw [if_neg hw] at h; simp at h

private theorem mapElements_get (b : Nat) : ∀ (ts : List τ) (k : Nat) (d : Dict τ Nat), ts.Nodup → k + ts.length ≤ 2 ^ b →
    (∀ (i : Nat) t, ts[i]? = some t → Dict.get? (mapElements b k ts d) t = some (k + i)) ∧
    (∀ t, t ∉ ts → Dict.get? (mapElements b k ts d) t = Dict.get? d t) := by
  intro ts
  induction ts with
  | nil => intro k d _ _; simp [mapElements]
  | cons t ts ih =>
    intro k d hn hk
    simp only [List.nodup_cons] at hn
    simp only [List.length_cons] at hk
    obtain ⟨h1, h2⟩ := ih (k + 1) (d.set t (k % 2 ^ b)) hn.2 (by omega)
    constructor
    · intro i u hu
      cases i with
      | zero =>
        simp only [List.getElem?_cons_zero, Option.some.injEq] at hu
        subst hu
        simp only [mapElements]
        rw [h2 t hn.1, Dict.get?_set_self, Nat.mod_eq_of_lt (by omega)]; rfl
      | succ i =>
        simp only [mapElements]
        rw [h1 i u (by simpa using hu)]; congr 1; omega
    · intro u hu
      simp only [List.mem_cons, not_or] at hu
      simp only [mapElements]
      rw [h2 u hu.2, Dict.get?_set_ne hu.1]

/-- representation invariant -/
structure Inv (s : EnumCol τ) : Prop where
  nodup : s.elements.Nodup
  rev : ∀ t i, Dict.get? s.rev t = some i ↔ s.elements[i]? = some t
  bits : ∀ b, s.bits = some b → precision s.elements.length = some b
  none : s.bits = none → s.elements = []

private theorem rev_of_map {b : Nat} {els : List τ} (hn : els.Nodup) (hk : els.length ≤ 2 ^ b) :
    ∀ t i, Dict.get? (mapElements b 0 els []) t = some i ↔ els[i]? = some t := by
  obtain ⟨h1, h2⟩ := mapElements_get b els 0 [] hn (by omega)
  intro t i
  constructor
  · intro h
    by_cases hm : t ∈ els
    · obtain ⟨j, hj⟩ := List.getElem?_of_mem hm
      have := h1 j t hj
      rw [this] at h; simp at h; subst h; exact hj
    · rw [h2 t hm] at h; simp at h
  · intro h; have := h1 i t h; simpa using this

private theorem construct_inv {data : List Int} {els : List τ} {s : EnumCol τ} (h : construct data els = .ok s)
    (hn : els.Nodup) : Inv s ∧ s.elements = els ∧ s.data = data := by
  unfold construct at h
  split at h
  · rename_i hl
    cases hp : precision els.length with
    | none => simp [hp] at h
    | some b =>
      simp only [hp, Except.ok.injEq] at h
      subst h
      refine ⟨⟨hn, rev_of_map hn (precision_spec hp), ?_, by simp⟩, rfl, rfl⟩
      intro b' hb'; simp at hb'; subst hb'; exact hp
  · rename_i hl
    simp only [Except.ok.injEq] at h
    subst h
    have : els = [] := List.length_eq_zero_iff.1 (by omega)
    subst this
    exact ⟨⟨hn, by simp, by simp, by simp⟩, rfl, rfl⟩

private theorem addTerm_ok {s s' : EnumCol τ} {t : τ} {i : Int} (h : addTerm s t = (s', .ok i)) (hi : Inv s) :
    Inv s' ∧ s.elements <+: s'.elements ∧ s'.data.length = s.data.length ∧
      (∀ (j : Nat) v, s.data[j]? = some v → 0 ≤ v → v < s.elements.length → s'.data[j]? = some v) ∧
      (0 ≤ i ∧ i < s'.elements.length ∧ s'.elements[i.toNat]? = some t) ∧
      ((∀ v ∈ s.data, 0 ≤ v ∧ v < s.elements.length) → ∀ v ∈ s'.data, 0 ≤ v ∧ v < s'.elements.length) := by
  unfold addTerm at h
  cases hg : Dict.get? s.rev t with
  | some k =>
    simp only [hg, Prod.mk.injEq, Except.ok.injEq] at h
    obtain ⟨rfl, rfl⟩ := h
    have hk := (hi.rev t k).1 hg
    have hlt : k < s.elements.length := (List.getElem?_eq_some_iff.1 hk).1
    exact ⟨hi, List.prefix_refl _, rfl, fun j v hv _ _ => hv, ⟨by omega, by omega, by simpa using hk⟩, fun h => h⟩
  | none =>
    simp only [hg] at h
    have hnm : t ∉ s.elements := by
      intro hm
      obtain ⟨j, hj⟩ := List.getElem?_of_mem hm
      rw [(hi.rev t j).2 hj] at hg; simp at hg
    have hnd : (s.elements ++ [t]).Nodup := by
      rw [List.nodup_append]
      exact ⟨hi.nodup, by simp, fun a ha b hb e => hnm (by rw [List.mem_singleton] at hb; rw [← hb, ← e]; exact ha)⟩
    cases hp : precision (s.elements ++ [t]).length with
    | none => rw [hp] at h; simp at h
    | some b =>
      simp only [hp] at h
      have hle := precision_spec hp
      simp only [List.length_append, List.length_singleton] at hle
      by_cases hb : s.bits = some b
      · simp only [hb, if_true, List.length_append, List.length_singleton, Nat.add_sub_cancel, Dict.get?_set_self,
          Prod.mk.injEq, Except.ok.injEq] at h
        obtain ⟨rfl, rfl⟩ := h
        rw [Nat.mod_eq_of_lt (by omega)]
        refine ⟨⟨hnd, ?_, ?_, by simp⟩, List.prefix_append _ _, rfl, fun j v hv _ _ => hv, ⟨by omega, by simp, by simp⟩, ?_⟩
        · intro u i
          simp only [Dict.get?_set]
          by_cases hu : u = t
          · subst hu
            rw [if_pos rfl]
            constructor
            · intro h; simp at h; subst h; simp
            · intro h
              congr 1
              by_contra hc
              by_cases hlt : i < s.elements.length
              · rw [List.getElem?_append_left hlt] at h
                exact hnm (List.mem_of_getElem? h)
              · rw [List.getElem?_eq_none (by simp; omega)] at h; simp at h
          · rw [if_neg hu, hi.rev]
            constructor
            · intro h
              rw [List.getElem?_append_left (List.getElem?_eq_some_iff.1 h).1]; exact h
            · intro h
              by_cases hlt : i < s.elements.length
              · rwa [List.getElem?_append_left hlt] at h
              · rw [List.getElem?_append_right (by omega)] at h
                rcases Nat.eq_zero_or_pos (i - s.elements.length) with h0 | h0
                · rw [h0] at h; simp at h; exact absurd h.symm hu
                · rw [List.getElem?_eq_none (by simp; omega)] at h; simp at h
        · intro b' hb'
          simp only at hb'
          simp at hb'; subst hb'; exact hp
        · intro hall v hv
          have := hall v hv
          simp only [List.length_append, List.length_singleton]; omega
      · have hrev := rev_of_map hnd (precision_spec hp)
        have hlast := (hrev t s.elements.length).2 (by simp)
        simp only [hb, if_false, hlast, Prod.mk.injEq, Except.ok.injEq] at h
        obtain ⟨rfl, rfl⟩ := h
        have hcast : ∀ v : Int, 0 ≤ v → v < s.elements.length → cast b v = v := by
          intro v h0 h1
          unfold cast
          exact Int.emod_eq_of_lt h0 (by
            have : ((s.elements.length : Nat) : Int) ≤ ((2 ^ b : Nat) : Int) := by omega
            omega)
        refine ⟨⟨hnd, hrev, ?_, by simp⟩, List.prefix_append _ _, by simp, ?_, ⟨by omega, by simp, by simp⟩, ?_⟩
        · intro b' hb'; simp at hb'; subst hb'; exact hp
        · intro j v hv h0 h1
          simp only [List.getElem?_map, hv, Option.map_some, hcast v h0 h1]
        · intro hall v hv
          simp only [List.mem_map] at hv
          obtain ⟨w, hw, rfl⟩ := hv
          have := hall w hw
          rw [hcast w this.1 this.2]
          simp only [List.length_append, List.length_singleton]; omega

private theorem addRow_ok {s s' : EnumCol τ} {a : Arg τ} (h : addRow s a = (s', .ok ())) (hi : Inv s) :
    Inv s' ∧ s.elements <+: s'.elements ∧ s'.data.length = s.data.length + 1 ∧
      (∀ (j : Nat) v, s.data[j]? = some v → 0 ≤ v → v < s.elements.length → s'.data[j]? = some v) ∧
      (∀ t, a = .term t → ∃ i : Nat, s'.data[s.data.length]? = some (i : Int) ∧ s'.elements[i]? = some t) ∧
      (∀ i, a = .index i → s'.data[s.data.length]? = some i) ∧
      ((∀ v ∈ s.data, 0 ≤ v ∧ v < s.elements.length) → (∀ i, a = .index i → 0 ≤ i ∧ i < s.elements.length) →
        ∀ v ∈ s'.data, 0 ≤ v ∧ v < s'.elements.length) := by
  cases a with
  | index i =>
    simp only [addRow, Prod.mk.injEq, and_true] at h
    subst h
    refine ⟨⟨hi.nodup, hi.rev, hi.bits, hi.none⟩, List.prefix_refl _, by simp, ?_, by simp, by simp, ?_⟩
    · intro j v hv _ _
      exact List.getElem?_append_left (l₂ := [i]) (List.getElem?_eq_some_iff.1 hv).1 |>.trans hv
    · intro hall hin v hv
      simp only [List.mem_append, List.mem_singleton] at hv
      rcases hv with hv | rfl
      · exact hall v hv
      · exact hin _ rfl
  | term t =>
    simp only [addRow] at h
    cases hr : addTerm s t with
    | mk s1 r =>
      rw [hr] at h
      cases r with
      | error e => simp at h
      | ok i =>
        simp only [Prod.mk.injEq, and_true] at h
        subst h
        obtain ⟨h1, h2, h3, h4, ⟨h5, h6, h7⟩, h8⟩ := addTerm_ok hr hi
        refine ⟨⟨h1.nodup, h1.rev, h1.bits, h1.none⟩, h2, by simp [h3], ?_, ?_, by simp, ?_⟩
        · intro j v hv a b
          have := h4 j v hv a b
          exact List.getElem?_append_left (l₂ := [i]) (List.getElem?_eq_some_iff.1 this).1 |>.trans this
        · intro u hu
          simp only [Arg.term.injEq] at hu; subst hu
          refine ⟨i.toNat, ?_, h7⟩
          rw [← h3]; simp; omega
        · intro hall _ v hv
          simp only [List.mem_append, List.mem_singleton] at hv
          rcases hv with hv | rfl
          · exact h8 hall v hv
          · exact ⟨h5, h6⟩

private theorem pyGet_nat' {β : Type} (l : List β) (i : Nat) (x : β) (h : l[i]? = some x) : pyGet l (i : Int) = .ok x := by
  have hl := (List.getElem?_eq_some_iff.1 h).1
  have h2 : l[i] = x := (List.getElem?_eq_some_iff.1 h).2
  unfold pyGet pyPos
  simp [hl, h2]

/-- histories preserve the invariant and all entries that point to a term -/
private theorem runOk_ok : ∀ (as : List (Arg τ)) (s s' : EnumCol τ), runOk s as = some s' → Inv s →
    Inv s' ∧ s.elements <+: s'.elements ∧
      (∀ (j : Nat) v, s.data[j]? = some v → 0 ≤ v → v < s.elements.length → s'.data[j]? = some v) := by
  intro as
  induction as with
  | nil =>
    intro s s' h hi
    simp only [runOk, Option.some.injEq] at h; subst h
    exact ⟨hi, List.prefix_refl _, fun j v hv _ _ => hv⟩
  | cons a as ih =>
    intro s s' h hi
    simp only [runOk] at h
    cases hs : addRow s a with
    | mk s1 r =>
      rw [hs] at h
      cases r with
      | error e => simp at h
      | ok u =>
        obtain ⟨h1, h2, -, h4, -⟩ := addRow_ok hs hi
        obtain ⟨i1, i2, i3⟩ := ih s1 s' h h1
        refine ⟨i1, h2.trans i2, fun j v hv a b => i3 j v (h4 j v hv a b) a ?_⟩
        have := h2.length_le; omega

/-- reachable columns: built from distinct elements and extended by successful additions -/
def Reachable (s : EnumCol τ) : Prop :=
  ∃ data els s0 as, els.Nodup ∧ construct data els = .ok s0 ∧ runOk s0 as = some s

private theorem Reachable.inv {s : EnumCol τ} (h : Reachable s) : Inv s := by
  obtain ⟨data, els, s0, as, hn, hc, hr⟩ := h
  exact (runOk_ok as s0 s hr (construct_inv hc hn).1).1

/-- **C21 (terms).** In a column built from distinct elements and extended by any successful additions, terms are
distinct. -/
theorem C21_terms_distinct (s : EnumCol τ) (h : Reachable s) : s.elements.Nodup := h.inv.nodup

/-- **C21 (added terms read back).** Adding a row by term makes the new last entry read as that term, also after any further
successful additions. -/
theorem C21_added (s s1 s2 : EnumCol τ) (t : τ) (as : List (Arg τ)) (h : Reachable s)
    (ha : addRow s (.term t) = (s1, .ok ())) (hr : runOk s1 as = some s2) : get s2 s.data.length = .ok t := by
  obtain ⟨h1, -, -, -, h5, -⟩ := addRow_ok ha h.inv
  obtain ⟨i, hi, ht⟩ := h5 t rfl
  obtain ⟨-, p2, p3⟩ := runOk_ok as s1 s2 hr h1
  have hlt := (List.getElem?_eq_some_iff.1 ht).1
  have h2 := p3 _ _ hi (by omega) (by omega)
  have h3 : s2.elements[i]? = some t := by
    obtain ⟨x, hx⟩ := p2
    rw [← hx, List.getElem?_append_left hlt]; exact ht
  simp only [get, pyGet_nat' _ _ _ h2, pyGet_nat' _ _ _ h3]

/-- **C21 (added indices read back).** Adding a row by the index of a term makes the new last entry read as that term, also
after any further successful additions. -/
theorem C21_added_index (s s1 s2 : EnumCol τ) (i : Nat) (t : τ) (as : List (Arg τ)) (h : Reachable s)
    (ht : s.elements[i]? = some t) (ha : addRow s (.index i) = (s1, .ok ())) (hr : runOk s1 as = some s2) :
    get s2 s.data.length = .ok t := by
  obtain ⟨h1, h2, -, -, -, h6, -⟩ := addRow_ok ha h.inv
  obtain ⟨-, p2, p3⟩ := runOk_ok as s1 s2 hr h1
  have hlt := (List.getElem?_eq_some_iff.1 ht).1
  have := h2.length_le
  have h7 := p3 _ _ (h6 i rfl) (by omega) (by omega)
  have h3 : s2.elements[i]? = some t := by
    obtain ⟨x, hx⟩ := h2.trans p2
    rw [← hx, List.getElem?_append_left hlt]; exact ht
  simp only [get, pyGet_nat' _ _ _ h7, pyGet_nat' _ _ _ h3]

/-- **C21 (earlier entries).** An entry holding a non-negative index that resolves to a term resolves to the same term after
any further successful additions, whatever changes of integer width they cause. -/
theorem C21_stable_partial (s s' : EnumCol τ) (as : List (Arg τ)) (h : Reachable s) (hr : runOk s as = some s')
    (j k : Nat) (t : τ) (hj : s.data[j]? = some (k : Int)) (ht : get s j = .ok t) : get s' j = .ok t := by
  obtain ⟨-, p2, p3⟩ := runOk_ok as s s' hr h.inv
  simp only [get, pyGet_nat' _ _ _ hj] at ht
  have hk : s.elements[k]? = some t := by
    unfold pyGet pyPos at ht
    by_cases hlt : k < s.elements.length
    · simp [hlt] at ht; rw [List.getElem?_eq_getElem hlt, ht]
    · simp [hlt] at ht
  have hlt := (List.getElem?_eq_some_iff.1 hk).1
  have h3 : s'.elements[k]? = some t := by
    obtain ⟨x, hx⟩ := p2
    rw [← hx, List.getElem?_append_left hlt]; exact hk
  simp only [get, pyGet_nat' _ _ _ (p3 j k hj (by omega) (by omega)), pyGet_nat' _ _ _ h3]

/-- **C21 (width).** If the data given and all indices added are indices of terms existing at that time, every entry is the
index of a term and fits the integer width of the column. -/
theorem C21_fits (data : List Int) (els : List τ) (s0 s : EnumCol τ) (as : List (Arg τ)) (hn : els.Nodup)
    (hc : construct data els = .ok s0) (hd : ∀ v ∈ data, 0 ≤ v ∧ v < els.length) (hr : runOk s0 as = some s)
    (hix : ∀ i, Arg.index i ∈ as → 0 ≤ i ∧ i < els.length) :
    ∀ v ∈ s.data, 0 ≤ v ∧ v < s.elements.length ∧ ∃ b, s.bits = some b ∧ v < (2 ^ b : Nat) := by
  obtain ⟨hi0, he, hda⟩ := construct_inv hc hn
  have key : ∀ (as : List (Arg τ)) (s0 s : EnumCol τ), runOk s0 as = some s → Inv s0 → els.length ≤ s0.elements.length →
      (∀ v ∈ s0.data, 0 ≤ v ∧ v < s0.elements.length) → (∀ i, Arg.index i ∈ as → 0 ≤ i ∧ i < els.length) →
      Inv s ∧ ∀ v ∈ s.data, 0 ≤ v ∧ v < s.elements.length := by
    intro as
    induction as with
    | nil => intro s0 s h hi _ hv _; simp only [runOk, Option.some.injEq] at h; subst h; exact ⟨hi, hv⟩
    | cons a as ih =>
      intro s0 s h hi hl hv hx
      simp only [runOk] at h
      cases hs : addRow s0 a with
      | mk s1 r =>
        rw [hs] at h
        cases r with
        | error e => simp at h
        | ok u =>
          obtain ⟨h1, h2, -, -, -, -, h7⟩ := addRow_ok hs hi
          refine ih s1 s h h1 (le_trans hl h2.length_le) (h7 hv ?_) (fun i hm => hx i (by simp [hm]))
          intro i hai
          have := hx i (by simp [hai]); omega
  obtain ⟨hi, hv⟩ := key as s0 s hr hi0 (by rw [he]) (by rw [hda, he]; exact hd) hix
  intro v hvm
  obtain ⟨a, b⟩ := hv v hvm
  refine ⟨a, b, ?_⟩
  cases hb : s.bits with
  | none =>
    have := hi.none hb
    rw [this] at b; simp at b; omega
  | some w =>
    refine ⟨w, rfl, ?_⟩
    have := precision_spec (hi.bits w hb)
    omega

/-- non-vacuity: additions by term and by index -/
example : ((construct [1, 0] ["x", "y"]).toOption.bind fun s =>
    (runOk s [.term "y", .term "z", .index 0, .term "z"]).map (fun s => (s.elements, s.data))) =
      some (["x", "y", "z"], [1, 0, 1, 2, 0, 2]) := by decide +kernel

example : ((construct [1, 0] ["x", "y"]).toOption.bind fun s =>
    (runOk s [.term "y", .term "z", .index 0, .term "z"]).map (fun s => (s.bits, get s 1, get s 3))) =
      some (some 8, .ok "x", .ok "z") := by decide +kernel

/-- **C21 fails** for negative indices, which are accepted and count from the end of a growing list of terms: an entry read
as "a" reads as "b" after a later addition. -/
theorem C21_negative_index_fails : ∃ (s s1 s2 : EnumCol String), Reachable s ∧
    runOk s [.index (-1)] = some s1 ∧ runOk s1 [.term "b"] = some s2 ∧ get s1 0 = .ok "a" ∧ get s2 0 = .ok "b" := by
  refine ⟨⟨["a"], [], precision 1, [("a", 0)]⟩, _, _, ⟨[], ["a"], _, [], by decide +kernel, rfl, rfl⟩, rfl, rfl, ?_, ?_⟩ <;>
    decide +kernel

/-- **C21 fails** beyond 2^32 terms: the width formula asks for 128-bit integers, and adding a term by name is refused with
TypeError after the term has been appended to the list of terms. -/
theorem C21_many_terms_fails (s : EnumCol τ) (t : τ) (hn : Dict.get? s.rev t = none) (hl : s.elements.length = 2 ^ 32) :
    (addRow s (.term t)).2 = .error .typeError ∧ (addRow s (.term t)).1.elements = s.elements ++ [t] := by
  have hp : precision (s.elements ++ [t]).length = none := by
    have : (s.elements ++ [t]).length = 2 ^ 32 + 1 := by simp [hl]
    rw [this]
    have hc : Nat.clog 2 (2 ^ 32 + 1) = 33 := by
      apply le_antisymm
      · exact Nat.clog_le_of_le_pow (by omega)
      · by_contra h
        have h1 := Nat.le_pow_clog (b := 2) (by norm_num) (2 ^ 32 + 1)
        have h2 : 2 ^ Nat.clog 2 (2 ^ 32 + 1) ≤ 2 ^ 32 := Nat.pow_le_pow_right (by norm_num) (by omega)
        omega
    simp only [precision, hc]
    decide
  constructor <;> simp only [addRow, addTerm, hn, hp]

end Verif.Enum

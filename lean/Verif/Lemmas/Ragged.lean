import Verif.Base.Tac
import Verif.Model.Ragged

/-! Helper lemmas for ragged columns. -/

namespace Verif.Ragged
open Verif

variable {α β ι : Type}

/-- the rows cut out of `rs` by the end positions, the first starting at `p` -/
def cut (p : Nat) : List Nat → List β → List (List β)
  | [], _ => []
  | e :: es, rs => (rs.drop p).take (e - p) :: cut e es rs

/-- all row values of a column -/
def rows : (n : Nat) → Col α n → List (Val α n)
  | 0, l => l
  | n + 1, (ix, t) => cut 0 ix.data (rows n t)

def BitsOk (b : Nat) : Prop := b = 8 ∨ b = 16 ∨ b = 32 ∨ b = 64

/-- well-formed index over a target of length `L` -/
structure WFIx (ix : Index) (L : Nat) : Prop where
  sto : ix.storage = .adjustable
  bits : BitsOk ix.bits
  sorted : ix.data.Pairwise (· ≤ ·)
  last : ix.data.getLast?.getD 0 = L
  repr : ∀ v ∈ ix.data, v < 2 ^ ix.bits

def WF : (n : Nat) → Col α n → Prop
  | 0, _ => True
  | n + 1, (ix, t) => WFIx ix (len n t) ∧ WF n t

theorem le_last {l : List Nat} (hs : l.Pairwise (· ≤ ·)) : ∀ v ∈ l, v ≤ l.getLast?.getD 0 := by
  intro v hv
  rcases List.eq_nil_or_concat l with rfl | ⟨l', x, rfl⟩
  · simp at hv
  · simp only [List.concat_eq_append, List.getLast?_append, List.getLast?_singleton, Option.some_or, Option.getD_some]
    simp only [List.concat_eq_append, List.pairwise_append] at hs
    simp only [List.concat_eq_append, List.mem_append, List.mem_singleton] at hv
    rcases hv with hv | rfl
    · exact hs.2.2 v hv x (by simp)
    · exact Nat.le_refl _

theorem length_cut (p : Nat) (es : List Nat) (rs : List β) : (cut p es rs).length = es.length := by
  induction es generalizing p with
  | nil => rfl
  | cons e es ih => simp [cut, ih]

theorem length_rows (n : Nat) (c : Col α n) : (rows n c).length = len n c := by
  cases n with
  | zero => rfl
  | succ n => exact length_cut _ _ _

theorem cut_append_rows (p : Nat) (es : List Nat) (rs new : List β) (h : ∀ e ∈ es, e ≤ rs.length)
    (hp : p ≤ rs.length) : cut p es (rs ++ new) = cut p es rs := by
  induction es generalizing p with
  | nil => rfl
  | cons e es ih =>
    have he := h e (by simp)
    simp only [cut]
    rw [ih e (fun x hx => h x (by simp [hx])) he]
    congr 1
    rw [List.drop_append_of_le_length hp, List.take_append_of_le_length (by simp; omega)]

theorem cut_snoc (p : Nat) (es : List Nat) (e : Nat) (rs : List β) :
    cut p (es ++ [e]) rs = cut p es rs ++ [(rs.drop (es.getLast?.getD p)).take (e - es.getLast?.getD p)] := by
  induction es generalizing p with
  | nil => rfl
  | cons x es ih =>
    simp only [List.cons_append, cut, ih]
    congr 3; cases es; all_goals simp [List.getLast?_cons]

theorem cut_getElem? (p : Nat) (es : List Nat) (rs : List β) (i : Nat) (e : Nat) (h : es[i]? = some e) :
    ∃ s, (if i = 0 then some p else es[i - 1]?) = some s ∧ (cut p es rs)[i]? = some ((rs.drop s).take (e - s)) := by
  induction es generalizing p i with
  | nil => simp at h
  | cons x es ih =>
    cases i with
    | zero => simp at h; subst h; exact ⟨p, by simp, by simp [cut]⟩
    | succ i =>
      obtain ⟨s, h1, h2⟩ := ih x i (by simpa using h)
      refine ⟨s, ?_, by simpa [cut] using h2⟩
      cases i with
      | zero => simpa using h1
      | succ i => simpa using h1

theorem collect_ok {f : ι → Except Err β} {g : ι → β} {l : List ι} (h : ∀ i ∈ l, f i = .ok (g i)) :
    collect f l = .ok (l.map g) := by
  induction l with
  | nil => rfl
  | cons i l ih =>
    simp only [collect, h i (by simp), ih (fun j hj => h j (by simp [hj])), List.map_cons]

theorem collect_ok_iff {f : ι → Except Err β} {l : List ι} {r : List β} :
    collect f l = .ok r ↔ List.Forall₂ (fun i x => f i = .ok x) l r := by
  induction l generalizing r with
  | nil => simp [collect]
  | cons i l ih =>
    simp only [collect]
    cases h : f i with
    | error e => simp [List.forall₂_cons_left_iff, h]
    | ok x =>
      simp only
      cases h2 : collect f l with
      | error e =>
        simp only [reduceCtorEq, false_iff]
        intro hf
        obtain ⟨y, ys, _, hys, _⟩ := List.forall₂_cons_left_iff.1 hf
        rw [ih.2 hys] at h2; simp at h2
      | ok xs =>
        simp only [Except.ok.injEq]
        constructor
        · rintro rfl; exact .cons h (ih.1 h2)
        · intro hf
          obtain ⟨y, ys, h3, hys, rfl⟩ := List.forall₂_cons_left_iff.1 hf
          rw [h] at h3; simp only [Except.ok.injEq] at h3
          rw [ih.2 hys] at h2; simp only [Except.ok.injEq] at h2
          rw [h3, h2]

theorem pyGet_nat (l : List β) (i : Nat) : pyGet l (i : Int) = match l[i]? with | some x => .ok x | none => .error .indexError := by
  unfold pyGet pyPos
  by_cases h : i < l.length
  · simp [h]
  · rw [List.getElem?_eq_none (by omega)]; simp [h]

theorem helper_nat {gs : Nat → Nat → Except Err (List β)} {ix : Index} {rs : List β}
    (hgs : ∀ a b, gs a b = .ok ((rs.drop a).take (b - a))) (i : Nat) (hi : i < ix.data.length) :
    ∃ r, (cut 0 ix.data rs)[i]? = some r ∧ helper gs ix (i : Int) = .ok r := by
  have he : ix.data[i]? = some ix.data[i] := List.getElem?_eq_getElem hi
  obtain ⟨s, h1, h2⟩ := cut_getElem? 0 ix.data rs i _ he
  refine ⟨_, h2, ?_⟩
  unfold helper
  cases i with
  | zero =>
    simp only [if_true, Option.some.injEq] at h1
    have := pyGet_nat ix.data 0
    simp only [Nat.cast_zero, he] at this ⊢
    simp only [if_true, this, hgs, ← h1]
  | succ i =>
    have hne : ((i + 1 : Nat) : Int) ≠ 0 := by omega
    have e1 : ((i + 1 : Nat) : Int) - 1 = (i : Int) := by omega
    simp only [hne, if_false, e1, pyGet_nat]
    simp only [Nat.add_one_ne_zero, if_false, Nat.add_sub_cancel] at h1
    simp only [h1, he, hgs]

theorem range_drop_map (rs : List β) (a b : Nat) (g : Nat → β) (hg : ∀ i, i < rs.length → rs[i]? = some (g i)) :
    ((List.range (min b rs.length)).drop a).map g = (rs.drop a).take (b - a) := by
  apply List.ext_getElem?
  intro k
  rw [List.getElem?_map, List.getElem?_drop, List.getElem?_take, List.getElem?_drop]
  by_cases hk : a + k < min b rs.length
  · rw [List.getElem?_range hk, if_pos (by omega), hg _ (by omega)]; rfl
  · rw [List.getElem?_eq_none (by simp; omega)]
    by_cases hk2 : k < b - a
    · rw [if_pos hk2, List.getElem?_eq_none (by omega)]; rfl
    · rw [if_neg hk2]; rfl

theorem getSlice_spec (n : Nat) (c : Col α n) (a b : Nat) :
    getSlice n c a b = .ok (((rows n c).drop a).take (b - a)) := by
  induction n generalizing a b with
  | zero => rfl
  | succ n ih =>
    obtain ⟨ix, t⟩ := c
    simp only [getSlice, rows]
    have hl : (cut 0 ix.data (rows n t)).length = ix.data.length := length_cut _ _ _
    have hh := fun i hi => helper_nat (ix := ix) (ih t) i hi
    have h1 : ∀ i ∈ (List.range (min b ix.data.length)).drop a,
        helper (getSlice n t) ix ((i : Nat) : Int) = .ok (((cut 0 ix.data (rows n t))[i]?).getD []) := by
      intro i hi
      have hi' := List.mem_range.1 (List.mem_of_mem_drop hi)
      obtain ⟨r, h1, h2⟩ := hh i (by omega)
      rw [h2, h1]; rfl
    rw [collect_ok h1]
    congr 1
    rw [← hl]
    exact range_drop_map _ a b _ (fun i hi => by rw [List.getElem?_eq_getElem hi]; rfl)

theorem get_spec (n : Nat) (c : Col α n) (i : Nat) (v : Val α n) (h : (rows n c)[i]? = some v) :
    get n c (i : Int) = .ok v := by
  cases n with
  | zero =>
    have h' : (c : List α)[i]? = some v := h
    show pyGet (c : List α) i = _
    rw [pyGet_nat, h']
  | succ n =>
    obtain ⟨ix, t⟩ := c
    have hi : i < ix.data.length := by
      have := (List.getElem?_eq_some_iff.1 h).1
      rwa [length_rows] at this
    obtain ⟨r, h1, h2⟩ := helper_nat (ix := ix) (getSlice_spec n t) i hi
    have : (cut 0 ix.data (rows n t))[i]? = some v := h
    rw [h1] at this; simp only [Option.some.injEq] at this
    show helper _ _ _ = _
    rw [h2, this]

theorem maxval_lt {b idx : Nat} (hb : BitsOk b) (h64 : idx < 2 ^ 64) (h : ¬ idx > maxval b) : idx < 2 ^ b := by
  rcases hb with rfl | rfl | rfl | rfl <;> simp [maxval] at h ⊢ <;> omega

theorem widen_spec (idx : Nat) (h64 : idx < 2 ^ 64) (b : Nat) (hb : BitsOk b) :
    ∃ b', widen idx 4 b = some b' ∧ BitsOk b' ∧ b ≤ b' ∧ ¬ idx > maxval b' := by
  have n64 : ¬ idx > maxval 64 := by simp [maxval]; omega
  have key : ∀ b, BitsOk b → ∀ fuel, 4 ≤ fuel + (if b = 16 then 1 else if b = 32 then 2 else if b = 64 then 3 else 0) →
      ∃ b', widen idx fuel b = some b' ∧ BitsOk b' ∧ b ≤ b' ∧ ¬ idx > maxval b' := by
    have h64' : ∀ fuel, 0 < fuel → ∃ b', widen idx fuel 64 = some b' ∧ BitsOk b' ∧ 64 ≤ b' ∧ ¬ idx > maxval b' := by
      intro fuel hf
      obtain ⟨f, rfl⟩ : ∃ f, fuel = f + 1 := ⟨fuel - 1, by omega⟩
      exact ⟨64, by simp [widen, n64], by simp [BitsOk], Nat.le_refl _, n64⟩
    have h32 : ∀ fuel, 1 < fuel → ∃ b', widen idx fuel 32 = some b' ∧ BitsOk b' ∧ 32 ≤ b' ∧ ¬ idx > maxval b' := by
      intro fuel hf
      obtain ⟨f, rfl⟩ : ∃ f, fuel = f + 1 := ⟨fuel - 1, by omega⟩
      by_cases hc : idx > maxval 32
      · obtain ⟨b', h1, h2, h3, h4⟩ := h64' f (by omega)
        exact ⟨b', by simp [widen, hc, h1], h2, by omega, h4⟩
      · exact ⟨32, by simp [widen, hc], by simp [BitsOk], Nat.le_refl _, hc⟩
    have h16 : ∀ fuel, 2 < fuel → ∃ b', widen idx fuel 16 = some b' ∧ BitsOk b' ∧ 16 ≤ b' ∧ ¬ idx > maxval b' := by
      intro fuel hf
      obtain ⟨f, rfl⟩ : ∃ f, fuel = f + 1 := ⟨fuel - 1, by omega⟩
      by_cases hc : idx > maxval 16
      · obtain ⟨b', h1, h2, h3, h4⟩ := h32 f (by omega)
        exact ⟨b', by simp [widen, hc, h1], h2, by omega, h4⟩
      · exact ⟨16, by simp [widen, hc], by simp [BitsOk], Nat.le_refl _, hc⟩
    intro b hb fuel hf
    rcases hb with rfl | rfl | rfl | rfl
    · obtain ⟨f, rfl⟩ : ∃ f, fuel = f + 1 := ⟨fuel - 1, by simp at hf; omega⟩
      by_cases hc : idx > maxval 8
      · obtain ⟨b', h1, h2, h3, h4⟩ := h16 f (by simp at hf; omega)
        exact ⟨b', by simp [widen, hc, h1], h2, by omega, h4⟩
      · exact ⟨8, by simp [widen, hc], by simp [BitsOk], Nat.le_refl _, hc⟩
    · exact h16 fuel (by simp at hf; omega)
    · exact h32 fuel (by simp at hf; omega)
    · exact h64' fuel (by simp at hf; omega)
  exact key b hb 4 (by omega)

theorem map_mod_id {l : List Nat} {m : Nat} (h : ∀ v ∈ l, v < m) : l.map (· % m) = l := by
  conv_rhs => rw [← List.map_id l]
  exact List.map_congr_left (fun v hv => Nat.mod_eq_of_lt (h v hv))

theorem pow_le_of_le {b b' : Nat} (h : b ≤ b') : 2 ^ b ≤ 2 ^ b' := Nat.pow_le_pow_right (by omega) h

/-- the checked width is enough, the stored values are unchanged and the encoded value is exact -/
theorem checkPrecision_spec {ix : Index} (hs : ix.storage = .adjustable) (hb : BitsOk ix.bits)
    (hr : ∀ v ∈ ix.data, v < 2 ^ ix.bits) (idx : Nat) (h64 : idx < 2 ^ 64) :
    ∃ b, BitsOk b ∧ ix.bits ≤ b ∧ idx < 2 ^ b ∧ checkPrecision ix idx = ({ ix with bits := b }, .ok idx) := by
  unfold checkPrecision
  by_cases hc : idx > maxval ix.bits
  · obtain ⟨b, h1, h2, h3, h4⟩ := widen_spec idx h64 ix.bits hb
    have hlt := maxval_lt h2 h64 h4
    refine ⟨b, h2, h3, hlt, ?_⟩
    rw [if_pos hc, h1]
    simp only [adjust, hs, Nat.mod_eq_of_lt hlt]
    rw [map_mod_id (fun v hv => lt_of_lt_of_le (hr v hv) (pow_le_of_le h3))]
  · refine ⟨ix.bits, hb, Nat.le_refl _, maxval_lt hb h64 hc, ?_⟩
    rw [if_neg hc, Nat.mod_eq_of_lt (maxval_lt hb h64 hc)]

theorem len_le_total (n : Nat) (c : Col α n) : len n c ≤ total n c := by
  cases n with
  | zero => exact Nat.le_refl _
  | succ n => simp [len, total]

theorem addVal_spec (n : Nat) : ∀ (c : Col α n) (v : Val α n), WF n c → total n c + size n v < 2 ^ 64 →
    ∃ c', addVal n c v = (c', .ok ()) ∧ WF n c' ∧ rows n c' = rows n c ++ [v] ∧ total n c' = total n c + size n v := by
  induction n with
  | zero =>
    intro c v _ _
    exact ⟨(c : List α) ++ [v], rfl, trivial, rfl, by simp [total, size]⟩
  | succ n ih =>
    have many : ∀ (vs : List (Val α n)) (c : Col α n), WF n c → total n c + (vs.map (size n)).sum < 2 ^ 64 →
        ∃ c', addMany (addVal n) c vs = (c', .ok ()) ∧ WF n c' ∧ rows n c' = rows n c ++ vs ∧
          total n c' = total n c + (vs.map (size n)).sum := by
      intro vs
      induction vs with
      | nil => intro c hw _; exact ⟨c, rfl, hw, by simp, by simp⟩
      | cons v vs ih2 =>
        intro c hw ht
        simp only [List.map_cons, List.sum_cons] at ht
        obtain ⟨c1, h1, h2, h3, h4⟩ := ih c v hw (by omega)
        obtain ⟨c2, i1, i2, i3, i4⟩ := ih2 c1 h2 (by omega)
        refine ⟨c2, ?_, i2, by rw [i3, h3]; simp, by rw [i4, h4]; simp; omega⟩
        simp only [addMany, h1, i1]
    rintro ⟨ix, t⟩ vs ⟨hix, hwt⟩ ht
    have htot : total n t + ((vs : List (Val α n)).map (size n)).sum < 2 ^ 64 := by
      simp only [total, size] at ht; omega
    obtain ⟨t', h1, h2, h3, h4⟩ := many vs t hwt htot
    have hlen : len n t' < 2 ^ 64 := by have := len_le_total n t'; omega
    obtain ⟨b, hb, hbb, hlt, hcp⟩ := checkPrecision_spec hix.sto hix.bits hix.repr (len n t') hlen
    have hle : len n t ≤ len n t' := by
      rw [← length_rows, ← length_rows, h3]; simp
    have hall : ∀ v ∈ ix.data, v ≤ len n t := fun v hv => hix.last ▸ le_last hix.sorted v hv
    refine ⟨({ ix with bits := b, data := ix.data ++ [len n t'] }, t'), ?_, ⟨?_, h2⟩, ?_, ?_⟩
    · simp only [addVal, h1, hcp, appendIx, hix.sto]
    · refine ⟨hix.sto, hb, ?_, by simp, ?_⟩
      · refine List.pairwise_append.2 ⟨hix.sorted, by simp, ?_⟩
        intro x hx y hy
        simp only [List.mem_singleton] at hy; subst hy
        exact le_trans (hall x hx) hle
      · intro v hv
        simp only [List.mem_append, List.mem_singleton] at hv
        rcases hv with hv | rfl
        · exact lt_of_lt_of_le (hix.repr v hv) (pow_le_of_le hbb)
        · exact hlt
    · simp only [rows]
      rw [cut_snoc, h3, cut_append_rows 0 ix.data (rows n t) vs (by rw [length_rows]; exact hall) (Nat.zero_le _),
        hix.last]
      congr 2
      rw [← length_rows n t, List.drop_left, ← length_rows n t', h3, List.length_append, Nat.add_sub_cancel_left,
        List.take_length]
    · simp only [total, size, h4, List.length_append, List.length_cons, List.length_nil]; omega

theorem addMany_spec (n : Nat) : ∀ (vs : List (Val α n)) (c : Col α n), WF n c →
    total n c + (vs.map (size n)).sum < 2 ^ 64 →
    ∃ c', addMany (addVal n) c vs = (c', .ok ()) ∧ WF n c' ∧ rows n c' = rows n c ++ vs ∧
      total n c' = total n c + (vs.map (size n)).sum := by
  intro vs
  induction vs with
  | nil => intro c hw _; exact ⟨c, rfl, hw, by simp, by simp⟩
  | cons v vs ih2 =>
    intro c hw ht
    simp only [List.map_cons, List.sum_cons] at ht
    obtain ⟨c1, h1, h2, h3, h4⟩ := addVal_spec n c v hw (by omega)
    obtain ⟨c2, i1, i2, i3, i4⟩ := ih2 c1 h2 (by omega)
    refine ⟨c2, ?_, i2, by rw [i3, h3]; simp, by rw [i4, h4]; simp; omega⟩
    simp only [addMany, h1, i1]

theorem emptyCol_wf (n : Nat) : WF n (emptyCol α n) ∧ rows n (emptyCol α n) = [] ∧
    total n (emptyCol α n) = 0 := by
  induction n with
  | zero => exact ⟨trivial, rfl, rfl⟩
  | succ n ih =>
    obtain ⟨h1, h2, h3⟩ := ih
    refine ⟨⟨⟨rfl, Or.inl rfl, by simp [mkIndex, adjust], ?_, by simp [mkIndex, adjust]⟩, h1⟩, rfl, by
      simp [emptyCol, total, h3, mkIndex, adjust]⟩
    rw [← length_rows, h2]; rfl

theorem mkIndex_spec (ends : List Nat) (L : Nat) (hs : ends.Pairwise (· ≤ ·)) (hl : ends.getLast?.getD 0 = L)
    (h64 : L < 2 ^ 64) :
    ∃ ix, mkIndex ends L = (ix, .ok ()) ∧ ix.data = ends ∧ WFIx ix L := by
  have hall : ∀ v ∈ ends, v ≤ L := fun v hv => hl ▸ le_last hs v hv
  unfold mkIndex
  by_cases he : ends.length > 0
  · -- the width is found before the values are known to be representable: `checkPrecision` on width 8
    have key : ∃ b, BitsOk b ∧ L < 2 ^ b ∧
        checkPrecision { bits := 8, data := ends } L = ({ bits := b, data := ends }, .ok L) := by
      unfold checkPrecision
      by_cases hc : L > maxval 8
      · obtain ⟨b, h1, h2, h3, h4⟩ := widen_spec L h64 8 (Or.inl rfl)
        have hlt := maxval_lt h2 h64 h4
        refine ⟨b, h2, hlt, ?_⟩
        rw [if_pos hc]
        simp only [h1, adjust, Nat.mod_eq_of_lt hlt]
        rw [map_mod_id (fun v hv => lt_of_le_of_lt (hall v hv) hlt)]
      · have hlt := maxval_lt (Or.inl rfl : BitsOk 8) h64 hc
        refine ⟨8, Or.inl rfl, hlt, ?_⟩
        rw [if_neg hc]
        simp only [Nat.mod_eq_of_lt hlt]
    obtain ⟨b, hb, hlt, hcp⟩ := key
    have hm : ends.map (· % 2 ^ b) = ends := map_mod_id (fun v hv => lt_of_le_of_lt (hall v hv) hlt)
    refine ⟨{ bits := b, data := ends }, ?_, rfl, ⟨rfl, hb, hs, hl, fun v hv => lt_of_le_of_lt (hall v hv) hlt⟩⟩
    simp only [he, if_true, hcp, adjust, hm]
  · have : ends = [] := List.length_eq_zero_iff.1 (by omega)
    subst this
    refine ⟨{ bits := 8, data := [] }, rfl, rfl, ⟨rfl, Or.inl rfl, by simp, hl, by simp⟩⟩

theorem widen_len (ix : Index) (idx : Nat) : (checkPrecision ix idx).1.data.length = ix.data.length := by
  unfold checkPrecision
  split
  · split
    · rfl
    · rename_i b _
      unfold adjust
      cases ix.storage <;> simp
  · rfl

theorem appendIx_len (ix : Index) (v : Nat) : (appendIx ix v).data.length = ix.data.length + 1 := by
  unfold appendIx; split <;> simp

end Verif.Ragged

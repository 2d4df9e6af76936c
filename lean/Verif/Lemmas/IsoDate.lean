import Verif.Model.IsoDate

/-!
# Lemmas for dates: the texts that a regular expression matches
-/

namespace Verif.IsoDate
open Verif

/-- the texts of a regular expression -/
def Lang : Re → List Char → Prop
  | .eps, u => u = []
  | .range a b, u => ∃ c, a ≤ c ∧ c ≤ b ∧ u = [c]
  | .seq a b, u => ∃ x y, u = x ++ y ∧ Lang a x ∧ Lang b y
  | .alt a b, u => Lang a u ∨ Lang b u
  | .many a b, u => ∀ c ∈ u, a ≤ c ∧ c ≤ b

theorem many_iff (a b : Char) (k : List Char → Bool) : ∀ s, manyThen a b k s = true ↔ ∃ u v, s = u ++ v ∧ (∀ c ∈ u, a ≤ c ∧ c ≤ b) ∧ k v = true
  | [] => by
    constructor
    · intro h; exact ⟨[], [], rfl, by simp, h⟩
    · rintro ⟨u, v, h, -, hk⟩
      have := (List.append_eq_nil_iff.1 h.symm).2
      subst this; exact hk
  | c :: cs => by
    show ((decide (a ≤ c ∧ c ≤ b) && manyThen a b k cs) || k (c :: cs)) = true ↔ _
    rw [Bool.or_eq_true, Bool.and_eq_true, decide_eq_true_eq, many_iff a b k cs]
    constructor
    · rintro (⟨hc, u, v, rfl, hu, hk⟩ | hk)
      · exact ⟨c :: u, v, rfl, fun x hx => (List.mem_cons.1 hx).elim (fun e => e ▸ hc) (hu x), hk⟩
      · exact ⟨[], c :: cs, rfl, by simp, hk⟩
    · rintro ⟨u, v, h, hu, hk⟩
      cases u with
      | nil => rw [List.nil_append] at h; rw [h]; exact .inr hk
      | cons d u =>
        rw [List.cons_append, List.cons.injEq] at h
        obtain ⟨rfl, rfl⟩ := h
        exact .inl ⟨hu c (List.mem_cons_self ..), u, v, rfl, fun x hx => hu x (List.mem_cons_of_mem _ hx), hk⟩

theorem go_iff : ∀ (r : Re) (k : List Char → Bool) (s : List Char), r.go k s = true ↔ ∃ u v, s = u ++ v ∧ Lang r u ∧ k v = true
  | .eps, k, s => by
    show k s = true ↔ _
    exact ⟨fun h => ⟨[], s, rfl, rfl, h⟩, by rintro ⟨u, v, rfl, hu, hk⟩; cases (show u = [] from hu); exact hk⟩
  | .range a b, k, [] => by
    refine ⟨fun h => ?_, ?_⟩
    · cases (show false = true from h)
    · rintro ⟨u, v, h, ⟨c, -, -, rfl⟩, -⟩; cases h
  | .range a b, k, c :: cs => by
    show (decide (a ≤ c ∧ c ≤ b) && k cs) = true ↔ _
    rw [Bool.and_eq_true, decide_eq_true_eq]
    constructor
    · rintro ⟨h, hk⟩; exact ⟨[c], cs, rfl, ⟨c, h.1, h.2, rfl⟩, hk⟩
    · rintro ⟨u, v, h, ⟨d, h1, h2, rfl⟩, hk⟩
      rw [List.cons_append, List.nil_append, List.cons.injEq] at h
      obtain ⟨rfl, rfl⟩ := h
      exact ⟨⟨h1, h2⟩, hk⟩
  | .seq a b, k, s => by
    show a.go (b.go k) s = true ↔ _
    rw [go_iff a]
    constructor
    · rintro ⟨u, v, rfl, hu, hv⟩
      obtain ⟨x, y, rfl, hx, hy⟩ := (go_iff b k v).1 hv
      exact ⟨u ++ x, y, by rw [List.append_assoc], ⟨u, x, rfl, hu, hx⟩, hy⟩
    · rintro ⟨u, v, rfl, ⟨x, y, rfl, hx, hy⟩, hv⟩
      exact ⟨x, y ++ v, by rw [List.append_assoc], hx, (go_iff b k _).2 ⟨y, v, rfl, hy, hv⟩⟩
  | .alt a b, k, s => by
    show (a.go k s || b.go k s) = true ↔ _
    rw [Bool.or_eq_true, go_iff a, go_iff b]
    constructor
    · rintro (⟨u, v, h, hu, hv⟩ | ⟨u, v, h, hu, hv⟩)
      · exact ⟨u, v, h, .inl hu, hv⟩
      · exact ⟨u, v, h, .inr hu, hv⟩
    · rintro ⟨u, v, h, hu | hu, hv⟩
      · exact .inl ⟨u, v, h, hu, hv⟩
      · exact .inr ⟨u, v, h, hu, hv⟩
  | .many a b, k, s => many_iff a b k s

theorem isIso_iff (s : String) : isIso s = true ↔ ∃ u, Lang isoRe u ∧ (s.toList = u ∨ s.toList = u ++ ['\n']) := by
  unfold isIso
  rw [go_iff]
  constructor
  · rintro ⟨u, v, h, hu, hv⟩
    refine ⟨u, hu, ?_⟩
    unfold atEnd at hv
    rw [decide_eq_true_eq] at hv
    rcases hv with rfl | rfl
    · left; rw [h, List.append_nil]
    · right; exact h
  · rintro ⟨u, hu, h | h⟩
    · exact ⟨u, [], by rw [h, List.append_nil], hu, by rfl⟩
    · exact ⟨u, ['\n'], h, hu, by rfl⟩

/-! ## Fields -/

theorem chr_iff {c : Char} {u : List Char} : Lang (chr c) u ↔ u = [c] := by
  constructor
  · rintro ⟨d, h1, h2, rfl⟩
    rw [show d = c from Char.le_antisymm h2 h1]
  · rintro rfl; exact ⟨c, Char.le_refl _, Char.le_refl _, rfl⟩

theorem seq_iff {a b : Re} {u : List Char} : Lang (.seq a b) u ↔ ∃ x y, u = x ++ y ∧ Lang a x ∧ Lang b y := Iff.rfl

theorem opt_iff {a : Re} {u : List Char} : Lang a.opt u ↔ Lang a u ∨ u = [] := Iff.rfl

/-- a digit between two digits -/
theorem range_iff {a b : Nat} (hb : b ≤ 9) {u : List Char} : Lang (.range (dig a) (dig b)) u ↔ ∃ d, a % 10 ≤ d ∧ d ≤ b ∧ u = [dig d] := by
  have key : ∀ n, (dig n).toNat = 48 + n % 10 := by
    intro n
    have h : n % 10 < 10 := Nat.mod_lt _ (by omega)
    unfold dig
    generalize n % 10 = m at h
    have : ∀ m < 10, (Char.ofNat (48 + m)).toNat = 48 + m := by decide
    exact this m h
  constructor
  · rintro ⟨c, h1, h2, rfl⟩
    have h1 : (dig a).toNat ≤ c.toNat := h1
    have h2 : c.toNat ≤ (dig b).toNat := h2
    rw [key] at h1 h2
    have hb' : b % 10 = b := Nat.mod_eq_of_lt (by omega)
    refine ⟨c.toNat - 48, by omega, by omega, ?_⟩
    have : c = dig (c.toNat - 48) := by
      apply Char.toNat_inj.1
      rw [key]
      omega
    rw [← this]
  · rintro ⟨d, h1, h2, rfl⟩
    refine ⟨dig d, ?_, ?_, rfl⟩
    · show (dig a).toNat ≤ (dig d).toNat
      rw [key, key]; omega
    · show (dig d).toNat ≤ (dig b).toNat
      rw [key, key]; omega

theorem two {n : Nat} : pad 2 n = [dig (n / 10), dig n] := rfl

theorem dig_mod {n m : Nat} (h : n % 10 = m % 10) : dig n = dig m := by unfold dig; rw [h]

/-- two digits, of which the first is in a range -/
theorem field_iff {a b c d : Nat} (hb : b ≤ 9) (hd : d ≤ 9) (ha : a ≤ 9) (hc : c ≤ 9) {u : List Char} :
    Lang (.seq (.range (dig a) (dig b)) (.range (dig c) (dig d))) u ↔ ∃ n, a ≤ n / 10 ∧ n / 10 ≤ b ∧ c ≤ n % 10 ∧ n % 10 ≤ d ∧ u = pad 2 n := by
  rw [seq_iff]
  constructor
  · rintro ⟨x, y, rfl, hx, hy⟩
    obtain ⟨i, h1, h2, rfl⟩ := (range_iff hb).1 hx
    obtain ⟨j, h3, h4, rfl⟩ := (range_iff hd).1 hy
    refine ⟨10 * i + j, by omega, by omega, by omega, by omega, ?_⟩
    rw [two, dig_mod (show ((10 * i + j) / 10) % 10 = i % 10 by omega), dig_mod (show (10 * i + j) % 10 = j % 10 by omega)]
    rfl
  · rintro ⟨n, h1, h2, h3, h4, rfl⟩
    refine ⟨[dig (n / 10)], [dig n], rfl, (range_iff hb).2 ⟨n / 10, by omega, h2, rfl⟩, (range_iff hd).2 ⟨n % 10, by omega, h4, ?_⟩⟩
    rw [dig_mod (show n % 10 = n % 10 % 10 by omega)]

theorem month_iff {u : List Char} : Lang monthRe u ↔ ∃ n, 1 ≤ n ∧ n ≤ 12 ∧ u = pad 2 n := by
  show Lang (.seq (.range (dig 1) (dig 1)) (.range (dig 0) (dig 2))) u ∨ Lang (.seq (.range (dig 0) (dig 0)) (.range (dig 1) (dig 9))) u ↔ _
  rw [field_iff (by omega) (by omega) (by omega) (by omega), field_iff (by omega) (by omega) (by omega) (by omega)]
  constructor
  · rintro (⟨n, h1, h2, h3, h4, rfl⟩ | ⟨n, h1, h2, h3, h4, rfl⟩)
    · exact ⟨n, by omega, by omega, rfl⟩
    · exact ⟨n, by omega, by omega, rfl⟩
  · rintro ⟨n, h1, h2, rfl⟩
    by_cases h : n < 10
    · exact .inr ⟨n, by omega, by omega, by omega, by omega, rfl⟩
    · exact .inl ⟨n, by omega, by omega, by omega, by omega, rfl⟩

theorem day_iff {u : List Char} : Lang dayRe u ↔ ∃ n, 1 ≤ n ∧ n ≤ 31 ∧ u = pad 2 n := by
  show Lang (.seq (.range (dig 3) (dig 3)) (.range (dig 0) (dig 1))) u ∨ Lang (.seq (.range (dig 0) (dig 0)) (.range (dig 1) (dig 9))) u ∨
    Lang (.seq (.range (dig 1) (dig 2)) (.range (dig 0) (dig 9))) u ↔ _
  rw [field_iff (by omega) (by omega) (by omega) (by omega), field_iff (by omega) (by omega) (by omega) (by omega), field_iff (by omega) (by omega) (by omega) (by omega)]
  constructor
  · rintro (⟨n, h1, h2, h3, h4, rfl⟩ | ⟨n, h1, h2, h3, h4, rfl⟩ | ⟨n, h1, h2, h3, h4, rfl⟩)
    · exact ⟨n, by omega, by omega, rfl⟩
    · exact ⟨n, by omega, by omega, rfl⟩
    · exact ⟨n, by omega, by omega, rfl⟩
  · rintro ⟨n, h1, h2, rfl⟩
    by_cases h : n < 10
    · exact .inr (.inl ⟨n, by omega, by omega, by omega, by omega, rfl⟩)
    · by_cases h' : n < 30
      · exact .inr (.inr ⟨n, by omega, by omega, by omega, by omega, rfl⟩)
      · exact .inl ⟨n, by omega, by omega, by omega, by omega, rfl⟩

theorem hour_iff {u : List Char} : Lang hourRe u ↔ ∃ n, n ≤ 23 ∧ u = pad 2 n := by
  show Lang (.seq (.range (dig 2) (dig 2)) (.range (dig 0) (dig 3))) u ∨ Lang (.seq (.range (dig 0) (dig 1)) (.range (dig 0) (dig 9))) u ↔ _
  rw [field_iff (by omega) (by omega) (by omega) (by omega), field_iff (by omega) (by omega) (by omega) (by omega)]
  constructor
  · rintro (⟨n, h1, h2, h3, h4, rfl⟩ | ⟨n, h1, h2, h3, h4, rfl⟩)
    · exact ⟨n, by omega, rfl⟩
    · exact ⟨n, by omega, rfl⟩
  · rintro ⟨n, h2, rfl⟩
    by_cases h : n < 20
    · exact .inr ⟨n, by omega, by omega, by omega, by omega, rfl⟩
    · exact .inl ⟨n, by omega, by omega, by omega, by omega, rfl⟩

theorem minute_iff {u : List Char} : Lang minuteRe u ↔ ∃ n, n ≤ 59 ∧ u = pad 2 n := by
  show Lang (.seq (.range (dig 0) (dig 5)) (.range (dig 0) (dig 9))) u ↔ _
  rw [field_iff (by omega) (by omega) (by omega) (by omega)]
  constructor
  · rintro ⟨n, h1, h2, h3, h4, rfl⟩
    exact ⟨n, by omega, rfl⟩
  · rintro ⟨n, h2, rfl⟩
    exact ⟨n, by omega, by omega, by omega, by omega, rfl⟩

/-- a decimal digit -/
def IsDigit (c : Char) : Prop := '0' ≤ c ∧ c ≤ '9'

theorem dig_digit (n : Nat) : IsDigit (dig n) := by
  have h : n % 10 < 10 := Nat.mod_lt _ (by omega)
  have : ∀ m < 10, '0' ≤ Char.ofNat (48 + m) ∧ Char.ofNat (48 + m) ≤ '9' := by decide
  exact this _ h

theorem pad_digit : ∀ (k n : Nat), ∀ c ∈ pad k n, IsDigit c
  | 0, _, c, h => by cases h
  | k + 1, n, c, h => by
    rcases List.mem_append.1 h with h | h
    · exact pad_digit k _ c h
    · rw [List.mem_singleton] at h; subst h; exact dig_digit n

theorem pad_length : ∀ (k n : Nat), (pad k n).length = k
  | 0, _ => rfl
  | k + 1, n => by
    show (pad k (n / 10) ++ [dig n]).length = k + 1
    rw [List.length_append, pad_length k]
    rfl

theorem digit_iff {u : List Char} : Lang digit u ↔ ∃ c, IsDigit c ∧ u = [c] := by
  constructor
  · rintro ⟨c, h1, h2, rfl⟩; exact ⟨c, ⟨h1, h2⟩, rfl⟩
  · rintro ⟨c, ⟨h1, h2⟩, rfl⟩; exact ⟨c, h1, h2, rfl⟩

/-- at least four digits, and no leading zero if there are more -/
theorem year_iff {u : List Char} : Lang yearRe u ↔ ∃ (neg : Bool) (y : List Char), u = (if neg then ['-'] else []) ++ y ∧ (∀ c ∈ y, IsDigit c) ∧ 4 ≤ y.length ∧
    (4 < y.length → y.head? ≠ some '0') := by
  constructor
  · rintro ⟨s, r1, rfl, hs, m, r2, rfl, hm, a, r3, rfl, ha, b, r4, rfl, hb, c, r5, rfl, hc, d, r6, rfl, hd, h6⟩
    obtain ⟨a, ha, rfl⟩ := digit_iff.1 ha
    obtain ⟨b, hb, rfl⟩ := digit_iff.1 hb
    obtain ⟨c, hc, rfl⟩ := digit_iff.1 hc
    obtain ⟨d, hd, rfl⟩ := digit_iff.1 hd
    cases (show r6 = [] from h6)
    have hs' : ∃ neg : Bool, s = if neg then ['-'] else [] := by
      rcases hs with hs | hs
      · exact ⟨true, chr_iff.1 hs⟩
      · exact ⟨false, hs⟩
    obtain ⟨neg, rfl⟩ := hs'
    refine ⟨neg, m ++ [a, b, c, d], by simp, ?_, by simp, ?_⟩
    · intro x hx
      rcases List.mem_append.1 hx with hx | hx
      · rcases hm with ⟨p, q, rfl, ⟨e, h1, h2, rfl⟩, hq⟩ | hm
        · rcases List.mem_append.1 hx with hx | hx
          · rw [List.mem_singleton] at hx; subst hx
            exact ⟨Char.le_trans (by decide) h1, h2⟩
          · exact hq x hx
        · cases (show m = [] from hm); cases hx
      · simp only [List.mem_cons, List.not_mem_nil, or_false] at hx
        rcases hx with rfl | rfl | rfl | rfl <;> assumption
    · intro hlen
      rcases hm with ⟨p, q, rfl, ⟨e, h1, h2, rfl⟩, hq⟩ | hm
      · simp only [List.cons_append, List.nil_append, List.head?_cons, ne_eq, Option.some.injEq]
        rintro rfl
        revert h1; decide
      · cases (show m = [] from hm); simp at hlen
  · rintro ⟨neg, y, rfl, hy, hlen, hz⟩
    have hsplit : ∃ m a b c d, y = m ++ [a, b, c, d] := by
      have h1 : y = y.take (y.length - 4) ++ y.drop (y.length - 4) := (List.take_append_drop _ _).symm
      have h2 : (y.drop (y.length - 4)).length = 4 := by rw [List.length_drop]; omega
      match hd : y.drop (y.length - 4), h2 with
      | [a, b, c, d], _ => exact ⟨y.take (y.length - 4), a, b, c, d, by rw [← hd]; exact h1⟩
    obtain ⟨m, a, b, c, d, rfl⟩ := hsplit
    have hdg : ∀ x, x ∈ [a, b, c, d] → IsDigit x := fun x hx => hy x (List.mem_append_right _ hx)
    refine ⟨_, _, rfl, ?_, m, [a, b, c, d], rfl, ?_, [a], [b, c, d], rfl, digit_iff.2 ⟨a, hdg a (by simp), rfl⟩, [b], [c, d], rfl, digit_iff.2 ⟨b, hdg b (by simp), rfl⟩,
      [c], [d], rfl, digit_iff.2 ⟨c, hdg c (by simp), rfl⟩, [d], [], rfl, digit_iff.2 ⟨d, hdg d (by simp), rfl⟩, rfl⟩
    · cases neg with
      | true => exact .inl (chr_iff.2 rfl)
      | false => exact .inr rfl
    · cases m with
      | nil => exact .inr rfl
      | cons e m =>
        refine .inl ⟨[e], m, rfl, ⟨e, ?_, (hy e (by simp)).2, rfl⟩, fun x hx => hy x (by simp [hx])⟩
        have h0 := hz (by simp)
        have hne : e ≠ '0' := fun h => h0 (by rw [h]; rfl)
        have h1 : '0' ≤ e := (hy e (by simp)).1
        have h1' : ('0' : Char).toNat ≤ e.toNat := h1
        have hne' : e.toNat ≠ ('0' : Char).toNat := fun h => hne (Char.toNat_inj.1 h)
        show ('1' : Char).toNat ≤ e.toNat
        have e0 : ('0' : Char).toNat = 48 := rfl
        have e1 : ('1' : Char).toNat = 49 := rfl
        omega

/-- a fraction of a second -/
theorem frac_iff {u : List Char} : Lang fracRe u ↔ u = [] ∨ ∃ f, f ≠ [] ∧ (∀ c ∈ f, IsDigit c) ∧ u = '.' :: f := by
  constructor
  · rintro (⟨p, r1, rfl, hp, d, r2, rfl, hd, m, r3, rfl, hm, h3⟩ | h)
    · cases chr_iff.1 hp
      obtain ⟨d, hd', rfl⟩ := digit_iff.1 hd
      cases (show r3 = [] from h3)
      refine .inr ⟨d :: m, by simp, fun c hc => ?_, by simp⟩
      exact (List.mem_cons.1 hc).elim (fun e => e ▸ hd') (hm c)
    · exact .inl h
  · rintro (rfl | ⟨f, hf, hd, rfl⟩)
    · exact .inr rfl
    · cases f with
      | nil => exact (hf rfl).elim
      | cons d m =>
        exact .inl ⟨['.'], d :: m, rfl, chr_iff.2 rfl, [d], m, rfl, digit_iff.2 ⟨d, hd d (by simp), rfl⟩, m, [], by simp, fun c hc => hd c (by simp [hc]), rfl⟩

/-- the zone -/
theorem zone_iff {u : List Char} : Lang zoneRe u ↔ u = [] ∨ u = ['Z'] ∨ ∃ (neg : Bool) (h m : Nat), h ≤ 23 ∧ m ≤ 59 ∧
    u = (if neg then '-' else '+') :: pad 2 h ++ ':' :: pad 2 m := by
  constructor
  · rintro ((h | ⟨p, r1, rfl, hp, h, r2, rfl, hh, c, r3, rfl, hc, m, r4, rfl, hm, h4⟩) | h)
    · exact .inr (.inl (chr_iff.1 h))
    · obtain ⟨h, hh', rfl⟩ := hour_iff.1 hh
      obtain ⟨m, hm', rfl⟩ := minute_iff.1 hm
      cases chr_iff.1 hc
      cases (show r4 = [] from h4)
      rcases hp with hp | hp
      · cases chr_iff.1 hp
        exact .inr (.inr ⟨false, h, m, hh', hm', by simp⟩)
      · cases chr_iff.1 hp
        exact .inr (.inr ⟨true, h, m, hh', hm', by simp⟩)
    · exact .inl h
  · rintro (rfl | rfl | ⟨neg, h, m, hh, hm, rfl⟩)
    · exact .inr rfl
    · exact .inl (.inl (chr_iff.2 rfl))
    · refine .inl (.inr ⟨[if neg then '-' else '+'], pad 2 h ++ ':' :: pad 2 m, by simp, ?_, pad 2 h, ':' :: pad 2 m, rfl, hour_iff.2 ⟨h, hh, rfl⟩, [':'], pad 2 m, rfl, chr_iff.2 rfl,
        pad 2 m, [], by simp, minute_iff.2 ⟨m, hm, rfl⟩, rfl⟩)
      cases neg with
      | true => exact .inr (chr_iff.2 rfl)
      | false => exact .inl (chr_iff.2 rfl)

/-- the time -/
theorem time_iff {u : List Char} : Lang timeRe u ↔ u = [] ∨ ∃ (h m s : Nat) (f z : List Char), h ≤ 23 ∧ m ≤ 59 ∧ s ≤ 59 ∧ Lang fracRe f ∧ Lang zoneRe z ∧
    u = 'T' :: pad 2 h ++ ':' :: pad 2 m ++ ':' :: pad 2 s ++ f ++ z := by
  constructor
  · rintro (⟨p, r1, rfl, hp, h, r2, rfl, hh, c, r3, rfl, hc, m, r4, rfl, hm, c', r5, rfl, hc', s, r6, rfl, hs, f, r7, rfl, hf, z, r8, rfl, hz, h8⟩ | h)
    · obtain ⟨h, hh', rfl⟩ := hour_iff.1 hh
      obtain ⟨m, hm', rfl⟩ := minute_iff.1 hm
      obtain ⟨s, hs', rfl⟩ := minute_iff.1 hs
      cases chr_iff.1 hp
      cases chr_iff.1 hc
      cases chr_iff.1 hc'
      cases (show r8 = [] from h8)
      exact .inr ⟨h, m, s, f, z, hh', hm', hs', hf, hz, by simp⟩
    · exact .inl h
  · rintro (rfl | ⟨h, m, s, f, z, hh, hm, hs, hf, hz, rfl⟩)
    · exact .inr rfl
    · exact .inl ⟨['T'], pad 2 h ++ (':' :: pad 2 m ++ (':' :: pad 2 s ++ (f ++ z))), by simp, chr_iff.2 rfl, pad 2 h, _, rfl, hour_iff.2 ⟨h, hh, rfl⟩,
        [':'], pad 2 m ++ (':' :: pad 2 s ++ (f ++ z)), by simp, chr_iff.2 rfl, pad 2 m, _, rfl, minute_iff.2 ⟨m, hm, rfl⟩, [':'], pad 2 s ++ (f ++ z), by simp, chr_iff.2 rfl,
        pad 2 s, _, rfl, minute_iff.2 ⟨s, hs, rfl⟩, f, z, rfl, hf, z, [], by simp, hz, rfl⟩

theorem iso_iff {u : List Char} : Lang isoRe u ↔ ∃ (y : List Char) (mo d : Nat) (t : List Char), Lang yearRe y ∧ 1 ≤ mo ∧ mo ≤ 12 ∧ 1 ≤ d ∧ d ≤ 31 ∧ Lang timeRe t ∧
    u = y ++ '-' :: pad 2 mo ++ '-' :: pad 2 d ++ t := by
  constructor
  · rintro ⟨y, r1, rfl, hy, c, r2, rfl, hc, m, r3, rfl, hm, c', r4, rfl, hc', d, r5, rfl, hd, t, r6, rfl, ht, h6⟩
    obtain ⟨m, hm1, hm2, rfl⟩ := month_iff.1 hm
    obtain ⟨d, hd1, hd2, rfl⟩ := day_iff.1 hd
    cases chr_iff.1 hc
    cases chr_iff.1 hc'
    cases (show r6 = [] from h6)
    exact ⟨y, m, d, t, hy, hm1, hm2, hd1, hd2, ht, by simp⟩
  · rintro ⟨y, m, d, t, hy, hm1, hm2, hd1, hd2, ht, rfl⟩
    exact ⟨y, '-' :: pad 2 m ++ ('-' :: pad 2 d ++ t), by simp, hy, ['-'], pad 2 m ++ ('-' :: pad 2 d ++ t), by simp, chr_iff.2 rfl, pad 2 m, _, rfl, month_iff.2 ⟨m, hm1, hm2, rfl⟩,
      ['-'], pad 2 d ++ t, by simp, chr_iff.2 rfl, pad 2 d, t, rfl, day_iff.2 ⟨d, hd1, hd2, rfl⟩, t, [], by simp, ht, rfl⟩

end Verif.IsoDate

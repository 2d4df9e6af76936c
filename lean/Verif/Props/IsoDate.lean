import Verif.Lemmas.IsoDate
import Verif.Model.Vtypes

/-!
# C221–C222: dates in files
-/

namespace Verif.IsoDate
open Verif

/-! ## C222: the texts that are accepted -/

/-- at least four digits after an optional minus, and no leading zero if there are more -/
def IsYear (u : List Char) : Prop := ∃ y, (u = y ∨ u = '-' :: y) ∧ (∀ c ∈ y, '0' ≤ c ∧ c ≤ '9') ∧ 4 ≤ y.length ∧ (4 < y.length → y.head? ≠ some '0')

/-- nothing, or a point and at least one digit -/
def IsFrac (u : List Char) : Prop := u = [] ∨ ∃ f, f ≠ [] ∧ (∀ c ∈ f, '0' ≤ c ∧ c ≤ '9') ∧ u = '.' :: f

/-- nothing, Z, or a sign, hours and minutes -/
def IsZone (u : List Char) : Prop := u = [] ∨ u = ['Z'] ∨ ∃ (c : Char) (h m : Nat), (c = '+' ∨ c = '-') ∧ h ≤ 23 ∧ m ≤ 59 ∧ u = c :: pad 2 h ++ ':' :: pad 2 m

/-- nothing, or T with hours, minutes and seconds, then a fraction and a zone -/
def IsTime (u : List Char) : Prop := u = [] ∨ ∃ (h m s : Nat) (f z : List Char), h ≤ 23 ∧ m ≤ 59 ∧ s ≤ 59 ∧ IsFrac f ∧ IsZone z ∧
  u = 'T' :: pad 2 h ++ ':' :: pad 2 m ++ ':' :: pad 2 s ++ f ++ z

theorem year_is {u : List Char} : Lang yearRe u ↔ IsYear u := by
  rw [year_iff]
  constructor
  · rintro ⟨neg, y, rfl, h⟩
    cases neg with
    | true => exact ⟨y, .inr rfl, h⟩
    | false => exact ⟨y, .inl rfl, h⟩
  · rintro ⟨y, rfl | rfl, h⟩
    · exact ⟨false, u, rfl, h⟩
    · exact ⟨true, y, rfl, h⟩

theorem zone_is {u : List Char} : Lang zoneRe u ↔ IsZone u := by
  rw [zone_iff]
  constructor
  · rintro (h | h | ⟨neg, h, m, hh, hm, rfl⟩)
    · exact .inl h
    · exact .inr (.inl h)
    · refine .inr (.inr ⟨_, h, m, ?_, hh, hm, rfl⟩)
      cases neg with
      | true => exact .inr rfl
      | false => exact .inl rfl
  · rintro (h | h | ⟨c, h, m, rfl | rfl, hh, hm, rfl⟩)
    · exact .inl h
    · exact .inr (.inl h)
    · exact .inr (.inr ⟨false, h, m, hh, hm, rfl⟩)
    · exact .inr (.inr ⟨true, h, m, hh, hm, rfl⟩)

theorem time_is {u : List Char} : Lang timeRe u ↔ IsTime u := by
  rw [time_iff]
  unfold IsTime
  simp only [zone_is, show ∀ f, Lang fracRe f ↔ IsFrac f from fun f => frac_iff]

/-- exactly these texts are dates: a year, a month from 1 to 12, a day from 1 to 31, perhaps a time, and perhaps a line feed -/
theorem C222_accepted (s : String) : isIso s = true ↔ ∃ (y t e : List Char) (mo d : Nat), IsYear y ∧ IsTime t ∧ (e = [] ∨ e = ['\n']) ∧ 1 ≤ mo ∧ mo ≤ 12 ∧ 1 ≤ d ∧ d ≤ 31 ∧
    s.toList = y ++ '-' :: pad 2 mo ++ '-' :: pad 2 d ++ t ++ e := by
  rw [isIso_iff]
  constructor
  · rintro ⟨u, hu, h⟩
    obtain ⟨y, mo, d, t, h1, h2, h3, h4, h5, h6, rfl⟩ := iso_iff.1 hu
    rcases h with h | h
    · exact ⟨y, t, [], mo, d, year_is.1 h1, time_is.1 h6, .inl rfl, h2, h3, h4, h5, by rw [h, List.append_nil]⟩
    · exact ⟨y, t, ['\n'], mo, d, year_is.1 h1, time_is.1 h6, .inr rfl, h2, h3, h4, h5, h⟩
  · rintro ⟨y, t, e, mo, d, h1, h6, he, h2, h3, h4, h5, h⟩
    refine ⟨_, iso_iff.2 ⟨y, mo, d, t, year_is.2 h1, h2, h3, h4, h5, time_is.2 h6, rfl⟩, ?_⟩
    rcases he with rfl | rfl
    · left; rw [h, List.append_nil]
    · exact .inr h

example : isIso "2020-02-29T23:59:59.5+01:00" = true ∧ isIso "12020-12-31" = true ∧ isIso "-0001-01-01T00:00:00Z" = true ∧ isIso "2020-13-01" = false ∧
    isIso "2020-01-32" = false ∧ isIso "2020-01-01T24:00:00" = false ∧ isIso "2020-1-1" = false ∧ isIso "2020-01-01T10:00:00." = false ∧ isIso "02020-01-01" = false := by decide +kernel

/-- a text of the dtype isodatetime is valid if and only if it is such a date -/
theorem C222_validated (s : String) : Vtypes.checkOne "isodatetime" "utf" ((stringFormat (some s)).isSome) = .ok (isIso s) := by
  have h : ∀ b, Vtypes.checkOne "isodatetime" "utf" b = .ok b := by decide +kernel
  rw [h]
  show Except.ok (if isIso s then some "isodatetime" else none).isSome = _
  cases isIso s <;> rfl

/-- bytes that are no text are no date -/
theorem C222_bytes : stringFormat none = none := rfl

/-- texts that are dates of no calendar, or no texts of a date at all, are accepted -/
theorem C222_no_date_fails : isIso "2023-02-30" = true ∧ isIso "0000-01-01" = true ∧ isIso "2023-01-01\n" = true ∧ isIso "2023-06-31T00:00:00" = true := by decide +kernel

/-- texts that are dates by ISO 8601 are not accepted -/
theorem C222_other_formats_fails : isIso "20230101" = false ∧ isIso "2023-01-01T10:00Z" = false ∧ isIso "2023-W01-1" = false ∧ isIso "2023-01-01T10:00:00+01" = false ∧
    isIso "2023-01-01T10:00:00,5" = false ∧ isIso "2023-01" = false := by decide +kernel

/-! ## C221: the dates that are written -/

theorem pad_year {y : Nat} : IsYear (pad 4 y) := by
  refine ⟨pad 4 y, .inl rfl, pad_digit 4 y, ?_, ?_⟩
  · rw [pad_length]; omega
  · rw [pad_length]; omega

/-- the text of a date is accepted -/
theorem C221_date (y m d : Nat) (hm : 1 ≤ m ∧ m ≤ 12) (hd : 1 ≤ d ∧ d ≤ 31) : isIso (String.ofList (dateText y m d)) = true := by
  rw [C222_accepted, String.toList_ofList]
  exact ⟨pad 4 y, [], [], m, d, pad_year, .inl rfl, .inl rfl, hm.1, hm.2, hd.1, hd.2, by simp [dateText]⟩

theorem count_digits {l : List Char} (h : ∀ c ∈ l, '0' ≤ c ∧ c ≤ '9') : l.count ':' = 0 :=
  List.count_eq_zero.2 fun hm => by have := h _ hm; revert this; decide

/-- a valid `datetime`: the offset is less than a day -/
structure DateTime.Valid (t : DateTime) : Prop where
  month : 1 ≤ t.month ∧ t.month ≤ 12
  day : 1 ≤ t.day ∧ t.day ≤ 31
  hour : t.hour ≤ 23
  minute : t.minute ≤ 59
  second : t.second ≤ 59
  micro : t.micro ≤ 999999
  offset : ∀ neg us, t.offset = some (neg, us) → us < 86400000000

/-- the text of a date with a time is accepted if and only if the offset from UTC is a whole number of minutes -/
theorem C221_datetime_partial (t : DateTime) (h : t.Valid) : isIso (isoformat t) = true ↔ ∀ neg us, t.offset = some (neg, us) → us % 60000000 = 0 := by
  constructor
  · intro hi neg us ho
    apply Decidable.byContradiction
    intro hus
    obtain ⟨y, tt, e, mo, d, h1, h6, he, -, -, -, -, heq⟩ := (C222_accepted _).1 hi
    have hc := congrArg (List.count ':') heq
    unfold isoformat at hc
    rw [String.toList_ofList] at hc
    have hp : ∀ k n, (pad k n).count ':' = 0 := fun k n => count_digits (pad_digit k n)
    have hy : y.count ':' = 0 := by
      obtain ⟨y', rfl | rfl, hd, -⟩ := h1
      · exact count_digits hd
      · rw [List.count_cons_of_ne (by decide), count_digits hd]
    have he' : e.count ':' = 0 := by rcases he with rfl | rfl <;> decide
    have ht : tt.count ':' ≤ 3 := by
      rcases h6 with rfl | ⟨hh, m, s, f, z, -, -, -, hf, hz, rfl⟩
      · decide
      · have hf' : f.count ':' = 0 := by
          rcases hf with rfl | ⟨ds, -, hd, rfl⟩
          · rfl
          · rw [List.count_cons_of_ne (by decide), count_digits hd]
        have hz' : z.count ':' ≤ 1 := by
          rcases hz with rfl | rfl | ⟨c, hh, m, hcc, -, -, rfl⟩
          · decide
          · decide
          · have : c ≠ ':' := by rcases hcc with rfl | rfl <;> decide
            simp [List.count_append, List.count_cons, hp, this]
        simp [List.count_append, List.count_cons, hp, hf']
        omega
    have hm : ∀ m, (if m = 0 then [] else '.' :: pad 6 m).count ':' = 0 := by
      intro m
      split
      · rfl
      · rw [List.count_cons_of_ne (by decide), hp]
    have hs : (if neg then '-' else '+') ≠ ':' := by cases neg <;> decide
    rw [ho] at hc
    unfold offsetText dateText at hc
    simp only [if_neg hus, List.count_append, List.count_cons, hp, hm, hy, he', beq_iff_eq, hs, if_false, if_true, Char.reduceEq] at hc
    omega
  · intro ho
    rw [C222_accepted]
    unfold isoformat
    rw [String.toList_ofList]
    refine ⟨pad 4 t.year, 'T' :: pad 2 t.hour ++ ':' :: pad 2 t.minute ++ ':' :: pad 2 t.second ++ (if t.micro = 0 then [] else '.' :: pad 6 t.micro) ++ offsetText t.offset, [],
      t.month, t.day, pad_year, .inr ⟨t.hour, t.minute, t.second, _, _, h.hour, h.minute, h.second, ?_, ?_, rfl⟩, .inl rfl, h.month.1, h.month.2, h.day.1, h.day.2, by simp [dateText]⟩
    · split
      · exact .inl rfl
      · refine .inr ⟨_, ?_, pad_digit 6 t.micro, rfl⟩
        intro e
        have := congrArg List.length e
        rw [pad_length] at this
        cases this
    · match hoff : t.offset with
      | none => exact .inl rfl
      | some (neg, us) =>
        have h1 := h.offset neg us hoff
        refine .inr (.inr ⟨if neg then '-' else '+', us / 3600000000, us / 60000000 % 60, ?_, by omega, by omega, ?_⟩)
        · cases neg with
          | true => exact .inr rfl
          | false => exact .inl rfl
        · show _ ++ (if us % 60000000 = 0 then _ else _) = _
          rw [if_pos (ho neg us hoff), List.append_nil]

example : isoformat ⟨2020, 2, 29, 1, 2, 3, 450, some (true, 12600000000)⟩ = "2020-02-29T01:02:03.000450-03:30" ∧ DateTime.Valid ⟨2020, 2, 29, 1, 2, 3, 450, some (true, 12600000000)⟩ :=
  ⟨by decide +kernel, by decide, by decide, by decide, by decide, by decide, by decide, by intro _ _ h; cases h; decide⟩

/-- the local mean time of Berlin: what is written does not pass validation -/
theorem C221_offset_fails : isoformat ⟨1890, 1, 1, 0, 0, 0, 0, some (false, 3208000000)⟩ = "1890-01-01T00:00:00+00:53:28" ∧ isIso "1890-01-01T00:00:00+00:53:28" = false ∧
    DateTime.Valid ⟨1890, 1, 1, 0, 0, 0, 0, some (false, 3208000000)⟩ :=
  ⟨by decide +kernel, by decide +kernel, by decide, by decide, by decide, by decide, by decide, by decide, by intro _ _ h; cases h; decide⟩

/-- different dates have different texts -/
theorem C221_injective (y m d y' m' d' : Nat) (h : y ≤ 9999 ∧ m ≤ 99 ∧ d ≤ 99) (h' : y' ≤ 9999 ∧ m' ≤ 99 ∧ d' ≤ 99) (he : dateText y m d = dateText y' m' d') :
    y = y' ∧ m = m' ∧ d = d' := by
  have key : ∀ a b, dig a = dig b → a % 10 = b % 10 := by
    intro a b hab
    have ha : a % 10 < 10 := Nat.mod_lt _ (by omega)
    have hb : b % 10 < 10 := Nat.mod_lt _ (by omega)
    unfold dig at hab
    generalize a % 10 = a at ha hab
    generalize b % 10 = b at hb hab
    have : ∀ a < 10, ∀ b < 10, Char.ofNat (48 + a) = Char.ofNat (48 + b) → a = b := by decide
    exact this a ha b hb hab
  unfold dateText pad pad pad pad pad at he
  simp only [List.nil_append, List.append_assoc, List.cons_append, List.cons.injEq, and_true, true_and] at he
  obtain ⟨e1, e2, e3, e4, e5, e6, e7, e8⟩ := he
  have := key _ _ e1; have := key _ _ e2; have := key _ _ e3; have := key _ _ e4; have := key _ _ e5; have := key _ _ e6; have := key _ _ e7; have := key _ _ e8
  omega

example : dateText 2020 1 2 = "2020-01-02".toList := by decide +kernel

end Verif.IsoDate

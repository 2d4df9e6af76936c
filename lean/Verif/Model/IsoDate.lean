import Verif.Base.Py

/-!
# Texts that are dates

Model of `get_iso8601_regex` and `get_string_format` (validate/validator.py:93-112) and of the texts that are written for dates
(build/objectmapper.py:628-630).

Simplifications.
* A regular expression is matched by backtracking, as in `re`, without the groups it captures.
* `isoformat` is the method of the standard library, by its documentation.
-/

namespace Verif.IsoDate
open Verif

/-- the regular expressions that are used (validate/validator.py:94-97) -/
inductive Re where
  /-- nothing -/
  | eps
  /-- `[a-b]`, or a character -/
  | range (a b : Char)
  | seq (a b : Re)
  | alt (a b : Re)
  /-- `[a-b]*` -/
  | many (a b : Char)

/-- `[a-b]*`: as many as possible first (validate/validator.py:95) -/
def manyThen (a b : Char) (k : List Char → Bool) : List Char → Bool
  | [] => k []
  | c :: cs => (decide (a ≤ c ∧ c ≤ b) && manyThen a b k cs) || k (c :: cs)

/-- match, and go on with the rest (validate/validator.py:108) -/
def Re.go : Re → (List Char → Bool) → List Char → Bool
  | .eps, k, s => k s
  | .range _ _, _, [] => false
  | .range a b, k, c :: cs => decide (a ≤ c ∧ c ≤ b) && k cs
  | .seq a b, k, s => a.go (b.go k) s
  | .alt a b, k, s => a.go k s || b.go k s
  | .many a b, k, s => manyThen a b k s

/-- a character (validate/validator.py:95-96) -/
def chr (c : Char) : Re := .range c c

/-- `[0-9]` (validate/validator.py:95-96) -/
def digit : Re := .range '0' '9'

/-- `r?` (validate/validator.py:95-96) -/
def Re.opt (r : Re) : Re := .alt r .eps

/-- one after the other (validate/validator.py:95-96) -/
def cat : List Re → Re
  | [] => .eps
  | r :: rs => .seq r (cat rs)

/-- `-?(?:[1-9][0-9]*)?[0-9]{4}` (validate/validator.py:95) -/
def yearRe : Re := cat [(chr '-').opt, (Re.seq (.range '1' '9') (.many '0' '9')).opt, digit, digit, digit, digit]

/-- `1[0-2]|0[1-9]` (validate/validator.py:95) -/
def monthRe : Re := .alt (.seq (chr '1') (.range '0' '2')) (.seq (chr '0') (.range '1' '9'))

/-- `3[01]|0[1-9]|[12][0-9]` (validate/validator.py:95) -/
def dayRe : Re := .alt (.seq (chr '3') (.range '0' '1')) (.alt (.seq (chr '0') (.range '1' '9')) (.seq (.range '1' '2') digit))

/-- `2[0-3]|[01][0-9]` (validate/validator.py:96) -/
def hourRe : Re := .alt (.seq (chr '2') (.range '0' '3')) (.seq (.range '0' '1') digit)

/-- `[0-5][0-9]` (validate/validator.py:96) -/
def minuteRe : Re := .seq (.range '0' '5') digit

/-- `(\.[0-9]+)?` (validate/validator.py:96) -/
def fracRe : Re := (cat [chr '.', digit, .many '0' '9']).opt

/-- `(Z|[+-](?:2[0-3]|[01][0-9]):[0-5][0-9])?` (validate/validator.py:96) -/
def zoneRe : Re := (Re.alt (chr 'Z') (cat [.alt (chr '+') (chr '-'), hourRe, chr ':', minuteRe])).opt

/-- the time (validate/validator.py:96) -/
def timeRe : Re := (cat [chr 'T', hourRe, chr ':', minuteRe, chr ':', minuteRe, fracRe, zoneRe]).opt

/-- the date and the time (validate/validator.py:94-97) -/
def isoRe : Re := cat [yearRe, chr '-', monthRe, chr '-', dayRe, timeRe]

/-- `$`: at the end of the text, or before a line feed at its end (validate/validator.py:96) -/
def atEnd (s : List Char) : Bool := decide (s = [] ∨ s = ['\n'])

/-- `_iso_re.match(text) is not None` (validate/validator.py:103-112) -/
def isIso (s : String) : Bool := isoRe.go atEnd s.toList

/-- `get_string_format`: bytes that cannot be decoded have no format (validate/validator.py:103-112) -/
def stringFormat : Option String → Option String
  | some s => if isIso s then some "isodatetime" else none
  | none => none

/-! ## The texts of dates -/

/-- a digit (build/objectmapper.py:628-630) -/
def dig (n : Nat) : Char := Char.ofNat (48 + n % 10)

/-- a number with the given count of digits, `%0nd` (build/objectmapper.py:628-630) -/
def pad : Nat → Nat → List Char
  | 0, _ => []
  | k + 1, n => pad k (n / 10) ++ [dig n]

/-- a `datetime`: the offset is its sign and a count of microseconds (build/objectmapper.py:628-630) -/
structure DateTime where
  year : Nat
  month : Nat
  day : Nat
  hour : Nat
  minute : Nat
  second : Nat
  micro : Nat
  offset : Option (Bool × Nat)

/-- `date.isoformat()` (build/objectmapper.py:628-630) -/
def dateText (y m d : Nat) : List Char := pad 4 y ++ '-' :: pad 2 m ++ '-' :: pad 2 d

/-- the offset from UTC (build/objectmapper.py:628-630) -/
def offsetText : Option (Bool × Nat) → List Char
  | none => []
  | some (neg, us) => (if neg then '-' else '+') :: pad 2 (us / 3600000000) ++ ':' :: pad 2 (us / 60000000 % 60) ++
      (if us % 60000000 = 0 then [] else ':' :: pad 2 (us / 1000000 % 60) ++ (if us % 1000000 = 0 then [] else '.' :: pad 6 (us % 1000000)))

/-- `datetime.isoformat()` (build/objectmapper.py:628-630) -/
def isoformat (t : DateTime) : String := String.ofList (dateText t.year t.month t.day ++ 'T' :: pad 2 t.hour ++ ':' :: pad 2 t.minute ++ ':' :: pad 2 t.second ++
  (if t.micro = 0 then [] else '.' :: pad 6 t.micro) ++ offsetText t.offset)

end Verif.IsoDate

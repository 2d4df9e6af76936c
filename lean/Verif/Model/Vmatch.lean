import Verif.Base.Py

/-!
# Model of the assignment of children to sub-specs and of the check of quantities
(validate/validator.py:499-537, 621-746)
-/

namespace Verif.Vmatch
open Verif

/-- `spec.quantity`: an `int` or a string (spec/spec.py:9-12) -/
inductive Quantity
  | num (n : Nat)
  | str (s : String)
  deriving DecidableEq

/-- spec/spec.py:373-376, 837-840 `required` -/
def Quantity.required (q : Quantity) : Bool := !(q == .str "?" || q == .str "*")

/-- spec/spec.py:439-440, 829-830 `is_many` -/
def Quantity.isMany (q : Quantity) : Bool := !(q == .num 1 || q == .str "?")

/-- a sub-spec: its name, its type (`data_type` of a group or dataset spec, `target_type` of a link spec) and its quantity
(validate/validator.py:621-632) -/
structure Sub where
  name : Option String
  type : Option String
  quantity : Quantity

/-- a child builder: its name and its type (that of its target for a link), the builder itself (the target for a link), whether it
is a link (validate/validator.py:653-663) -/
structure Child where
  name : String
  type : Option String
  ref : Nat
  link : Bool
  deriving DecidableEq

/-- the valid types for a type (`ValidatorMap.valid_types`, 258-266): `none` if the type is unknown -/
abbrev Valid := String → Option (List String)

/-- validate/validator.py:694-703, 705-724: name, then type; `valid_types` and `get_validator` raise ValueError for an unknown type -/
def fit (valid : Valid) (s : Sub) (c : Child) : Except Err Bool :=
  if s.name = none ∨ s.name = some c.name then
    match s.type with
    | none => .ok true
    | some t => match valid t with
      | none => .error .valueError
      | some l => .ok (match c.type with | none => false | some d => l.contains d)
  else .ok false

/-- the indices of the sub-specs which fit (validate/validator.py:682-684) -/
def candidates (valid : Valid) (c : Child) : List (Sub × List Child) → Nat → Except Err (List (Nat × Sub × Nat))
  | [], _ => .ok []
  | (s, l) :: rest, i => match fit valid s c with
    | .error e => .error e
    | .ok b => match candidates valid c rest (i + 1) with
      | .error e => .error e
      | .ok r => .ok (if b then (i, s, l.length) :: r else r)

/-- validate/validator.py:731-738 `is_unsatisfied` -/
def unsatisfied (q : Quantity) (n : Nat) : Bool :=
  if q.required && n == 0 then true
  else match q with
    | .num k => decide (n < k)
    | .str _ => false

/-- validate/validator.py:665-692 `_best_matching_spec` -/
def best : List (Nat × Sub × Nat) → Option Nat
  | [] => none
  | [c] => some c.1
  | c :: cs => match (c :: cs).filter fun x => unsatisfied x.2.1.quantity x.2.2 with
    | [] => some c.1
    | u :: _ => some u.1

/-- `SpecMatches.add` for the sub-spec with index `i` (validate/validator.py:621-632) -/
def addAt (c : Child) : List (Sub × List Child) → Nat → List (Sub × List Child)
  | [], _ => []
  | (s, l) :: rest, 0 => (s, l ++ [c]) :: rest
  | m :: rest, i + 1 => m :: addAt c rest i

/-- the state of a `SpecMatcher` (validate/validator.py:639-642) -/
structure St where
  matches_ : List (Sub × List Child)
  unmatched : List Child

/-- validate/validator.py:639-642 `SpecMatcher.__init__` -/
def init (specs : List Sub) : St := ⟨specs.map fun s => (s, []), []⟩

/-- validate/validator.py:659-663: one child -/
def step (valid : Valid) (st : St) (c : Child) : Except Err St :=
  match candidates valid c st.matches_ 0 with
  | .error e => .error e
  | .ok cands => match best cands with
    | none => .ok { st with unmatched := st.unmatched ++ [c] }
    | some i => .ok { st with matches_ := addAt c st.matches_ i }

/-- validate/validator.py:653-663 `assign_to_specs` -/
def assign (valid : Valid) : St → List Child → Except Err St
  | st, [] => .ok st
  | st, c :: cs => match step valid st c with
    | .error e => .error e
    | .ok st' => assign valid st' cs

/-- the errors about quantities (validate/validator.py:505-544) -/
inductive QErr | missing | incorrect
  deriving DecidableEq

/-- validate/validator.py:530-537 `__incorrect_quantity` -/
def incorrectQuantity (n : Nat) (q : Quantity) : Bool :=
  if !q.isMany && decide (n > 1) then true
  else match q with
    | .num k => decide (n ≠ k)
    | .str _ => false

/-- validate/validator.py:505-512 `__validate_presence_and_quantity` -/
def quantityError (q : Quantity) (n : Nat) : Option QErr :=
  if n == 0 && q.required then some .missing
  else if incorrectQuantity n q then some .incorrect
  else none

/-- validate/validator.py:499-501: the errors about quantities of a group -/
def quantityErrors (st : St) : List QErr := st.matches_.filterMap fun m => quantityError m.1.quantity m.2.length

end Verif.Vmatch

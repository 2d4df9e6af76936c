import Verif.Base.Py

/-!
# Model of the data type and shape checks of the validator (validate/validator.py:20-89, 185-207)
-/

namespace Verif.Vtypes
open Verif

/-- spec/spec.py:26-44 `DtypeHelper.primary_dtype_synonyms` -/
def synonyms : Dict String (List String) :=
  [("float", ["float", "float32"]), ("double", ["double", "float64"]), ("short", ["int16", "short"]), ("int", ["int32", "int"]),
   ("long", ["int64", "long"]), ("utf", ["text", "utf", "utf8", "utf-8"]), ("ascii", ["ascii", "bytes"]), ("bool", ["bool"]),
   ("int8", ["int8"]), ("uint8", ["uint8"]), ("uint16", ["uint16"]), ("uint32", ["uint32", "uint"]), ("uint64", ["uint64"]),
   ("object", ["object"]), ("region", ["region"]), ("numeric", ["numeric"]), ("isodatetime", ["isodatetime", "datetime", "date"])]

/-- validate/validator.py:22-31 `__additional` -/
def additional : Dict String (List String) :=
  [("float", ["double"]), ("int8", ["short", "int", "long"]), ("short", ["int", "long"]), ("int", ["long"]),
   ("uint8", ["uint16", "uint32", "uint64"]), ("uint16", ["uint32", "uint64"]), ("uint32", ["uint64"]), ("utf", ["ascii"])]

/-- `pat in s` (validate/validator.py:42) -/
def within (pat : List Char) : List Char → Bool
  | [] => pat.isEmpty
  | c :: cs => pat.isPrefixOf (c :: cs) || within pat cs

/-- validate/validator.py:42: `'int' in k or 'float' in k` -/
def isNumber (k : String) : Bool := within "int".toList k.toList || within "float".toList k.toList

/-- validate/validator.py:35-38: the list for one primary type -/
def allowFor (dt : String) (syn : List String) : List String :=
  match Dict.get? additional dt with
  | none => syn
  | some more => syn ++ more.flatMap fun a => (Dict.get? synonyms a).getD []

/-- validate/validator.py:34-40: the table before `numeric` is replaced -/
def allowable0 : Dict String (List String) :=
  synonyms.foldl (fun acc p => p.2.foldl (fun acc s => Dict.set acc s (allowFor p.1 p.2)) acc) []

/-- validate/validator.py:34-42 `__allowable` -/
def allowable : Dict String (List String) :=
  Dict.set allowable0 "numeric" ((allowable0.filter fun p => isNumber p.1).flatMap Prod.snd)

/-- `rec in __allowable[exp]`: KeyError if the expected type is not in the table (validate/validator.py:56-63, 86) -/
def inAllowable (exp rec : String) : Except Err Bool :=
  match Dict.get? allowable exp with
  | none => .error .keyError
  | some l => .ok (l.contains rec)

/-- validate/validator.py:79-83 (and 56-61): the test for one expected type.  The received type is its name (66-78); `iso`: the string
received has the format of an ISO date; a reference is its kind (`object` or `region`, 84-85). -/
def checkOne (exp rec : String) (iso : Bool) : Except Err Bool :=
  match inAllowable exp rec with
  | .error e => .error e
  | .ok b => .ok (b || (exp == "isodatetime" && (rec == "utf" || rec == "ascii") && iso))

/-- validate/validator.py:53-64: the loop over the fields of a compound type, with early return at a date field -/
def checkFields : List String → List (String × Bool) → Except Err Bool
  | [], _ => .ok true
  | _ :: _, [] => .error .indexError
  | exp :: exps, (rec, iso) :: recs =>
    if exp = "isodatetime" then checkOne exp rec iso
    else match inAllowable exp rec with
      | .error e => .error e
      | .ok false => .ok false
      | .ok true => checkFields exps recs

/-- validate/validator.py:45-64 `check_type` for a compound type -/
def checkCompound (exps : List String) (recs : List (String × Bool)) : Except Err Bool :=
  if exps.length > recs.length then .error .valueError else checkFields exps recs

/-- the shape of a spec: `None`, a number or a list of such (validate/validator.py:185-207) -/
inductive Exp
  | any
  | num (n : Nat)
  | seq (l : List Exp)

/-- the shape received: `None`, a number (an element of a shape) or a shape (validate/validator.py:185-207) -/
inductive Rec
  | none
  | num (n : Nat)
  | seq (l : List Rec)

mutual
/-- validate/validator.py:185-207 `check_shape` -/
def checkShape : Exp → Rec → Except Err Bool
  | .any, _ => .ok true
  | .num n, .num m => .ok (n == m)
  | .num _, _ => .ok false
  | .seq [], _ => .error .indexError
  | .seq (.seq s :: rest), r => checkAlts (.seq s :: rest) r
  | .seq (_ :: _), .none => .ok false
  | .seq (_ :: _), .num _ => .error .typeError
  | .seq (e :: es), .seq rs => if (e :: es).length = rs.length then checkDims (e :: es) rs else .ok false
/-- validate/validator.py:192-195: some alternative fits -/
def checkAlts : List Exp → Rec → Except Err Bool
  | [], _ => .ok false
  | e :: es, r => match checkShape e r with
    | .error x => .error x
    | .ok true => .ok true
    | .ok false => checkAlts es r
/-- validate/validator.py:201-204: every dimension fits -/
def checkDims : List Exp → List Rec → Except Err Bool
  | e :: es, r :: rs => match checkShape e r with
    | .error x => .error x
    | .ok false => .ok false
    | .ok true => checkDims es rs
  | _, _ => .ok true
end

end Verif.Vtypes

import Verif.Base.Py

/-!
# Validation errors: their texts, when they are equal, and removing duplicates

Model of `Error` and its subclasses (validate/errors.py) and of `_remove_duplicates` (validate/validator.py:607-618).

Simplifications.
* Two texts have the same hash only if they are equal.
* The texts of what was expected and received are given as texts.
-/

namespace Verif.VErr
open Verif

/-- an error (validate/errors.py:24-27) -/
structure Error where
  name : String
  reason : String
  loc : Option String
  deriving DecidableEq, Repr

/-- `__format_str` (validate/errors.py:48-53) -/
def formatStr (name : String) (loc : Option String) (reason : String) : String := match loc with
  | some l => name ++ " (" ++ l ++ "): " ++ reason
  | none => name ++ ": " ++ reason

/-- `__str__` and `__repr__` (validate/errors.py:45-46, 55-56) -/
def str (e : Error) : String := formatStr e.name e.loc e.reason

/-- `name.split('/')[-1]` (validate/errors.py:79) -/
def lastPart (s : String) : String := String.ofList (s.toList.reverse.takeWhile fun c => c != '/').reverse

/-- `__equatable_str` (validate/errors.py:67-82) -/
def eqStr (e : Error) : String := formatStr (if e.loc.isSome then lastPart e.name else e.name) e.loc e.reason

/-- what an error is compared with: another error, a text, or something without a hash (validate/errors.py:84-85) -/
inductive Obj where
  | error (e : Error)
  | text (s : String)
  | unhashable

/-- `hash` (validate/errors.py:58-65) -/
def hash : Obj → Except Err String
  | .error e => .ok (eqStr e)
  | .text s => .ok s
  | .unhashable => .error .typeError

/-- `__eq__` (validate/errors.py:84-85) -/
def eq (e : Error) (o : Obj) : Except Err Bool := match hash o with
  | .error x => .error x
  | .ok s => .ok (decide (eqStr e = s))

/-- setting `location` (validate/errors.py:41-43) -/
def setLoc (e : Error) (l : Option String) : Error := { e with loc := l }

/-- `ordered_errors[error] = error`: a key that is there stays (validate/validator.py:616-617) -/
def put (d : List Error) (e : Error) : List Error := if d.any fun x => decide (eqStr x = eqStr e) then d else d ++ [e]

/-- `_remove_duplicates` (validate/validator.py:607-618) -/
def removeDuplicates (l : List Error) : List Error := l.foldl put []

/-! ## The classes -/

/-- `MissingError` (validate/errors.py:105-112) -/
def missing (name : String) (loc : Option String) : Error := ⟨name, "argument missing", loc⟩

/-- `MissingDataType` (validate/errors.py:115-128) -/
def missingDataType (name dataType : String) (loc missingName : Option String) : Error := ⟨name, match missingName with
  | some n => "missing data type " ++ dataType ++ " (" ++ n ++ ")"
  | none => "missing data type " ++ dataType, loc⟩

/-- `IncorrectQuantityError` (validate/errors.py:135-146) -/
def incorrectQuantity (name dataType expected received : String) (loc : Option String) : Error :=
  ⟨name, "expected a quantity of " ++ expected ++ " for data type " ++ dataType ++ ", received " ++ received, loc⟩

/-- `IllegalLinkError` (validate/errors.py:179-191) -/
def illegalLink (name : String) (loc : Option String) : Error := ⟨name, "illegal use of link (linked object will not be validated)", loc⟩

/-- `IncorrectDataType` (validate/errors.py:194-209) -/
def incorrectDataType (name expected received : String) (loc : Option String) : Error :=
  ⟨name, "incorrect data_type - expected '" ++ expected ++ "', got '" ++ received ++ "'", loc⟩

/-- `DtypeError`, where the expected type is not a list (validate/errors.py:88-102) -/
def dtypeError (name expected received : String) (loc : Option String) : Error :=
  ⟨name, "incorrect type - expected '" ++ expected ++ "', got '" ++ received ++ "'", loc⟩

/-- `ShapeError` (validate/errors.py:164-176) -/
def shapeError (name expected received : String) (loc : Option String) : Error :=
  ⟨name, "incorrect shape - expected '" ++ expected ++ "', got '" ++ received ++ "'", loc⟩

/-- `ExpectedArrayError` (validate/errors.py:149-161) -/
def expectedArray (name expected received : String) (loc : Option String) : Error :=
  ⟨name, "incorrect shape - expected an array of shape '" ++ expected ++ "', got non-array data '" ++ received ++ "'", loc⟩

end Verif.VErr

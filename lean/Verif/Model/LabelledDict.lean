import Verif.Base.Py

/-!
# Model of `LabelledDict` (utils.py:971-1138)

Simplifications: strings are lists of characters; an object is an identity plus a finite map of string attributes that
does not change after construction (in hdmf the key attribute is `name` or `object_id`, both without public setter);
`str.strip` removes only space, tab, CR and LF; the two callbacks are recorded in a log and never raise.
-/

namespace Verif.LabelledDict

open Verif

/-- strings (utils.py:971-1138) -/
abbrev Str := List Char

/-- A Python object: identity and string-valued attributes. (utils.py:971-1030) -/
structure Obj where
  id : Nat
  attrs : Dict Str Str
  deriving DecidableEq, Repr

/-- `getattr(value, a, None)` / `hasattr(value, a)` (utils.py:1058-1064, 1093-1096) -/
def Obj.attr (o : Obj) (a : Str) : Option Str := Dict.get? o.attrs a

/-- Calls made to `add_callable` and `remove_callable`. `removedSet` is a call with a set of objects. (utils.py:1022-1030) -/
inductive Event where
  | added (o : Obj)
  | removed (o : Obj)
  | removedSet (os : List Obj)
  deriving DecidableEq, Repr

/-- utils.py:1015-1029: the state of a LabelledDict. -/
structure LD where
  keyAttr : Str
  items : Dict Str Obj
  log : List Event
  deriving DecidableEq, Repr

/-- A freshly constructed LabelledDict (utils.py:1022-1029). -/
def init (keyAttr : Str) : LD := { keyAttr, items := [], log := [] }

/-- `args.split("==")` (used at utils.py:1052). -/
def splitEq : Str → List Str
  | [] => [[]]
  | '=' :: '=' :: r => [] :: splitEq r
  | c :: r => match splitEq r with
    | p :: ps => (c :: p) :: ps
    | [] => [[c]]

/-- `'==' in args` (utils.py:1051): the separator occurs iff splitting yields more than one piece. -/
def hasEq (s : Str) : Bool := decide (1 < (splitEq s).length)

/-- `str.strip()` (utils.py:1053-1054). -/
def strip (s : Str) : Str := ((s.dropWhile Char.isWhitespace).reverse.dropWhile Char.isWhitespace).reverse

/-- Result of `d[...]`: one value, or the set of values matching `attr == val`. (utils.py:1040-1066) -/
inductive Found where
  | one (o : Obj)
  | set (os : List Obj)
  deriving DecidableEq, Repr

/-- `dict.__getitem__`. (utils.py:1065) -/
def dictGet (d : LD) (k : Str) : Except Err Found :=
  match Dict.get? d.items k with
  | some o => .ok (.one o)
  | none => .error .keyError

/-- utils.py:1042-1069 `__getitem__`. -/
def getitem (d : LD) (args : Str) : Except Err Found :=
  if hasEq args then
    match splitEq args with
    | [k, v] =>
      let key := strip k
      let val := strip v
      if key = [] then .error .valueError
      else if val = [] then .error .valueError
      else if key ≠ d.keyAttr then
        .ok (.set ((Dict.values d.items).filter (fun o => decide (o.attr key = some val))))
      else dictGet d val
    | _ => .error .valueError          -- "too many values to unpack"
  else dictGet d args

/-- utils.py:1071-1086 `__setitem__` (with `__check_value`, 1096-1099). -/
def setitem (d : LD) (key : Str) (value : Obj) : LD × Except Err Unit :=
  if d.items.has key then (d, .error .typeError)
  else match value.attr d.keyAttr with
    | none => (d, .error .valueError)
    | some a =>
      if key ≠ a then (d, .error .keyError)
      else ({ d with items := d.items.set key value, log := d.log ++ [.added value] }, .ok ())

/-- utils.py:1088-1094 `add`. -/
def add (d : LD) (value : Obj) : LD × Except Err Unit :=
  match value.attr d.keyAttr with
  | none => (d, .error .valueError)
  | some a => setitem d a value

/-- utils.py:1101-1106 `pop`. -/
def pop (d : LD) (k : Str) : LD × Except Err Obj :=
  match Dict.get? d.items k with
  | none => (d, .error .keyError)
  | some o => ({ d with items := d.items.del k, log := d.log ++ [.removed o] }, .ok o)

/-- utils.py:1108-1118 `popitem`: last inserted item. -/
def popitem (d : LD) : LD × Except Err (Str × Obj) :=
  match d.items.getLast? with
  | none => (d, .error .keyError)
  | some (k, o) => ({ d with items := d.items.dropLast, log := d.log ++ [.removed o] }, .ok (k, o))

/-- utils.py:1120-1126 `clear`: `while len(self): self.popitem()`; `n` bounds the number of iterations. -/
def clearLoop : Nat → LD → LD
  | 0, d => d
  | n + 1, d => if d.items.length = 0 then d else clearLoop n (popitem d).1

/-- utils.py:1117-1123 `clear` -/
def clear (d : LD) : LD × Except Err Unit := (clearLoop d.items.length d, .ok ())

/-- utils.py:1128-1133 `__delitem__`: note `item = self[k]` goes through the overridden `__getitem__`. -/
def delitem (d : LD) (k : Str) : LD × Except Err Unit :=
  match getitem d k with
  | .error e => (d, .error e)
  | .ok item =>
    if d.items.has k then
      ({ d with items := d.items.del k,
                log := d.log ++ [match item with | .one o => .removed o | .set os => .removedSet os] }, .ok ())
    else (d, .error .keyError)

/-- the public mutators (utils.py:1068-1138) -/
inductive Op where
  | setitem (k : Str) (v : Obj)
  | add (v : Obj)
  | pop (k : Str)
  | popitem
  | clear
  | delitem (k : Str)
  | setdefault (k : Str)     -- utils.py:1135-1137: always TypeError
  | update                   -- utils.py:1139-1141: always TypeError
  deriving DecidableEq, Repr

/-- One public mutator call: the state left behind and the exception raised, if any.
(histories of the calls modelled from utils.py:1068-1138) -/
def step (d : LD) : Op → LD × Option Err
  | .setitem k v => match setitem d k v with | (d', .ok _) => (d', none) | (d', .error e) => (d', some e)
  | .add v => match add d v with | (d', .ok _) => (d', none) | (d', .error e) => (d', some e)
  | .pop k => match pop d k with | (d', .ok _) => (d', none) | (d', .error e) => (d', some e)
  | .popitem => match popitem d with | (d', .ok _) => (d', none) | (d', .error e) => (d', some e)
  | .clear => match clear d with | (d', .ok _) => (d', none) | (d', .error e) => (d', some e)
  | .delitem k => match delitem d k with | (d', .ok _) => (d', none) | (d', .error e) => (d', some e)
  | .setdefault _ => (d, some .typeError)
  | .update => (d, some .typeError)

/-- A history of calls on a fresh dict; exceptions are caught by the caller, who goes on.
(histories of the calls modelled from utils.py:1068-1138) -/
def run (keyAttr : Str) (ops : List Op) : LD := ops.foldl (fun d o => (step d o).1) (init keyAttr)

end Verif.LabelledDict

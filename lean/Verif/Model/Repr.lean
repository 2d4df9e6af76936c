import Verif.Base.Py
import Mathlib.Data.List.Lex
import Mathlib.Data.List.Sort
import Mathlib.Data.Char

/-!
# The text that shows a container

Model of `Container.__repr__`, `__smart_str`, `__smart_str_list` and `__smart_str_dict` (container.py:625-637, 753-828).

Simplifications.
* The address of the object in the first line is left out.
* Values other than containers, lists, tuples, dictionaries and sets are given by their `str`.  `np.asarray` of a list either gives an array, whose `str` is given, or raises
ValueError; that an array of containers shows these by their own `__repr__` is not modelled.
* Lists and tuples are the same.  Keys of dictionaries and elements of sets are strings or natural numbers.
* The depth of the stack is the argument `fuel`; RecursionError is `runtimeError`.
-/

namespace Verif.Repr
open Verif

/-- text (container.py:627) -/
abbrev Text := List Char

/-- a key of a dictionary or element of a set (container.py:786, 821) -/
inductive Key where
  | str (s : Text)
  | int (n : Nat)
  deriving DecidableEq

/-- `str` of a key (container.py:790) -/
def Key.text : Key → Text
  | .str s => s
  | .int n => Nat.toDigits 10 n

/-- a value of a field (container.py:631-636, 777-790): an object without `__len__`; an object with `__len__` (a string, for instance) and its truth, where `none` means that
`bool` raises ValueError (as for a table of pandas); an array; a container; a list, with the text of the array it makes; a dictionary, with the text of the type of each value; a
set, in the order of iteration -/
inductive Val where
  | plain (s : Text)
  | sized (s : Text) (truth : Option Bool)
  | arr (s : Text)
  | obj (o : Nat)
  | list (np : Option Text) (l : List Val)
  | dict (l : List (Key × Text))
  | set (l : List Key)

/-- a container: its name, the text of its class, `module.name` (container.py:627), and `str` of it (container.py:788), its length if it has `__len__`, as a `Data` or a table does
(container.py:632), and its fields -/
structure Obj where
  name : Text
  cls : Text
  type : Text
  len : Option Nat
  fields : Dict Text Val

/-- the containers (container.py:631) -/
abbrev Heap := Nat → Obj

/-- the strings among the keys (container.py:786, 821) -/
def strs : List Key → List Text
  | [] => []
  | .str s :: l => s :: strs l
  | .int _ :: l => strs l

/-- the numbers among the keys (container.py:786, 821) -/
def ints : List Key → List Nat
  | [] => []
  | .str _ :: l => ints l
  | .int n :: l => n :: ints l

/-- `sorted` of keys: a string and a number cannot be compared (container.py:786, 821) -/
def sortKeys (l : List Key) : Except Err (List Key) :=
  match strs l, ints l with
  | [], ns => .ok ((ns.insertionSort (· ≤ ·)).map .int)
  | ss, [] => .ok ((ss.insertionSort (· ≤ ·)).map .str)
  | _, _ => .error .typeError

/-- `n * 2 * ' '` (container.py:801-802, 818-819) -/
def spaces (n : Nat) : Text := List.replicate (n * 2) ' '

/-- the lines of a list or dictionary, each but the last with a comma (container.py:804-807, 822-825) -/
def rows (n : Nat) : List Text → Text
  | [] => []
  | [t] => '\n' :: spaces (n + 1) ++ t
  | t :: u :: l => '\n' :: spaces (n + 1) ++ t ++ ',' :: rows n (u :: l)

/-- `__smart_str_list` and `__smart_str_dict` around the texts of the elements (container.py:793-809, 812-827) -/
def block (n : Nat) (left right : Char) (ts : List Text) : Text :=
  match ts with
  | [] => [left, ' ', right]
  | ts => left :: rows n ts ++ '\n' :: spaces n ++ [right]

/-- whether the first element of a list is a container (container.py:778) -/
def startsWithObj : List Val → Bool
  | .obj _ :: _ => true
  | _ => false

mutual
/-- `__smart_str` (container.py:753-790) -/
def smart (h : Heap) (n : Nat) : Val → Except Err Text
  | .plain s => .ok s
  | .sized s _ => .ok s
  | .arr s => .ok s
  | .obj o => .ok ((h o).name ++ ' ' :: (h o).type)
  | .list np l =>
    match startsWithObj l, np with
    | false, some s => .ok s
    | _, _ => do
      let ts ← smartAll h (n + 1) l
      .ok (block n '(' ')' ts)
  | .dict l => do
    let ks ← sortKeys (l.map Prod.fst)
    .ok (block n '{' '}' (ks.map fun k => k.text ++ ' ' :: (Dict.get? l k).getD []))
  | .set l => do
    let ks ← sortKeys l
    .ok (block n '{' '}' (ks.map Key.text))
/-- the texts of the elements of a list (container.py:804-807) -/
def smartAll (h : Heap) (n : Nat) : List Val → Except Err (List Text)
  | [] => .ok []
  | v :: l => do
    let t ← smart h n v
    let ts ← smartAll h n l
    .ok (t :: ts)
end

/-- `bool` of a value with `__len__`; a list that is empty is shown all the same (container.py:633) -/
def truth (h : Heap) : Val → Except Err Bool
  | .plain _ => .ok true
  | .sized _ (some b) => .ok b
  | .sized _ none => .error .valueError
  | .arr _ => .ok true
  | .obj o => .ok (match (h o).len with | some 0 => false | _ => true)
  | .list _ _ => .ok true
  | .dict l => .ok (!l.isEmpty)
  | .set l => .ok (!l.isEmpty)

/-- the text of a field, `none` if it is not shown (container.py:631-636); `rec` shows a container without `__len__` -/
def fieldText (h : Heap) (rec : Nat → Except Err Text) : Val → Except Err (Option Text)
  | .plain s => .ok (some s)
  | .obj o => match (h o).len with
    | none => do
      let t ← rec o
      .ok (some t)
    | some 0 => .ok none
    | some (_ + 1) => do
      let t ← smart h 1 (.obj o)
      .ok (some t)
  | v => do
    let b ← truth h v
    if b then do
      let t ← smart h 1 v
      .ok (some t)
    else .ok none

/-- `"  {}: {}\n".format` (container.py:634, 636) -/
def line (k t : Text) : Text := ' ' :: ' ' :: k ++ ':' :: ' ' :: t ++ ['\n']

/-- the loop over the names of the fields (container.py:630-636) -/
def loop (h : Heap) (rec : Nat → Except Err Text) (fs : Dict Text Val) : List Text → Except Err Text
  | [] => .ok []
  | k :: ks => match Dict.get? fs k with
    | none => .error .keyError
    | some v => do
      let t ← fieldText h rec v
      let r ← loop h rec fs ks
      .ok ((match t with | some t => line k t | none => []) ++ r)

/-- the first lines (container.py:627-629) -/
def header (o : Obj) : Text := o.name ++ ' ' :: o.cls ++ (if o.fields.isEmpty then [] else "\nFields:\n".toList)

/-- `Container.__repr__` (container.py:625-637) -/
def repr (h : Heap) : Nat → Nat → Except Err Text
  | 0, _ => .error .runtimeError
  | f + 1, o => do
    let r ← loop h (repr h f) (h o).fields ((Dict.keys (h o).fields).insertionSort (· ≤ ·))
    .ok (header (h o) ++ r)

end Verif.Repr

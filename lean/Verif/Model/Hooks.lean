import Verif.Base.Py

/-!
# Functions that run when a class is created

Model of `ExtenderMeta` (utils.py:842-883).

Simplifications.
* The method resolution order of the new class is given: a list of classes, the new class first.
* What the functions do to the class is not modelled; attributes that are not such functions are left out.
-/

namespace Verif.Hooks
open Verif

/-- a name (utils.py:874) -/
abbrev Name := List Char

/-- a function with one or both marks (utils.py:851-872) -/
structure Hook where
  id : Nat
  pre : Bool
  post : Bool
  deriving DecidableEq

/-- a class: its name and its functions by the name in the source (utils.py:842-849) -/
structure Cls where
  name : Name
  hooks : Dict Name Hook

/-- a private name: begins with two underscores and does not end with two (as in query.py:25-26) -/
def isPrivate (n : Name) : Bool := match n with
  | '_' :: '_' :: _ => !(match n.reverse with
    | '_' :: '_' :: _ => true
    | _ => false)
  | _ => false

/-- the name of an attribute: private names get the name of the class, without underscores at its beginning, in front (as in query.py:25-26) -/
def mangle (cls n : Name) : Name := if isPrivate n then '_' :: (cls.dropWhile (· = '_') ++ n) else n

/-- the names of the functions of a class (utils.py:875, `dir`) -/
def Cls.names (c : Cls) : List Name := c.hooks.keys.map (mangle c.name)

/-- order of names (utils.py:875, `dir`) -/
def lt : Name → Name → Bool
  | _, [] => false
  | [], _ :: _ => true
  | a :: as, b :: bs => a.toNat < b.toNat || (a = b && lt as bs)

/-- put in order, if it is not there (utils.py:875, `dir`) -/
def insert (x : Name) : List Name → List Name
  | [] => [x]
  | y :: ys => if x = y then y :: ys else if lt x y then x :: y :: ys else y :: insert x ys

/-- `dir(cls)`: the names of all classes in order (utils.py:875, 880) -/
def dir (mro : List Cls) : List Name := (mro.flatMap Cls.names).foldr insert []

/-- the first function with a name in a class (utils.py:875, `getattr`) -/
def Cls.own (c : Cls) (n : Name) : Option Hook := (c.hooks.find? fun p => mangle c.name p.1 = n).map (·.2)

/-- `getattr(cls, n)`: the first class that has it (utils.py:875, 880) -/
def resolve : List Cls → Name → Option Hook
  | [], _ => none
  | c :: cs, n => match c.own n with
    | some h => some h
    | none => resolve cs n

/-- the functions run before the class is made (utils.py:875-878) -/
def runPre (mro : List Cls) : List Hook := ((dir mro).filterMap (resolve mro)).filter (·.pre)

/-- the functions run after (utils.py:880-883) -/
def runPost (mro : List Cls) : List Hook := ((dir mro).filterMap (resolve mro)).filter (·.post)

/-- all, in order (utils.py:874-883) -/
def create (mro : List Cls) : List Hook := runPre mro ++ runPost mro

end Verif.Hooks

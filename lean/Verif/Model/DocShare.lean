import Verif.Base.Py

/-!
# Model of the argument descriptions of decorated functions and of `get_docval` (utils.py:44-54, 398-414, 506-527, 588-686)

The dictionaries that describe arguments are objects with addresses; of each only the name, the type and whether there is a default are
modelled.  Classes are numbers.  The checks of enums and of unknown keys are not modelled.
-/

namespace Verif.DocShare
open Verif

/-- what a type can be, apart from lists: `None`, a class, or a string (utils.py:506-527) -/
inductive Atom
  | any
  | cls (c : Nat)
  | str (s : String)
  deriving DecidableEq, Repr

/-- a type: one of these, or a list or tuple of types (utils.py:506-527) -/
inductive Ty
  | atom (a : Atom)
  | seq (l : List Ty)

/-- name ↦ classes (utils.py:13-23, 44-54) -/
abbrev Macros := Dict String (List Nat)

/-- utils.py:507-515 for what is not a list, as a list of what it adds to the list it is in (518-523) -/
def flatAtom (ms : Macros) : Atom → List Atom
  | .str s => match ms.get? s with
    | some cs => cs.map .cls
    | none => [.str s]
  | a => [a]

mutual
/-- what an element of a list adds to the result: a tuple is unpacked (utils.py:516-524) -/
def flat (ms : Macros) : Ty → List Atom
  | .atom a => flatAtom ms a
  | .seq l => flatL ms l
/-- the loop over a list (utils.py:516-524) -/
def flatL (ms : Macros) : List Ty → List Atom
  | [] => []
  | t :: l => flat ms t ++ flatL ms l
end

/-- utils.py:506-527 `__resolve_type` -/
def resolve (ms : Macros) : Ty → Ty
  | .atom (.str s) => match ms.get? s with
    | some cs => .seq (cs.map fun c => .atom (.cls c))
    | none => .atom (.str s)
  | .atom a => .atom a
  | .seq l => .seq ((flatL ms l).map .atom)

/-- the description of an argument (utils.py:595-634) -/
structure Arg where
  name : String
  ty : Ty
  dflt : Bool

/-- The dictionaries that were made, the macros, and for every decorated function the dictionaries of its arguments
(utils.py:588-686) -/
structure St where
  heap : Nat → Arg
  next : Nat
  macros : Macros
  funs : List (List Nat)

/-- nothing decorated yet (utils.py:13-23) -/
def St.start (ms : Macros) : St := ⟨fun _ => ⟨"", .atom .any, false⟩, 0, ms, []⟩

/-- `docval_idx[name]`: of dictionaries of the same name the last one counts (utils.py:678) -/
def idx (s : St) (as : List Nat) (n : String) : Option Nat := (as.filter fun a => (s.heap a).name == n).getLast?

/-- utils.py:405-409: the dictionaries of the given names -/
def pick (s : St) (as : List Nat) : List String → Except Err (List Nat)
  | [] => .ok []
  | n :: ns => match idx s as n with
    | none => .error .valueError
    | some a => (pick s as ns).map (a :: ·)

/-- utils.py:398-414 `get_docval`; a number that is not that of a decorated function stands for one that is not decorated -/
def getDocval (s : St) (f : Nat) (names : List String) : Except Err (List Nat) :=
  match s.funs[f]? with
  | none => if names = [] then .ok [] else .error .valueError
  | some as => if names = [] then .ok as else pick s as names

/-- the description with its type resolved (utils.py:604-609) -/
def Arg.resolved (ms : Macros) (a : Arg) : Arg := { a with ty := resolve ms a.ty }

/-- the heap after new dictionaries were written in the source (utils.py:537, 588) -/
def alloc (s : St) (lits : List Arg) : Nat → Arg := fun a =>
  if s.next ≤ a then (lits[a - s.next]?).getD (s.heap a) else s.heap a

/-- utils.py:588-635: `@docval(*old, lits...)`.  The types are resolved in the dictionaries themselves; resolving twice, if a
dictionary is given twice, is the same as once. -/
def decorate (s : St) (old : List Nat) (lits : List Arg) : St :=
  let as := old ++ (List.range lits.length).map (s.next + ·)
  let h := fun a => if a ∈ as then (alloc s lits a).resolved s.macros else alloc s lits a
  { s with heap := h
           next := s.next + lits.length
           funs := s.funs ++ [(as.filter fun a => !(h a).dflt) ++ (as.filter fun a => (h a).dflt)] }

/-- utils.py:44-54 `docval_macro` -/
def addMacro (s : St) (m : String) (c : Nat) : St :=
  { s with macros := s.macros.set m (((s.macros.get? m).getD []) ++ [c]) }

/-- assignment to the type in a dictionary that `get_docval` returned (utils.py:407-410) -/
def change (s : St) (a : Nat) (t : Ty) : St :=
  { s with heap := fun b => if b = a then { s.heap a with ty := t } else s.heap b }

/-- what a program does (histories of the calls modelled from utils.py:44-54, 398-414, 588-686) -/
inductive Op
  | decorate (f : Nat) (names : List String) (lits : List Arg)
  | macro (m : String) (c : Nat)
  | change (f : Nat) (n : String) (t : Ty)

/-- one call; where `get_docval` raises nothing happens (histories of the calls modelled from utils.py:44-54, 398-414, 588-686) -/
def step (s : St) : Op → St
  | .decorate f names lits => match getDocval s f names with
    | .ok as => DocShare.decorate s as lits
    | .error _ => s
  | .macro m c => addMacro s m c
  | .change f n t => match getDocval s f [n] with
    | .ok (a :: _) => DocShare.change s a t
    | _ => s

/-- a history (histories of the calls modelled from utils.py:44-54, 398-414, 588-686) -/
def run (s : St) : List Op → St
  | [] => s
  | op :: ops => run (step s op) ops

/-- the arguments of a function, as they are checked when it is called (utils.py:636-650) -/
def args (s : St) (f : Nat) : List Arg := ((s.funs[f]?).getD []).map s.heap

end Verif.DocShare

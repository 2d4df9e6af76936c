import Verif.Base.Py

/-!
# Model of the computation of valid types (validate/validator.py:214-266)
-/

namespace Verif.Vmap
open Verif

/-- an entry of the tree: a list of children (`list`), or the computed set of subtypes (`tuple`)
(validate/validator.py:214-252) -/
inductive Node
  | kids (l : List String)
  | done (l : List String)
  deriving DecidableEq

/-- `tree`, a `defaultdict(list)` (validate/validator.py:214-252) -/
abbrev Tree := Dict String Node

/-- `tree[parent].append(child)` (validate/validator.py:224-240) -/
def append (t : Tree) (parent child : String) : Tree :=
  match Dict.get? t parent with
  | some (.kids l) => Dict.set t parent (.kids (l ++ [child]))
  | some (.done l) => Dict.set t parent (.done l)
  | none => Dict.set t parent (.kids [child])

/-- validate/validator.py:220-226: one registered type, with its name and that of the type it includes -/
def register (t : Tree) (p : String × Option String) : Tree :=
  let t := Dict.set t p.1 (.kids [])
  match p.2 with
  | none => t
  | some parent => append t parent p.1

/-- validate/validator.py:217-226: the tree built from the registered types, in order -/
def build (types : List (String × Option String)) : Tree := types.foldl register []

/-- validate/validator.py:247-248: the loop over the children, `go` being the recursive call -/
def recAll (go : Tree → String → Option (Tree × List String)) : Tree → List String → List String → Option (Tree × List String)
  | t, [], acc => some (t, acc)
  | t, c :: cs, acc => match go t c with
    | none => none
    | some (t', l) => recAll go t' cs (acc ++ l)

/-- validate/validator.py:249-250 -/
def finish (node : String) : Option (Tree × List String) → Option (Tree × List String)
  | none => none
  | some (t, acc) => some (Dict.set t node (.done acc), acc)

/-- validate/validator.py:244-250 `__rec`, with a bound on the depth of recursion (`none`: RecursionError).  The set is a list; only
membership is meant. -/
def rec : Nat → Tree → String → Option (Tree × List String)
  | 0, _, _ => none
  | f + 1, t, node =>
    match Dict.get? t node with
    | some (.done l) => some (t, l)
    | some (.kids l) => finish node (recAll (rec f) t l [node])
    | none => finish node (recAll (rec f) (Dict.set t node (.kids [])) [] [node])

/-- validate/validator.py:227-228: the loop over the types -/
def close (f : Nat) : Tree → List String → Option Tree
  | t, [] => some t
  | t, k :: ks => match rec f t k with
    | none => none
    | some (t', _) => close f t' ks

/-- validate/validator.py:214-242 `ValidatorMap.__init__`: the table of valid types -/
def validTypes (f : Nat) (types : List (String × Option String)) : Option Tree :=
  close f (build types) (Dict.keys (build types))

/-- validate/validator.py:255-266 `valid_types`: `none` is ValueError -/
def lookup (t : Tree) (k : String) : Option (List String) :=
  match Dict.get? t k with
  | some (.done l) => some l
  | _ => none

end Verif.Vmap

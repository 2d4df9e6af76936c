import Verif.Base.Py

/-!
# Model of proxies for parents while containers are constructed (build/manager.py:15-80, 116-139, 268-314)

Builders are numbered; `Env` says what is known of each of them.  Locations are lists of names instead of names joined by
slashes (names have no slashes, container.py:305-306).  Constructors are taken to set all containers they get as children.
-/

namespace Verif.Parents
open Verif

/-- A builder: name, namespace and data type (if it has one), source, the builders it is in (nearest first), the builders
with a type that are in it or in groups without type in it, or to which links in it lead, in the order in which they are
constructed; and the name and type of the container that is made of it.
(build/builders.py:14-60; build/objectmapper.py:1216-1319, 1320-1375) -/
structure Node where
  name : String
  typ : Option (String × String)
  source : String := "file"
  above : List Nat := []
  vals : List Nat := []
  cname : String
  ctype : String × String

/-- what is known of each builder (build/builders.py:14-60) -/
abbrev Env := Nat → Node

/-- `Proxy` without candidates; compared by all of its parts (build/manager.py:26-34, 70-74) -/
structure Proxy where
  source : String
  loc : List String
  typ : Option (String × String)
  deriving DecidableEq

/-- `__get_parent_dt_builder` for the chain of parents: the first with a type, or the topmost (build/manager.py:301-314) -/
def parentDt (E : Env) : List Nat → Option Nat
  | [] => none
  | [p] => some p
  | p :: q :: rest => if (E p).typ.isSome then some p else parentDt E (q :: rest)

/-- the names of the builders that `__get_parent_dt_builder` gives one after the other, nearest first
(build/manager.py:119-123) -/
def upNames (E : Env) : List Nat → List String
  | [] => []
  | [p] => [(E p).name]
  | p :: q :: rest => if (E p).typ.isSome then (E p).name :: upNames E (q :: rest) else upNames E (q :: rest)

/-- `_get_proxy_builder` (build/manager.py:116-125) -/
def proxyB (E : Env) (b : Nat) : Proxy :=
  ⟨(E b).source, ((E b).name :: upNames E (E b).above).reverse, (E b).typ⟩

/-- The parent of a container: none, a proxy with the candidates collected so far, or the container of a builder.
(container.py:501-536; build/manager.py:26-68) -/
inductive Par where
  | none
  | proxy (p : Proxy) (cands : List Nat)
  | cont (q : Nat)
  deriving DecidableEq

/-- The containers constructed so far (the manager's tables), by their builders, their parents and children.
(build/manager.py:86-92; container.py:291-300) -/
structure State where
  made : List Nat := []
  par : Nat → Par := fun _ => .none
  kids : Nat → List Nat := fun _ => []

/-- a table changed in one place (container.py:515-530) -/
def upd {α : Type} (f : Nat → α) (b : Nat) (x : α) : Nat → α := fun c => if c = b then x else f c

/-- the names from a container up, and the location of the proxy at the end (build/manager.py:129-138), topmost first; nothing
if there are more than the given number of steps -/
def locC (E : Env) (s : State) : Nat → Nat → Option (List String)
  | 0, _ => Option.none
  | n + 1, c => match s.par c with
    | .none => some [(E c).cname]
    | .proxy p _ => some (p.loc ++ [(E c).cname])
    | .cont q => (locC E s n q).map (· ++ [(E c).cname])

/-- `_get_proxy_container` (build/manager.py:127-139) -/
def proxyC (E : Env) (s : State) (n : Nat) (c : Nat) : Option Proxy :=
  (locC E s n c).map fun l => ⟨(E c).source, l, some (E c).ctype⟩

/-- `v.parent = self` while `self` is constructed (container.py:609-616, 508-530): a parent that is a container stays, a
proxy is replaced if it matches (build/manager.py:53-58), otherwise the container becomes a candidate. -/
def adopt (E : Env) (p : Nat) (s : State) (c : Nat) : State :=
  match s.par c with
  | .cont _ => s
  | .none => { s with par := upd s.par c (.cont p), kids := upd s.kids p (s.kids p ++ [c]) }
  | .proxy pr cands =>
    if proxyC E s (s.made.length + 2) p = some pr then
      { s with par := upd s.par c (.cont p), kids := upd s.kids p (s.kids p ++ [c]) }
    else { s with par := upd s.par c (.proxy pr (cands ++ [p])) }

/-- the parent with which a container is made: the proxy of the builder above, or none (build/manager.py:279-286) -/
def firstPar (E : Env) (b : Nat) : Par :=
  match parentDt E (E b).above with
  | none => .none
  | some p => .proxy (proxyB E p) []

/-- The container itself is made (build/manager.py:279-288; build/objectmapper.py:1358-1375): with its first parent, then its
children are set. -/
def make (E : Env) (s : State) (b : Nat) : State :=
  let s1 := (E b).vals.foldl (adopt E b) { s with par := upd s.par b (firstPar E b) }
  { s1 with made := s1.made ++ [b] }

/-- the containers that the constructor gets, one after the other (build/objectmapper.py:1216-1319) -/
def inOrder (f : State → Nat → Except Err State) : State → List Nat → Except Err State
  | s, [] => .ok s
  | s, b :: bs => match f s b with
    | .error e => .error e
    | .ok s' => inOrder f s' bs

/-- `BuildManager.construct` (build/manager.py:268-290); the number is the recursion limit.  `__resolve_parents` is left out:
it looks for proxies among the children of containers, and there are none (`C184_children`). -/
def construct (E : Env) : Nat → State → Nat → Except Err State
  | 0, _, _ => .error .runtimeError
  | n + 1, s, b =>
    if s.made.contains b then .ok s
    else match inOrder (construct E n) s (E b).vals with
      | .error e => .error e
      | .ok s' => .ok (make E s' b)

/-- several calls of `construct` (build/manager.py:268-290) -/
def constructAll (E : Env) (n : Nat) (s : State) (bs : List Nat) : Except Err State := inOrder (construct E n) s bs

/-- `Proxy.resolve` (build/manager.py:64-68): the error message can not be composed, which is a TypeError. -/
def resolve (E : Env) (s : State) (n : Nat) (pr : Proxy) (cands : List Nat) : Except Err Nat :=
  match cands.find? fun c => proxyC E s n c = some pr with
  | some c => .ok c
  | none => .error .typeError

end Verif.Parents

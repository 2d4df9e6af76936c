import Verif.Base.Py

/-!
# Model of `SpecCatalog` (spec/catalog.py)

A spec is its `data_type_inc`, its `data_type_def` and the rest of its contents (compared as a whole by `!=`).  All specs use
the same keys for the two names.  `auto_register`'s traversal of nested specs is not modelled here.
-/

namespace Verif.Catalog
open Verif

/-- a specification (spec/catalog.py:28-50) -/
structure Spec where
  inc : Option String
  dfn : Option String
  body : Nat := 0
  deriving DecidableEq, Repr

/-- spec/catalog.py:11-27 the four dicts -/
structure Cat where
  specs : Dict String Spec := []
  parents : Dict String (Option String) := []
  hier : Dict String (List String) := []
  sources : Dict String (Option String) := []
  deriving DecidableEq, Repr

/-- spec/catalog.py:32-48 `register_spec` -/
def register (c : Cat) (sp : Spec) (src : Option String) : Cat × Except Err Unit :=
  match sp.dfn with
  | none => (c, .error .valueError)
  | some d =>
    let c1 := if sp.inc ≠ some d then { c with parents := Dict.set c.parents d sp.inc } else c
    let c2 := { c1 with specs := Dict.set c1.specs d sp, sources := Dict.set c1.sources d src }
    match Dict.get? c1.specs d with
    | none => (c2, .ok ())
    | some old =>
      if old ≠ sp then (c1, .error .valueError)
      else match Dict.get? c1.sources d with
        | none => (c1, .error .keyError)
        | some s => if s ≠ src then (c1, .error .valueError) else (c2, .ok ())

/-- spec/catalog.py:52-57 `get_spec` -/
def getSpec (c : Cat) (t : String) : Option Spec := Dict.get? c.specs t

/-- spec/catalog.py:61-66 `get_registered_types` -/
def types (c : Cat) : List String := c.specs.keys

/-- spec/catalog.py:70-79 `get_spec_source_file` -/
def getSource (c : Cat) (t : String) : Option String := (Dict.get? c.sources t).join

/-- spec/catalog.py:120-125: the loop over the parents; the number of steps is bounded by the argument -/
def climb (parents : Dict String (Option String)) : Nat → String → Option (List String)
  | 0, _ => none
  | n + 1, t => match (Dict.get? parents t).join with
    | none => some [t]
    | some p => (climb parents n p).map (t :: ·)

/-- spec/catalog.py:126-132: the hierarchy is stored for each type in it -/
def memo (h : Dict String (List String)) : List String → Dict String (List String)
  | [] => h
  | x :: xs => memo (Dict.set h x (x :: xs)) xs

/-- spec/catalog.py:109-133 `get_hierarchy`; `none`: the loop never ends (it visits more types than there are) -/
def getHierarchy (c : Cat) (t : String) : Cat × Option (List String) :=
  match Dict.get? c.hier t with
  | some h => (c, some h)
  | none => match climb c.parents (c.parents.length + 1) t with
    | none => (c, none)
    | some l => ({ c with hier := memo c.hier l }, some l)

/-- spec/catalog.py:188-193: the loop over the registered types -/
def subLoop (rec : String → Except Err (List String)) (recursive : Bool) (t : String) :
    List (String × Spec) → Except Err (List String)
  | [] => .ok []
  | (rt, sp) :: rest =>
    if sp.inc = some t ∧ sp.dfn ≠ some t then
      match (if recursive then rec rt else .ok []) with
      | .error e => .error e
      | .ok below => match subLoop rec recursive t rest with
        | .error e => .error e
        | .ok l => .ok (rt :: below ++ l)
    else subLoop rec recursive t rest

/-- spec/catalog.py:169-196 `get_subtypes` with the recursion depth bounded (RecursionError) -/
def subtypesN (c : Cat) (recursive : Bool) : Nat → String → Except Err (List String)
  | 0, _ => .error .runtimeError
  | n + 1, t => match getSpec c t with
    | none => .ok []
    | some _ => (subLoop (subtypesN c true n) recursive t c.specs).map List.eraseDups

/-- spec/catalog.py:169-196 `get_subtypes`; the order of the result (a set) is not specified by the code -/
def getSubtypes (c : Cat) (recursive : Bool) (t : String) : Except Err (List String) :=
  subtypesN c recursive (c.specs.length + 1) t

/-- spec/catalog.py:198-201 `__copy__` (also `__deepcopy__`, 203-206) -/
def copy (c : Cat) : Cat := { specs := c.specs }

/-- user operations (histories of the calls modelled from spec/catalog.py:32-201) -/
inductive Op
  | register (sp : Spec) (src : Option String)
  | query (t : String)

/-- any history, errors caught (histories of the calls modelled from spec/catalog.py:32-201) -/
def run (c : Cat) : List Op → Cat
  | [] => c
  | .register sp src :: ops => run (register c sp src).1 ops
  | .query t :: ops => run (getHierarchy c t).1 ops

end Verif.Catalog

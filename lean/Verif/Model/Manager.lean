import Verif.Base.Py

/-!
# Model of the bookkeeping of `BuildManager` (build/manager.py:84-290)

Containers and builders are objects, identified by numbers (the code uses `id()` as keys; as the manager keeps the objects it has
registered alive, ids of registered objects are not reused).  What the mapper of a container does while building it is a list of
events (`Env.events`): a call of `manager.build` for another container (build/objectmapper.py:1154-1214), queueing a reference
(`manager.queue_ref`, 751-783, 1031), or raising.  A queued call is likewise a list of events (`Env.script`); in the code these
look up the builders of the targets (build/objectmapper.py:913-1005).  The contents of builders, `source` and `spec_ext` are not modelled
(the ValueError about a changed source, 171-175, is an event `fail`).
-/

namespace Verif.Manager
open Verif

/-- what a mapper does that concerns the manager
(build/manager.py:150-290; what mappers call, build/objectmapper.py:716-1060) -/
inductive Ev
  /-- `manager.build(c)` -/
  | child (c : Nat)
  /-- `manager.queue_ref(a)` -/
  | queue (a : Nat)
  /-- `manager.get_builder(c)`, raising if it is `None` (build/objectmapper.py:996-1000 `__get_target_builder`) -/
  | need (c : Nat)
  /-- an exception -/
  | fail (e : Err)

/-- the behaviour of the mappers: for building a container, for a queued call, and for constructing from a builder (the builders it
constructs first, and whether it then raises) (build/manager.py:150-290; build/objectmapper.py:716-1060, 1325-1377) -/
structure Env where
  events : Nat → List Ev
  script : Nat → List Ev
  parts : Nat → List Nat
  broken : Nat → Option Err

/-- build/manager.py:89-95: the state; `queued`, `ran` and `worked` record what happened (the calls queued, the queued calls made, the
containers whose mapper was run), `modified` the containers with `container.modified` -/
structure St where
  builders : Dict Nat Nat
  containers : Dict Nat Nat
  active : List Nat
  queue : List Nat
  modified : List Nat
  nextB : Nat
  nextC : Nat
  queued : List Nat
  ran : List Nat
  worked : List Nat

/-- build/manager.py:89-95 `__init__` -/
def St.empty : St := ⟨[], [], [], [], [], 0, 0, [], [], []⟩

/-- the largest number (used for new numbers; build/manager.py:150-195) -/
def maxOf (l : List Nat) : Nat := l.foldr max 0

/-- the number of a new builder: used neither before nor by any registered builder (build/manager.py:150-195) -/
def freshB (st : St) : Nat := max st.nextB (maxOf (Dict.keys st.containers) + 1)

/-- the number of a new container (build/manager.py:271-290) -/
def freshC (st : St) : Nat := max st.nextC (maxOf (Dict.keys st.builders) + 1)

/-- build/manager.py:197-203 `prebuilt` -/
def prebuilt (st : St) (c b : Nat) : St :=
  { st with builders := Dict.set st.builders c b, containers := Dict.set st.containers b c }

/-- the events of a mapper or of a queued call, `go` being `manager.build` (build/manager.py:150-195, 221-242) -/
def runEvs (go : St → Nat → St × Except Err Nat) : St → List Ev → St × Except Err Unit
  | st, [] => (st, .ok ())
  | st, .child c :: evs => match go st c with
    | (st', .error e) => (st', .error e)
    | (st', .ok _) => runEvs go st' evs
  | st, .queue a :: evs => runEvs go { st with queue := st.queue ++ [a], queued := st.queued ++ [a] } evs
  | st, .need c :: evs => match Dict.get? st.builders c with
    | none => (st, .error .valueError)
    | some _ => runEvs go st evs
  | st, .fail e :: _ => (st, .error e)

/-- build/manager.py:150-192 `build` with `root=False`; the depth of recursion is bounded (RecursionError) -/
def build (env : Env) : Nat → St → Nat → St × Except Err Nat
  | 0, st, _ => (st, .error .runtimeError)
  | f + 1, st, c =>
    match Dict.get? st.builders c with
    | none =>
      match runEvs (build env f) { st with nextB := freshB st + 1, worked := st.worked ++ [c] } (env.events c) with
      | (st', .error e) => (st', .error e)
      | (st', .ok ()) =>
        let st' := prebuilt st' c (freshB st)
        ({ st' with active := freshB st :: st'.active }, .ok (freshB st))
    | some b =>
      if b ∉ st.active ∧ c ∈ st.modified then
        match runEvs (build env f) { st with worked := st.worked ++ [c] } (env.events c) with
        | (st', .error e) => (st', .error e)
        | (st', .ok ()) => (st', .ok b)
      else (st, .ok b)

/-- build/manager.py:221-235 `__add_refs`: the loop, bounded (it may not end if the calls keep queueing others) -/
def addRefs (env : Env) (f : Nat) : Nat → St → St × Except Err Unit
  | 0, st => (st, .error .runtimeError)
  | n + 1, st => match st.queue with
    | [] => (st, .ok ())
    | a :: q => match runEvs (build env f) { st with queue := q, ran := st.ran ++ [a] } (env.script a) with
      | (st', .error e) => (st', .error e)
      | (st', .ok ()) => addRefs env f n st'

/-- build/manager.py:150-192 `build` with `root=True` -/
def buildRoot (env : Env) (f n : Nat) (st : St) (c : Nat) : St × Except Err Nat :=
  match build env f { st with active := [] } c with
  | (st', .error e) => (st', .error e)
  | (st', .ok b) => match addRefs env f n st' with
    | (st'', .error e) => (st'', .error e)
    | (st'', .ok ()) => ({ st'' with active := [] }, .ok b)

/-- the builders constructed by the mapper before the container itself, `go` being `manager.construct`
(build/manager.py:271-290) -/
def runParts (go : St → Nat → St × Except Err Nat) : St → List Nat → St × Except Err Unit
  | st, [] => (st, .ok ())
  | st, b :: bs => match go st b with
    | (st', .error e) => (st', .error e)
    | (st', .ok _) => runParts go st' bs

/-- build/manager.py:271-290 `construct`, with bounded depth; parents and proxies are not modelled -/
def construct (env : Env) : Nat → St → Nat → St × Except Err Nat
  | 0, st, _ => (st, .error .runtimeError)
  | f + 1, st, b =>
    match Dict.get? st.containers b with
    | some c => ({ st with modified := st.modified.filter (· ≠ c) }, .ok c)
    | none =>
      match runParts (construct env f) st (env.parts b) with
      | (st', .error e) => (st', .error e)
      | (st', .ok ()) => match env.broken b with
        | some e => (st', .error e)
        | none =>
          let c := freshC st'
          let st'' := prebuilt { st' with nextC := c + 1 } c b
          ({ st'' with modified := st''.modified.filter (· ≠ c) }, .ok c)

/-- build/manager.py:244-255 `purge_outdated`: the loop over the copied values; `pop` raises KeyError, and so does the logging of a missing
builder (AttributeError) -/
def purgeLoop : St → List Nat → St × Except Err Unit
  | st, [] => (st, .ok ())
  | st, c :: cs =>
    if c ∈ st.modified then
      match Dict.get? st.builders c with
      | none => (st, .error .attributeError)
      | some b =>
        let st1 := { st with builders := Dict.del st.builders c }
        if Dict.has st1.containers b then purgeLoop { st1 with containers := Dict.del st1.containers b } cs
        else (st1, .error .keyError)
    else purgeLoop st cs

/-- build/manager.py:244-255 `purge_outdated` -/
def purge (st : St) : St × Except Err Unit := purgeLoop st (Dict.values st.containers)

/-- build/manager.py:257-259 `clear_cache` -/
def clear (st : St) : St := { st with builders := [], containers := [] }

/-- the calls; `touch`: `container.set_modified(flag)` (histories of the calls modelled from build/manager.py:150-290) -/
inductive Op
  | build (c : Nat) (root : Bool)
  | construct (b : Nat)
  | purge
  | clear
  | touch (c : Nat) (flag : Bool)
  | prebuilt (c b : Nat)

/-- one call: the state afterwards, whether or not it raised (histories of the calls modelled from build/manager.py:150-290) -/
def step (env : Env) (f n : Nat) (st : St) : Op → St
  | .build c false => (build env f st c).1
  | .build c true => (buildRoot env f n st c).1
  | .construct b => (construct env f st b).1
  | .purge => (purge st).1
  | .clear => clear st
  | .touch c flag => { st with modified := if flag then c :: st.modified else st.modified.filter (· ≠ c) }
  | .prebuilt c b => prebuilt st c b

/-- a history of calls on a new manager (histories of the calls modelled from build/manager.py:150-290) -/
def run (env : Env) (f n : Nat) (ops : List Op) : St := ops.foldl (step env f n) .empty

/-- build/manager.py:263-268 `get_builder` -/
def getBuilder (st : St) (c : Nat) : Option Nat := Dict.get? st.builders c

end Verif.Manager

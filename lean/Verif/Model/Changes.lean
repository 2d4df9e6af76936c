import Verif.Base.Py

/-!
# Model of changes to containers between reading and exporting

`Container.set_modified` and what calls it (container.py), `BuildManager.purge_outdated`, `clear_cache` and `build` (build/manager.py).  Containers form a
tree; what a container has besides its children is a value of any type.  Links and references are not modelled.
-/

namespace Verif.Changes
open Verif

/-- a builder: what the container has and the builders of its children (build/builders.py:167-200) -/
inductive B (F : Type) where
  | node (fields : F) (children : List (B F))

/-- a container: what it has besides its children, `modified`, the builder the manager has for it, the children (container.py:285-300, build/manager.py:196-204) -/
inductive T (F : Type) where
  | node (fields : F) (modified : Bool) (built : Option (B F)) (children : List (T F))

mutual

/-- reading: the containers for a builder; the manager keeps the builder, and `modified` is set to `False` (build/manager.py:271-290) -/
def ofBuilder {F : Type} : B F → T F
  | .node f cs => .node f false (some (.node f cs)) (ofBuilders cs)

/-- the same for many (build/manager.py:271-290) -/
def ofBuilders {F : Type} : List (B F) → List (T F)
  | [] => []
  | b :: bs => ofBuilder b :: ofBuilders bs

end

mutual

/-- `purge_outdated` and `build(export=True)`: a container that is not modified and has a builder is written with this one (build/manager.py:150-194, 244-255,
backends/io.py:160-163) -/
def «export» {F : Type} : T F → B F
  | .node f false (some b) _ => b
  | .node f _ _ cs => .node f (exports cs)

/-- the same for many (build/manager.py:150-194, 244-255) -/
def exports {F : Type} : List (T F) → List (B F)
  | [] => []
  | t :: ts => «export» t :: exports ts

end

mutual

/-- what the manager keeps after that (`prebuilt`); `modified` stays as it is (build/manager.py:150-204, 244-255) -/
def keep {F : Type} : T F → T F
  | .node f false (some b) cs => .node f false (some b) cs
  | .node f m _ cs => .node f m (some (.node f (exports cs))) (keeps cs)

/-- the same for many (build/manager.py:150-204, 244-255) -/
def keeps {F : Type} : List (T F) → List (T F)
  | [] => []
  | t :: ts => keep t :: keeps ts

end

mutual

/-- `clear_cache` (build/manager.py:257-259) -/
def clear {F : Type} : T F → T F
  | .node f m _ cs => .node f m none (clears cs)

/-- the same for many (build/manager.py:257-259) -/
def clears {F : Type} : List (T F) → List (T F)
  | [] => []
  | t :: ts => clear t :: clears ts

end

mutual

/-- `generate_new_id` of a container and its children (container.py:442-451); `g` gives the new id -/
def renew {F : Type} (g : F → F) : T F → T F
  | .node f _ b cs => .node (g f) true b (renews g cs)

/-- the same for many (container.py:449-451) -/
def renews {F : Type} (g : F → F) : List (T F) → List (T F)
  | [] => []
  | t :: ts => renew g t :: renews g ts

end

/-- the container a path leads to; a path gives the number of a child at each level (container.py:466-471) -/
def get {F : Type} : List Nat → T F → Option (T F)
  | [], t => some t
  | i :: p, .node _ _ _ cs => match cs[i]? with
    | none => none
    | some c => get p c

/-- change the container at the end of a path; `mark`: `set_modified` reaches the containers above (container.py:457-463) -/
def change {F : Type} (g : T F → T F) (mark : Bool) : List Nat → T F → T F
  | [], t => g t
  | i :: p, .node f m b cs => .node f (m || mark) b (cs.modify i (change g mark p))

/-- what is done to containers.  `setField`: an attribute that is not a child is set, a dataset is wrapped, or its data are changed, none of which marks
anything; the others do (container.py:75-92, 442-463, 510-548, 829-877, 918-960) -/
inductive Op (F : Type) where
  | setField (path : List Nat) (g : F → F)
  | mark (path : List Nat)
  | add (path : List Nat) (child : T F)
  | remove (path : List Nat) (i : Nat)
  | newId (path : List Nat) (g : F → F)
  | «export»
  | clear

/-- `setField`: the container itself (container.py:75-92, 876, 950) -/
def setFields {F : Type} (g : F → F) : T F → T F
  | .node f m b cs => .node (g f) m b cs

/-- `set_modified()` (container.py:457-463) -/
def setModified {F : Type} : T F → T F
  | .node f _ b cs => .node f true b cs

/-- the setter of `parent` (container.py:510-537) -/
def addChild {F : Type} (c : T F) : T F → T F
  | .node f _ b cs => .node f true b (cs ++ [c])

/-- `_remove_child` (container.py:539-549) -/
def removeChild {F : Type} (i : Nat) : T F → T F
  | .node f _ b cs => .node f true b (cs.eraseIdx i)

/-- one of them; a path that leads nowhere stands for nothing (container.py:75-92, 442-463, 510-549, build/manager.py:244-259) -/
def step {F : Type} (t : T F) : Op F → T F
  | .setField p g => if (get p t).isSome then change (setFields g) false p t else t
  | .mark p => if (get p t).isSome then change setModified true p t else t
  | .add p c => if (get p t).isSome then change (addChild c) true p t else t
  | .remove p i => if (get p t).isSome then change (removeChild i) true p t else t
  | .newId p g => if (get p t).isSome then change (renew g) true p t else t
  | .export => keep t
  | .clear => clear t

/-- many of them (container.py:75-549) -/
def run {F : Type} (t : T F) : List (Op F) → T F
  | [] => t
  | o :: os => run (step t o) os

end Verif.Changes

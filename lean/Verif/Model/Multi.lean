import Verif.Model.Tree
import Verif.Model.LabelledDict

/-!
# Model of `MultiContainerInterface` (container.py:1032-1338)

Containers with attributes that are `LabelledDict`s of other containers, on top of the model of the container tree
(`Verif.Model.Tree`) and of `LabelledDict` (`Verif.Model.LabelledDict`).  Attributes are numbered; every container has all
of them (one class); the declared types are the parameter `conf`.  Objects in the dictionaries have the one string attribute
`name`.  Not modelled: the checks of `__clsconf__` when the class is made (1256-1310), messages.
-/

namespace Verif.Multi
open Verif Verif.Tree Verif.LabelledDict

/-- the string `"name"`, the key attribute of the dictionaries (utils.py:1022, container.py:1236) -/
def nameAttr : Str := "name".toList

/-- All objects: the tree, the names (given at creation, without setter: container.py:303-311, 362-366), and the dictionaries in
`fields`, which are made on first use (container.py:1228-1238). -/
structure State where
  w : World
  name : Nat → Str
  dict : Nat → Nat → LD

/-- no objects yet (container.py:1228-1238) -/
def State.empty : State := ⟨World.empty, fun _ => [], fun _ _ => LabelledDict.init nameAttr⟩

/-- an object as the dictionaries see it (utils.py:1068-1096) -/
def State.obj (st : State) (x : Nat) : Obj := ⟨x, [(nameAttr, st.name x)]⟩

/-- a changed dictionary (container.py:1228-1238) -/
def State.setDict (st : State) (c a : Nat) (d : LD) : State :=
  { st with dict := fun c' a' => if c' = c ∧ a' = a then d else st.dict c' a' }

/-- a new container with its name (container.py:280-311) -/
def State.new (st : State) (isCont : Bool) (dtype : Nat) (eqClass : Option Nat) (name : Str) : State :=
  { st with
    w := st.w.new isCont dtype eqClass
    name := fun n => if n = st.w.size then name else st.name n }

/-- The body of the loop of `add` (container.py:1171-1184).  The message of the duplicate error evaluates `d[tmp.name]`, which
may itself raise for names with `==`. -/
def addOne (st : State) (c a x : Nat) : State × Except Err Unit :=
  match setField st.w c x with
  | (w', .error e) => ({ st with w := w' }, .error e)
  | (w', .ok _) =>
    let st1 := { st with w := w' }
    let d := st1.dict c a
    if d.items.has (st1.name x) then
      match getitem d (st1.name x) with
      | .error e => (st1, .error e)
      | .ok _ => (st1, .error .valueError)
    else match setitem d (st1.name x) (st1.obj x) with
      | (d', .error e) => (st1.setDict c a d', .error e)
      | (d', .ok _) => (st1.setDict c a d', .ok ())

/-- the loop of `add` (container.py:1171-1184) -/
def addLoop (st : State) (c a : Nat) : List Nat → State × Except Err Unit
  | [] => (st, .ok ())
  | x :: xs => match addOne st c a x with
    | (st', .error e) => (st', .error e)
    | (st', .ok _) => addLoop st' c a xs

/-- the argument of `add`: one object, or a list, tuple or dict of them, whose values count (container.py:1159-1169) -/
inductive Arg
  | one (x : Nat)
  | many (xs : List Nat)
  deriving DecidableEq, Repr

/-- the objects of an argument (container.py:1164-1169) -/
def Arg.objs : Arg → List Nat
  | .one x => [x]
  | .many xs => xs

/-- `add` (container.py:1159-1185): docval checks the type of a single object only. -/
def add (conf : Nat → Nat → Bool) (st : State) (c a : Nat) : Arg → State × Except Err Unit
  | .one x => if conf a (st.w.node x).dtype then addLoop st c a [x] else (st, .error .typeError)
  | .many xs => addLoop st c a xs

/-- `create` (container.py:1192-1197): a new object is made and added. -/
def create (conf : Nat → Nat → Bool) (st : State) (c a dtype : Nat) (eqClass : Option Nat) (name : Str) :
    State × Except Err Unit :=
  add conf (st.new true dtype eqClass name) c a (.one st.w.size)

/-- The setter of the attribute (container.py:1246-1251): `None` is ignored, a single object is refused by docval. -/
def assign (conf : Nat → Nat → Bool) (st : State) (c a : Nat) : Option Arg → State × Except Err Unit
  | none => (st, .ok ())
  | some (.one _) => (st, .error .typeError)
  | some (.many xs) => add conf st c a (.many xs)

/-- `get`, `__getitem__` (container.py:1098-1118, 1130-1151); `dict.get` is not overridden by `LabelledDict`. -/
def get (st : State) (c a : Nat) : Option Str → Except Err Nat
  | none => match Dict.values (st.dict c a).items with
    | [] => .error .valueError
    | [o] => .ok o.id
    | _ :: _ :: _ => .error .valueError
  | some n => match Dict.get? (st.dict c a).items n with
    | some o => .ok o.id
    | none => .error .keyError

/-- The callback given to the dictionary (container.py:1233-1235).  Called with a set of objects (utils.py:1125-1130 for a key
with `==`) it raises. -/
def onRemove (st : State) (c : Nat) : Event → State × Except Err Unit
  | .removed o =>
    if (st.w.node o.id).parent = .cont c then
      match removeChild st.w c o.id with
      | (w', r) => ({ st with w := w' }, r)
    else (st, .ok ())
  | .removedSet _ => (st, .error .attributeError)
  | .added _ => (st, .ok ())

/-- the callbacks of the events that a change of the dictionary has added to the log (utils.py:1098-1130) -/
def onEvents (st : State) (c : Nat) : List Event → State × Except Err Unit
  | [] => (st, .ok ())
  | e :: es => match onRemove st c e with
    | (st', .error e) => (st', .error e)
    | (st', .ok _) => onEvents st' c es

/-- `del c.attr[k]` (utils.py:1125-1130 with container.py:1233-1235) -/
def del (st : State) (c a : Nat) (k : Str) : State × Except Err Unit :=
  match LabelledDict.delitem { st.dict c a with log := [] } k with
  | (_, .error e) => (st, .error e)
  | (d', .ok _) => onEvents (st.setDict c a { d' with log := [] }) c d'.log

/-- `c.attr.pop(k)` (utils.py:1098-1103 with container.py:1233-1235) -/
def pop (st : State) (c a : Nat) (k : Str) : State × Except Err Unit :=
  match LabelledDict.pop { st.dict c a with log := [] } k with
  | (_, .error e) => (st, .error e)
  | (d', .ok _) => onEvents (st.setDict c a { d' with log := [] }) c d'.log

/-- `c.attr.popitem()` (utils.py:1105-1115 with container.py:1233-1235) -/
def popitem (st : State) (c a : Nat) : State × Except Err Unit :=
  match LabelledDict.popitem { st.dict c a with log := [] } with
  | (_, .error e) => (st, .error e)
  | (d', .ok _) => onEvents (st.setDict c a { d' with log := [] }) c d'.log

/-- `c.attr.clear()` (utils.py:1117-1123): `while len(self): self.popitem()`; `k` bounds the number of iterations -/
def clearLoop : Nat → State → Nat → Nat → State × Except Err Unit
  | 0, st, _, _ => (st, .ok ())
  | k + 1, st, c, a =>
    if (st.dict c a).items.length = 0 then (st, .ok ())
    else match popitem st c a with
      | (st', .error e) => (st', .error e)
      | (st', .ok _) => clearLoop k st' c a

/-- `c.attr.clear()` (utils.py:1117-1123) -/
def clear (st : State) (c a : Nat) : State × Except Err Unit := clearLoop (st.dict c a).items.length st c a

/-- public operations (histories of the calls modelled from container.py:280-560, 1032-1338) -/
inductive Op
  | new (isCont : Bool) (dtype : Nat) (eqClass : Option Nat) (name : Str)
  | setParent (x : Nat) (p : Par)
  | resetParent (x : Nat)
  | add (c a : Nat) (arg : Arg)
  | create (c a dtype : Nat) (eqClass : Option Nat) (name : Str)
  | assign (c a : Nat) (arg : Option Arg)
  | del (c a : Nat) (k : Str)
  | pop (c a : Nat) (k : Str)
  | popitem (c a : Nat)
  | clear (c a : Nat)
  deriving DecidableEq, Repr

/-- the objects an operation adds to a dictionary (histories of the calls modelled from container.py:1156-1251) -/
def Op.adds : Op → List Nat
  | .add _ _ arg => arg.objs
  | .assign _ _ (some arg) => arg.objs
  | _ => []

/-- the container whose dictionary an operation uses (histories of the calls modelled from container.py:1156-1251) -/
def Op.self : Op → Option Nat
  | .add c _ _ => some c
  | .create c _ _ _ _ => some c
  | .assign c _ _ => some c
  | .del c _ _ => some c
  | .pop c _ _ => some c
  | .popitem c _ => some c
  | .clear c _ => some c
  | _ => none

/-- the objects an operation mentions (histories of the calls modelled from container.py:280-560, 1032-1338) -/
def Op.args : Op → List Nat
  | .setParent x (.cont c) => [x, c]
  | .setParent x _ => [x]
  | .resetParent x => [x]
  | op => op.self.toList ++ op.adds

/-- One operation; operations on objects that do not exist, or on the dictionaries of something that is no container, are not
possible (histories of the calls modelled from container.py:280-560, 1032-1338). -/
def step (conf : Nat → Nat → Bool) (st : State) (op : Op) : State × Except Err Unit :=
  if op.args.any (fun n => decide (st.w.size ≤ n)) || op.self.any (fun c => !(st.w.node c).isCont) then
    (st, .error .unsupported)
  else match op with
    | .new i t e n => (st.new i t e n, .ok ())
    | .setParent x p => match Tree.setParent st.w x p with | (w', r) => ({ st with w := w' }, r)
    | .resetParent x => match Tree.resetParent st.w x with | (w', r) => ({ st with w := w' }, r)
    | .add c a arg => add conf st c a arg
    | .create c a t e n => create conf st c a t e n
    | .assign c a arg => assign conf st c a arg
    | .del c a k => del st c a k
    | .pop c a k => pop st c a k
    | .popitem c a => popitem st c a
    | .clear c a => clear st c a

/-- any history: errors are caught and the program goes on
(histories of the calls modelled from container.py:280-560, 1032-1338) -/
def run (conf : Nat → Nat → Bool) (st : State) : List Op → State
  | [] => st
  | op :: ops => run conf (step conf st op).1 ops

end Verif.Multi

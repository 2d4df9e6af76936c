import Verif.Base.Py

/-!
# Model of attributes that can be set once

Container fields (container.py:75-92, 577-623), `container_source` (495-499), `DatasetBuilder.data` and `.dtype`
(build/builders.py:343-395), `DataIO.data` (data_utils.py:1016-1049) and `Spec.parent`
(spec/spec.py:138-143).
-/

namespace Verif.Once
open Verif

/-! ## container fields -/

/-- an element of a value: an object without a `parent` attribute, or the container with a number and a name
(container.py:577-623) -/
inductive Elem
  | atom (x : Nat)
  | cont (id : Nat) (name : String)
  deriving DecidableEq, Repr

/-- a value assigned to a field: None, one object, the objects in a list, tuple or dict, or an object wrapped with a term set
(a stored value only, container.py:157) -/
inductive Val
  | none
  | one (e : Elem)
  | many (es : List Elem)
  | wrapped (v : Val)
  deriving DecidableEq, Repr

/-- container.py:61-72 one entry of `__fields__` -/
structure Conf where
  name : String
  settable : Bool := true
  requiredName : Option String := none
  child : Bool := false
  deriving DecidableEq, Repr

/-- a container (the number `self`), its fields and modified flag, and the parents of all containers.  Parents that are not a
`Container` are left out. (container.py:75-92, 577-623) -/
structure St where
  self : Nat := 0
  fields : Dict String Val := []
  modified : Bool := false
  parent : Nat → Option Nat := fun _ => .none

/-- container.py:83-91 the basic setter.  `wrap` is `_field_config` (105-158): it returns the value, possibly wrapped, or raises. -/
def baseSet (wrap : String → Val → Except Err Val) (c : Conf) (s : St) (v : Val) : St × Except Err Unit :=
  if v = .none then (s, .ok ())
  else if Dict.has s.fields c.name then (s, .error .attributeError)
  else match wrap c.name v with
    | .error e => (s, .error e)
    | .ok w => ({ s with fields := s.fields.set c.name w }, .ok ())

/-- container.py:588-600 the check of the name -/
def nameOk (r : String) : Val → Bool
  | .none => true
  | .one (.cont _ n) => n == r
  | _ => false

/-- the objects whose parent is set, container.py:606-612 -/
def Val.elems : Val → List Elem
  | .one e => [e]
  | .many es => es
  | _ => []

/-- container.py:613-619 the loop setting parents -/
def adopt (s : St) : List Elem → St × Except Err Unit
  | [] => (s, .ok ())
  | .atom _ :: _ => (s, .error .attributeError)
  | .cont i _ :: es =>
    match s.parent i with
    | some _ => adopt { s with modified := true } es
    | none => adopt { s with modified := true, parent := fun j => if j = i then some s.self else s.parent j } es

/-- container.py:577-600 the setter with the check for a required name.  If the field is not settable the basic setter is None:
the property has no setter at all (AttributeError), or calling None raises TypeError. -/
def namedSet (wrap : String → Val → Except Err Val) (c : Conf) (s : St) (v : Val) : St × Except Err Unit :=
  match c.requiredName with
  | some r =>
    if nameOk r v then (if c.settable then baseSet wrap c s v else (s, .error .typeError)) else (s, .error .valueError)
  | none => if c.settable then baseSet wrap c s v else (s, .error (if c.child then .typeError else .attributeError))

/-- container.py:577-623 the setter of a field: `container.name = v` -/
def fieldSet (wrap : String → Val → Except Err Val) (c : Conf) (s : St) (v : Val) : St × Except Err Unit :=
  match namedSet wrap c s v with
  | (s1, .error e) => (s1, .error e)
  | (s1, .ok _) => if c.child then adopt s1 v.elems else (s1, .ok ())

/-- container.py:171 the getter -/
def fieldGet (s : St) (name : String) : Val := (Dict.get? s.fields name).getD .none

/-- a history of assignments (the field, the value); errors are caught and the program goes on
(histories of the calls modelled from container.py:75-92, 577-623) -/
def runFields (wrap : String → Val → Except Err Val) (s : St) : List (Conf × Val) → St
  | [] => s
  | (c, v) :: l => runFields wrap (fieldSet wrap c s v).1 l

/-! ## single attributes: their values are opaque numbers -/

/-- container.py:495-499 the setter of `container_source`; `runtimeError` stands for a plain `Exception` -/
def setContainerSource (cur v : Option Nat) : Option Nat × Except Err Unit :=
  if cur.isSome then (cur, .error .runtimeError) else (v, .ok ())

/-- spec/spec.py:138-143 the setter of `Spec.parent` -/
def setSpecParent (cur v : Option Nat) : Option Nat × Except Err Unit :=
  if cur.isSome then (cur, .error .attributeError) else (v, .ok ())

/-- build/builders.py:343-362 the data (whether it is a builder, and which object) and dtype of a dataset builder -/
structure DBuilder where
  data : Option (Bool × Nat)
  dtype : Option String
  deriving DecidableEq, Repr

/-- build/builders.py:343-362 the constructor -/
def newDBuilder (data : Option (Bool × Nat)) (dtype : Option String) : DBuilder :=
  let dt := match data with
    | some (true, _) => if dtype = none then some "object" else dtype
    | _ => dtype
  ⟨data, dt⟩

/-- build/builders.py:369-373 the setter of `data` -/
def DBuilder.setData (b : DBuilder) (v : Option (Bool × Nat)) : DBuilder × Except Err Unit :=
  if b.data.isSome then (b, .error .attributeError) else ({ b with data := v }, .ok ())

/-- build/builders.py:391-395 the setter of `dtype` -/
def DBuilder.setDtype (b : DBuilder) (v : Option String) : DBuilder × Except Err Unit :=
  if b.dtype.isSome then (b, .error .attributeError) else ({ b with dtype := v }, .ok ())

/-- data_utils.py:1016-1030 a DataIO -/
structure DataIO where
  data : Option Nat
  dtype : Option Nat
  shape : Option Nat
  deriving DecidableEq, Repr

/-- data_utils.py:1016-1030 the constructor -/
def newDataIO (data dtype shape : Option Nat) : Except Err DataIO :=
  match data with
  | none => if (dtype = none) ≠ (shape = none) then .error .valueError else .ok ⟨none, dtype, shape⟩
  | some d => .ok ⟨some d, none, none⟩

/-- data_utils.py:1042-1049 the setter of `data` -/
def DataIO.setData (b : DataIO) (v : Option Nat) : DataIO × Except Err Unit :=
  if b.data.isSome then (b, .error .valueError)
  else if ¬(b.dtype = none ∧ b.shape = none) then (b, .error .valueError)
  else ({ b with data := v }, .ok ())

/-- a history of assignments to one attribute, errors caught
(histories of the calls modelled from container.py:495-499; build/builders.py:366-395; data_utils.py:1043-1049) -/
def runSets {σ β : Type} (set : σ → β → σ × Except Err Unit) (s : σ) : List β → σ
  | [] => s
  | v :: vs => runSets set (set s v).1 vs

end Verif.Once

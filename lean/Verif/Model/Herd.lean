import Verif.Base.Py

/-!
# Model of external resources (common/resources.py:162-1085) on its tables (container.py:1341-1560)

A table is the list of its rows; a `Row` object stands for its index (container.py:1526 stores `v.idx`).  What a container is
resolved to by the type map (common/resources.py:632-682) is part of the call: the object id, type and relative path, or an error.
-/

namespace Verif.Herd
open Verif

/-- a row of the objects table, common/resources.py:85-102 -/
structure Obj where
  file : Nat
  oid : String
  otype : String
  path : String
  field : String
  deriving DecidableEq, Repr

/-- the six tables, common/resources.py:162-200 -/
structure Herd where
  keys : List String := []
  files : List String := []
  entities : List (String × String) := []
  objects : List Obj := []
  objectKeys : List (Nat × Nat) := []       -- (objects_idx, keys_idx)
  entityKeys : List (Nat × Nat) := []       -- (entities_idx, keys_idx)
  deriving DecidableEq, Repr

/-- container.py:1530-1548 `Table.which`: the indices of the rows that satisfy the query -/
def which {α : Type} (p : α → Bool) (l : List α) : List Nat := (l.zipIdx.filter fun x => p x.1).map Prod.snd

/-- the `key` argument: omitted, a string, or a `Key` row (its index) (common/resources.py:540-600) -/
inductive KeyArg
  | none
  | str (s : String)
  | row (k : Nat)
  deriving DecidableEq, Repr

/-- a call of `add_ref`: the file's object id if given; the container and its parents with whether each is a `HERDManager`;
what container and attribute are resolved to (object id, type, relative path). (common/resources.py:540-600) -/
structure Call where
  file : Option String := none
  chain : List (String × Bool) := []
  target : Except Err (String × String × String)
  field : String := ""
  key : KeyArg := .none
  eid : String
  uri : Option String := none

/-- common/resources.py:401-421 `_get_file_from_container`; `ok none` when it returns None -/
def getFile : List (String × Bool) → Except Err (Option String)
  | [] => .error .attributeError
  | (id, true) :: _ => .ok (some id)
  | [(_, false)] => .error .valueError
  | (_, false) :: rest => .ok ((rest.find? (·.2)).map Prod.fst)

/-- common/resources.py:809-815 `get_entity` -/
def getEntity (h : Herd) (eid : String) : Option Nat := (which (fun r => r.1 == eid) h.entities).head?

/-- the result of `_check_object_field`: the row, or that there is none and the index of the file if known
(common/resources.py:350-399) -/
inductive ObjRef
  | row (o : Nat)
  | missing (file : Option Nat)
  deriving DecidableEq, Repr

/-- does a row of the objects table match (common/resources.py:376-392) -/
def Obj.is (r : Obj) (oid path field : String) : Bool := r.oid == oid && r.path == path && r.field == field

/-- common/resources.py:350-396 `_check_object_field` -/
def checkObject (h : Herd) (file oid path field : String) (create : Bool) : Except Err ObjRef :=
  let fs := which (· == file) h.files
  if 1 < fs.length then .error .valueError
  else match which (fun r => r.is oid path field) h.objects with
    | [o] => .ok (.row o)
    | [] => if create then .ok (.missing fs.head?) else .error .valueError
    | _ :: _ :: _ => .error .valueError

/-- common/resources.py:687-695: add the file and the object unless they are there -/
def ensureObject (h : Herd) (file oid otype path field : String) : ObjRef → Herd × Nat
  | .row o => (h, o)
  | .missing (some f) => ({ h with objects := h.objects ++ [⟨f, oid, otype, path, field⟩] }, h.objects.length)
  | .missing none =>
    ({ h with files := h.files ++ [file], objects := h.objects ++ [⟨h.files.length, oid, otype, path, field⟩] }, h.objects.length)

/-- common/resources.py:701-711: the key of that name used with the object (the last one), else a new one -/
def strKey (h : Herd) (o : Nat) (s : String) : Herd × Nat :=
  let matched := which (· == s) h.keys
  match (((h.objectKeys.filter fun r => r.1 == o).map Prod.snd).filter fun k => matched.contains k).getLast? with
  | some k => (h, k)
  | none => ({ h with keys := h.keys ++ [s] }, h.keys.length)

/-- common/resources.py:713-731: for a `Key` row, whether an object-key row is to be added -/
def rowNeedsLink (h : Herd) (o k : Nat) : Bool :=
  let rows := h.objectKeys.filter fun r => r.2 == k
  !rows.isEmpty && !(rows.any fun r => r.1 == o)

/-- common/resources.py:733-756: add the entity and the entity-key row unless they are there -/
def linkEntity (h : Herd) (ent : Option Nat) (eid : String) (uri : Option String) (k : Nat) : Herd :=
  match ent with
  | some e => if h.entityKeys.contains (e, k) then h else { h with entityKeys := h.entityKeys ++ [(e, k)] }
  | none => { h with
      entities := h.entities ++ [(eid, uri.getD "")]
      entityKeys := h.entityKeys ++ [(h.entities.length, k)] }

/-- common/resources.py:684-756 the second part of `add_ref`, after the checks -/
def populate (h : Herd) (file oid otype path : String) (c : Call) (ref : ObjRef) : Herd × Except Err Unit :=
  let r := ensureObject h file oid otype path c.field ref
  match c.key with
  | .none => (r.1, .error .typeError)                        -- docval of _add_key, 256
  | .str s =>
    let q := strKey r.1 r.2 s
    (linkEntity { q.1 with objectKeys := q.1.objectKeys ++ [(r.2, q.2)] } (getEntity h c.eid) c.eid c.uri q.2, .ok ())
  | .row k =>
    let h2 := if rowNeedsLink r.1 r.2 k then { r.1 with objectKeys := r.1.objectKeys ++ [(r.2, k)] } else r.1
    (linkEntity h2 (getEntity h c.eid) c.eid c.uri k, .ok ())

/-- common/resources.py:584-592: the file given, else the one found from the container -/
def fileOf (c : Call) : Except Err (Option String) :=
  match c.file with
  | some f => .ok (some f)
  | none => getFile c.chain

/-- common/resources.py:561-756 `add_ref` -/
def addRef (h : Herd) (c : Call) : Herd × Except Err Unit :=
  match fileOf c with
  | .error e => (h, .error e)
  | .ok file =>
    if getEntity h c.eid = none ∧ c.uri = none then (h, .error .valueError)
    else match c.target with
      | .error e => (h, .error e)
      | .ok (oid, otype, path) => match file with
        | none => (h, .error .typeError)                     -- docval of _check_object_field
        | some f => match checkObject h f oid path c.field true with
          | .error e => (h, .error e)
          | .ok ref => populate h f oid otype path c ref

/-- a history of calls, errors caught (histories of the calls modelled from common/resources.py:561-760) -/
def run (h : Herd) : List Call → Herd
  | [] => h
  | c :: cs => run (addRef h c).1 cs

/-- common/resources.py:770-806 `get_key` with a container (its file resolved): the index of the row; AttributeError if the object is
not in the table (a dict has no `idx`) -/
def getKey (h : Herd) (file oid path field name : String) : Except Err Nat :=
  match checkObject h file oid path field true with
  | .error e => .error e
  | .ok (.missing _) => .error .attributeError
  | .ok (.row o) =>
    match ((h.objectKeys.filter fun r => r.1 == o).map Prod.snd).find? fun k => (which (· == name) h.keys).contains k with
    | some k => .ok k
    | none => .error .valueError

/-- common/resources.py:770-806 `get_key` without a container -/
def getKeyAll (h : Herd) (name : String) : Except Err (List Nat) :=
  if which (· == name) h.keys = [] then .error .valueError else .ok (which (· == name) h.keys)

/-- `l[i]` for each index, IndexError if there is none (common/resources.py:901-965) -/
def pick {α : Type} (l : List α) : List Nat → Except Err (List α)
  | [] => .ok []
  | i :: is => match l[i]? with
    | none => .error .indexError
    | some x => match pick l is with
      | .error e => .error e
      | .ok xs => .ok (x :: xs)

/-- common/resources.py:859-896 `get_object_entities` for a resolved container -/
def getObjectEntities (h : Herd) (file oid path field : String) : Except Err (List (String × String)) :=
  match checkObject h file oid path field false with
  | .error e => .error e
  | .ok (.missing _) => .error .unsupported                  -- not possible with create=False
  | .ok (.row o) =>
    let ks := (h.objectKeys.filter fun r => r.1 == o).map Prod.snd
    pick h.entities (ks.flatMap fun k => (h.entityKeys.filter fun r => r.2 == k).map Prod.fst)

/-- a row of the flat table, common/resources.py:950-956 -/
structure FlatRow where
  file : String
  objIdx : Nat
  obj : Obj
  keyIdx : Nat
  key : String
  entIdx : Nat
  entity : String × String
  deriving DecidableEq, Repr

/-- common/resources.py:901-969: one row of the flat table -/
def flatRow (h : Herd) (ok ek : Nat × Nat) : Except Err FlatRow :=
  match h.objects[ok.1]?, h.keys[ek.2]?, h.entities[ek.1]? with
  | some ob, some k, some en => match h.files[ob.file]? with
    | some f => .ok ⟨f, ok.1, ob, ek.2, k, ek.1, en⟩
    | none => .error .indexError
  | _, _, _ => .error .indexError

/-- all rows, or the first error (common/resources.py:901-965) -/
def flatRows (h : Herd) : List ((Nat × Nat) × (Nat × Nat)) → Except Err (List FlatRow)
  | [] => .ok []
  | p :: ps => match flatRow h p.1 p.2 with
    | .error e => .error e
    | .ok r => match flatRows h ps with
      | .error e => .error e
      | .ok rs => .ok (r :: rs)

/-- common/resources.py:901-969 `to_dataframe`: for every object-key row, in order, every entity-key row with that key; pandas raises
ValueError when there is nothing to concatenate -/
def toDataframe (h : Herd) : Except Err (List FlatRow) :=
  if h.objectKeys = [] then .error .valueError
  else flatRows h (h.objectKeys.flatMap fun ok => (h.entityKeys.filter fun ek => ek.2 == ok.2).map fun ek => (ok, ek))

/-- the tables read back by `from_zip`: indices are any integers (common/resources.py:1003-1085) -/
structure Tables where
  nKeys : Nat
  nFiles : Nat
  nEntities : Nat
  objFiles : List Int
  objectKeys : List (Int × Int)
  entityKeys : List (Int × Int)

/-- common/resources.py:1045-1076: the checks of `from_zip` -/
def fromZipOk (t : Tables) : Bool :=
  t.entityKeys.all (fun r => decide (r.1 < t.nEntities)) && t.objFiles.all (fun f => decide (f < t.nFiles)) &&
    t.objectKeys.all (fun r => decide (r.1 < t.objFiles.length)) && t.objectKeys.all (fun r => decide (r.2 < t.nKeys)) &&
    t.entityKeys.all (fun r => decide (r.2 < t.nKeys))

end Verif.Herd

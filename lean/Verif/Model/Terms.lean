import Verif.Base.Py

/-!
# Model of term sets, wrapped values and type configuration (term_set.py)
-/

namespace Verif.Terms
open Verif

/-- the `meaning` of a permissible value of the schema: absent, without a colon, or `prefix:id` (split at the first colon)
(term_set.py:96-116) -/
inductive Meaning
  | absent
  | plain
  | curie (prefix_ id : String)
  deriving DecidableEq

/-- a term set: the permissible values of the first enumeration of the schema and the declared prefixes (term_set.py:22-58) -/
structure TermSet where
  terms : Dict String Meaning
  prefixes : List String

/-- term_set.py:96-116 `__perm_value_key_info`: KeyError for an unknown term or prefix, AttributeError without a meaning
(`None.split`), IndexError without a colon -/
def info (ts : TermSet) (s : String) : Except Err Unit :=
  match Dict.get? ts.terms s with
  | none => .error .keyError
  | some .absent => .error .attributeError
  | some .plain => .error .indexError
  | some (.curie p _) => if ts.prefixes.contains p then .ok () else .error .keyError

/-- term_set.py:144-157 `__getitem__`: KeyError becomes ValueError -/
def getItem (ts : TermSet) (s : String) : Except Err Unit :=
  match info ts s with
  | .error .keyError => .error .valueError
  | r => r

/-- an element of a value: a string, or anything else (term_set.py:118-128, 228-247) -/
inductive Elem
  | str (s : String)
  | other
  deriving DecidableEq

/-- term_set.py:118-127 `validate`: docval requires a string; only ValueError is caught -/
def validate (ts : TermSet) : Elem → Except Err Bool
  | .other => .error .typeError
  | .str s => match getItem ts s with
    | .ok () => .ok true
    | .error .valueError => .ok false
    | .error e => .error e

/-- term_set.py:278-291 `__multi_validation` (and 237-241): the number of bad values -/
def badValues (ts : TermSet) : List Elem → Except Err Nat
  | [] => .ok 0
  | e :: es => match validate ts e with
    | .error x => .error x
    | .ok b => match badValues ts es with
      | .error x => .error x
      | .ok n => .ok (if b then n else n + 1)

/-- the wrapped value.  `array`: a one-dimensional array of strings; `array2`: a two-dimensional one; `comp`: a one-dimensional
structured array, each row with the wrapped field and the rest (`Nat`); `comp2`: a two-dimensional one.  Other kinds of
value (dicts, datasets, `DataIO`) are not modelled. (term_set.py:222-247) -/
inductive Value
  | list (l : List Elem)
  | tuple (l : List Elem)
  | scalar (e : Elem)
  | array (l : List Elem)
  | array2 (rows : List (List Elem))
  | comp (rows : List (Elem × Nat))
  | comp2 (rows : List (List (Elem × Nat)))
  deriving DecidableEq

/-- the elements subject to validation (term_set.py:228-247) -/
def Value.elems : Value → List Elem
  | .list l => l
  | .tuple l => l
  | .scalar e => [e]
  | .array l => l
  | .array2 rows => rows.flatten
  | .comp rows => rows.map Prod.fst
  | .comp2 rows => rows.flatten.map Prod.fst

/-- term_set.py:219-244 `TermSetWrapper.__init__` and `__validate`.  The rows of a two-dimensional array are not strings. -/
def init (ts : TermSet) (v : Value) : Except Err Value :=
  match v with
  | .array2 (_ :: _) => .error .typeError
  | .comp2 (_ :: _) => .error .typeError
  | v => match badValues ts v.elems with
    | .error e => .error e
    | .ok 0 => .ok v
    | .ok (_ + 1) => .error .valueError

/-- an argument of `append` or `extend`: one element; a collection which can be iterated repeatedly (list, tuple); an array;
a one-shot iterator; a structured array (term_set.py:300-340) -/
inductive Arg
  | elem (e : Elem)
  | coll (l : List Elem)
  | array (l : List Elem)
  | iter (l : List Elem)
  | comp (rows : List (Elem × Nat))

/-- data_utils.py:20-44 `append_data` on the modelled values, after the argument has been found valid -/
def appendData (v : Value) (arg : Arg) : Except Err Value :=
  match v, arg with
  | .list l, .elem e => .ok (.list (l ++ [e]))
  | .list l, _ => .ok (.list (l ++ [.other]))
  | .array l, .elem e => .ok (.array (l ++ [e]))
  | .comp rows, .comp r => .ok (.comp (rows ++ r))
  | .comp _, .elem _ => .error .typeError
  | _, _ => .error .valueError

/-- the field of a value or argument is given iff it is compound (term_set.py:222-247) -/
def Value.hasField : Value → Bool
  | .comp _ => true
  | .comp2 _ => true
  | _ => false

/-- term_set.py:293-314 `append`: an array argument is refused without a field; anything else is one element -/
def append (ts : TermSet) (v : Value) (arg : Arg) : Except Err Value :=
  let values : Except Err (List Elem) := match arg with
    | .elem e => .ok [e]
    | .comp rows => if v.hasField then .ok (rows.map Prod.fst) else .error .valueError
    | .array _ => if v.hasField then .error .indexError else .error .valueError
    | .coll _ => .ok [.other]
    | .iter _ => .ok [.other]
  match values with
  | .error e => .error e
  | .ok values => match badValues ts values with
    | .error e => .error e
    | .ok (_ + 1) => .error .valueError
    | .ok 0 => appendData v arg

/-- data_utils.py:47-69 `extend_data` on the modelled values.  A one-shot iterator has been used up by the validation, so nothing is left to
add.  `numpy.vstack` makes rows of one-dimensional arrays, which must have the same length. -/
def extendData (v : Value) (arg : Arg) : Except Err Value :=
  match v, arg with
  | .list l, .coll m => .ok (.list (l ++ m))
  | .list l, .array m => .ok (.list (l ++ m))
  | .list l, .iter _ => .ok (.list l)
  | .list _, .elem _ => .error .typeError
  | .list l, .comp r => .ok (.list (l ++ r.map fun _ => .other))
  | .array l, .coll m => if l.length = m.length then .ok (.array2 [l, m]) else .error .valueError
  | .array l, .array m => if l.length = m.length then .ok (.array2 [l, m]) else .error .valueError
  | .array2 rows, .coll m => if rows.all (fun r => r.length == m.length) then .ok (.array2 (rows ++ [m])) else .error .valueError
  | .array2 rows, .array m => if rows.all (fun r => r.length == m.length) then .ok (.array2 (rows ++ [m])) else .error .valueError
  | .comp rows, .comp r => if rows.length = r.length then .ok (.comp2 [rows, r]) else .error .valueError
  | .comp2 rows, .comp r => if rows.all (fun x => x.length == r.length) then .ok (.comp2 (rows ++ [r])) else .error .valueError
  | _, _ => .error .valueError

/-- term_set.py:316-341 `extend`.  A single string is iterated by character; here it is refused (its characters are not modelled).
The rows of a structured array are not strings unless the wrapper has a field. -/
def extend (ts : TermSet) (v : Value) (arg : Arg) : Except Err Value :=
  let values : Except Err (List Elem) := match arg with
    | .elem _ => .error .typeError
    | .coll m => .ok m
    | .array m => if v.hasField then .error .indexError else .ok m
    | .iter m => .ok m
    | .comp rows => if v.hasField then .ok (rows.map Prod.fst) else .ok (rows.map fun _ => .other)
  match values with
  | .error e => .error e
  | .ok values => match badValues ts values with
    | .error e => .error e
    | .ok (_ + 1) => .error .valueError
    | .ok 0 => extendData v arg

/-- a call on the wrapper.  `insert` is reached through `__getattr__` (term_set.py:258-263), which hands over the method of the list. -/
inductive Op
  | append (a : Arg)
  | extend (a : Arg)

/-- one call: the value afterwards, whether or not it raised (both methods assign the value as the last step, and the methods of
`list` and numpy functions used do not change their target when they raise)
(histories of the calls modelled from term_set.py:300-340) -/
def step (ts : TermSet) (v : Value) (op : Op) : Value :=
  match (match op with | .append a => append ts v a | .extend a => extend ts v a) with
  | .ok v' => v'
  | .error _ => v

/-- a history of calls (histories of the calls modelled from term_set.py:300-340) -/
def run (ts : TermSet) (v : Value) (ops : List Op) : Value := ops.foldl (step ts) v

/-- term_set.py:258-263 `__getattr__`: `wrapper.insert(0, e)` for a wrapped list -/
def insertFirst (v : Value) (e : Elem) : Except Err Value :=
  match v with
  | .list l => .ok (.list (e :: l))
  | _ => .error .attributeError

/-! ## Type configuration (term_set.py:343-417) -/

variable {Cfg : Type}

/-- the content of a file: for each namespace the configuration of its data types (`none`: the key `data_types` is missing);
`none`: the key `namespaces` is missing (term_set.py:380-410) -/
abbrev File (Cfg : Type) := Option (Dict String (Option (Dict String Cfg)))

/-- the configurator (term_set.py:343-360) -/
structure Conf (Cfg : Type) where
  config : Option (File Cfg)
  path : List String

/-- term_set.py:398-405: the data types of one namespace -/
def mergeTypes (old new : Dict String Cfg) : Dict String Cfg := new.foldl (fun d p => Dict.set d p.1 p.2) old

/-- term_set.py:393-405: the loop over the namespaces, with the state left behind when it raises -/
def mergeNs (old : Dict String (Option (Dict String Cfg))) :
    Dict String (Option (Dict String Cfg)) → Dict String (Option (Dict String Cfg)) × Except Err Unit
  | [] => (old, .ok ())
  | (ns, new) :: rest =>
    match Dict.get? old ns with
    | none => mergeNs (Dict.set old ns new) rest
    | some o => match new, o with
      | none, _ => (old, .error .keyError)
      | some [], none => mergeNs old rest
      | some (_ :: _), none => (old, .error .keyError)
      | some n, some o => mergeNs (Dict.set old ns (some (mergeTypes o n))) rest

/-- term_set.py:380-410 `load_type_config`: `file` is the content read from the path -/
def load (c : Conf Cfg) (p : String) (file : File Cfg) : Conf Cfg × Except Err Unit :=
  match c.config with
  | none => ({ config := some file, path := if c.path.length = 0 then c.path ++ [p] else c.path }, .ok ())
  | some cur =>
    if c.path.contains p then (c, .error .valueError)
    else match file, cur with
      | none, _ => (c, .error .keyError)
      | some [], none => ({ c with path := c.path ++ [p] }, .ok ())
      | some (_ :: _), none => (c, .error .keyError)
      | some new, some old => match mergeNs old new with
        | (m, .ok ()) => ({ config := some (some m), path := c.path ++ [p] }, .ok ())
        | (m, .error e) => ({ c with config := some (some m) }, .error e)

/-- term_set.py:412-417 `unload_type_config` -/
def unload (_ : Conf Cfg) : Conf Cfg := ⟨none, []⟩

/-- term_set.py:361-378 `get_config`: `None['namespaces']` is a TypeError -/
def getConfig (c : Conf Cfg) (dt ns : String) : Except Err Cfg :=
  match c.config with
  | none => .error .typeError
  | some none => .error .valueError
  | some (some d) => match Dict.get? d ns with
    | none => .error .valueError
    | some none => .error .valueError
    | some (some t) => match Dict.get? t dt with
      | none => .error .valueError
      | some x => .ok x

/-- a call on the configurator (histories of the calls modelled from term_set.py:362-420) -/
inductive COp
  | load (p : String)
  | unload

/-- one call, the files being given (histories of the calls modelled from term_set.py:362-420) -/
def cstep (fs : String → File Cfg) (c : Conf Cfg) : COp → Conf Cfg
  | .load p => (load c p (fs p)).1
  | .unload => unload c

/-- a history from `TypeConfigurator()` (term_set.py:349-357) -/
def crun (fs : String → File Cfg) (ops : List COp) : Conf Cfg := ops.foldl (cstep fs) ⟨none, []⟩

end Verif.Terms

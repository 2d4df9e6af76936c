import Verif.Base.Py

/-!
# Model of builders (build/builders.py:14-318)

Builders are numbered in order of creation (their identity).  A name or key is represented by its parts between slashes
(`key.split('/')`), so a name without a slash is a one-element list.  Attribute values, the data of a dataset and the target
of a link are opaque numbers, equal iff Python's `==` says so.  Unbounded recursion (a group inside itself) shows up as
`runtimeError` (RecursionError).
-/

namespace Verif.Builders
open Verif

/-- a name or path, split at slashes (build/builders.py:262-291) -/
abbrev Key := List String

/-- the categories of a group: the four sub-dictionaries (build/builders.py:122-129) -/
inductive Kind
  | group | dataset | link | attr
  deriving DecidableEq, Repr

/-- build/builders.py:14-32, 117-165, 330-364: a builder.  For `dataset` and `link` builders the dictionaries of sub-builders are
empty; `content` stands for the data or the link target. -/
structure Node where
  name : Key := []
  kind : Kind := .group
  parent : Option Nat := none
  source : Option String := none
  objType : Dict Key Kind := []
  attrs : Dict Key Nat := []
  groups : Dict Key Nat := []
  datasets : Dict Key Nat := []
  links : Dict Key Nat := []
  content : Nat := 0
  deriving DecidableEq, Repr

/-- all builders: those numbered below `size` exist (build/builders.py:14-318) -/
structure Heap where
  size : Nat
  node : Nat → Node

/-- no builders yet (build/builders.py:14-318) -/
def Heap.empty : Heap := ⟨0, fun _ => {}⟩

/-- assignment to attributes of builder `n` (build/builders.py:14-318) -/
def Heap.upd (h : Heap) (n : Nat) (f : Node → Node) : Heap :=
  { h with node := fun m => if m = n then f (h.node n) else h.node m }

/-- sub-dictionary of a category of sub-builders (build/builders.py:191-204) -/
def Node.sub (b : Node) : Kind → Dict Key Nat
  | .group => b.groups
  | .dataset => b.datasets
  | .link => b.links
  | .attr => []

/-- `sub[name] = builder` (build/builders.py:240-251) -/
def Node.setSub (b : Node) (k : Kind) (name : Key) (c : Nat) : Node :=
  match k with
  | .group => { b with groups := b.groups.set name c }
  | .dataset => { b with datasets := b.datasets.set name c }
  | .link => { b with links := b.links.set name c }
  | .attr => b

/-- build/builders.py:31-42 the constructor, without sub-builders (these are added by the setters below).  The source is the one
given, else the parent's. -/
def Heap.new (h : Heap) (name : Key) (kind : Kind) (parent : Option Nat) (source : Option String) (content : Nat) : Heap :=
  let src := match source, parent with
    | some s, _ => some s
    | none, some p => (h.node p).source
    | none, none => none
  { size := h.size + 1
    node := fun m => if m = h.size then { name, kind, parent, source := src, content } else h.node m }

/-- the loops of build/builders.py:181-189: `for c in ...: if c.source is None: c.source = s` -/
def propagate (f : Heap → Nat → Heap × Except Err Unit) : Heap → List Nat → Heap × Except Err Unit
  | h, [] => (h, .ok ())
  | h, c :: cs =>
    if (h.node c).source = none then
      match f h c with
      | (h1, .error e) => (h1, .error e)
      | (h1, .ok _) => propagate f h1 cs
    else propagate f h cs

/-- build/builders.py:57-61 the `source` setter and 177-189 its override for groups; `fuel` bounds the recursion -/
def setSource : Nat → Heap → Nat → Option String → Heap × Except Err Unit
  | 0, h, _, _ => (h, .error .runtimeError)
  | k + 1, h, n, s =>
    if (h.node n).source.isSome then (h, .error .attributeError)
    else
      let h1 := h.upd n fun b => { b with source := s }
      let b := h.node n
      propagate (fun h c => setSource k h c s) h1 (b.groups.values ++ b.datasets.values ++ b.links.values)

/-- build/builders.py:68-74 the `parent` setter (with a builder) -/
def setParent (h : Heap) (n p : Nat) : Heap × Except Err Unit :=
  if (h.node n).parent.isSome then (h, .error .attributeError)
  else
    let h1 := h.upd n fun b => { b with parent := some p }
    if (h.node n).source = none then setSource h.size h1 n (h.node p).source
    else (h1, .ok ())

/-- `d1 == d2` for dictionaries, given equality of values (build/builders.py:14, `Builder` is a dict) -/
def dictEq {α : Type} (eq : α → α → Bool) (d1 d2 : Dict Key α) : Bool :=
  d1.length == d2.length && d1.all fun p => match Dict.get? d2 p.1 with
    | some v => eq p.2 v
    | none => false

/-- `a == b` for builders: they are dicts, compared by content; `fuel` bounds the recursion (false when it runs out)
(build/builders.py:14, `Builder` is a dict; used by `!=` in 65-70) -/
def eqB : Nat → Heap → Nat → Nat → Bool
  | 0, _, a, b => a == b
  | k + 1, h, a, b => a == b ||
    ((h.node a).kind == (h.node b).kind && (h.node a).content == (h.node b).content &&
      dictEq (· == ·) (h.node a).attrs (h.node b).attrs && dictEq (eqB k h) (h.node a).groups (h.node b).groups &&
      dictEq (eqB k h) (h.node a).datasets (h.node b).datasets && dictEq (eqB k h) (h.node a).links (h.node b).links)

/-- the loop of `posixpath.normpath` over the parts; `new` in reverse (build/builders.py:262-280 call it) -/
def normLoop (abs : Bool) : Key → Key → Key
  | [], new => new.reverse
  | c :: cs, new =>
    if c = "" ∨ c = "." then normLoop abs cs new
    else if c ≠ ".." ∨ (abs = false ∧ new = []) ∨ new.head? = some ".." then normLoop abs cs (c :: new)
    else normLoop abs cs new.tail

/-- number of leading slashes `posixpath.normpath` keeps: 2 for exactly two, else 1 if there are any
(build/builders.py:262-280 call it) -/
def initialSlashes : Key → Nat
  | "" :: "" :: rest => if rest = [] ∨ (rest.head? = some "" ∧ rest.length ≥ 2) then 1 else 2
  | "" :: _ :: _ => 1
  | _ => 0

/-- `posixpath.normpath(key).split('/')` (build/builders.py:262-280) -/
def normpath (key : Key) : Key :=
  if key = [""] then ["."]
  else if initialSlashes key = 0 then
    (if normLoop false key [] = [] then ["."] else normLoop false key [])
  else List.replicate (initialSlashes key) "" ++ (if normLoop true key [] = [] then [""] else normLoop true key [])

/-- what lookup returns: an attribute value or a builder (build/builders.py:262-291) -/
inductive Item
  | attr (v : Nat)
  | builder (n : Nat)
  deriving DecidableEq, Repr

/-- build/builders.py:282-291 `__get_rec` -/
def getRec (h : Heap) : Nat → Key → Except Err Item
  | _, [] => .error .keyError
  | n, [a] =>
    match Dict.get? (h.node n).objType [a] with
    | none => .error .keyError
    | some .attr => match Dict.get? (h.node n).attrs [a] with
      | some v => .ok (.attr v)
      | none => .error .keyError
    | some k => match Dict.get? ((h.node n).sub k) [a] with
      | some c => .ok (.builder c)
      | none => .error .keyError
  | n, a :: b :: rest =>
    match Dict.get? (h.node n).groups [a] with
    | some c => getRec h c (b :: rest)
    | none => .error .keyError

/-- build/builders.py:262-270 `group[key]` -/
def getItem (h : Heap) (n : Nat) (key : Key) : Except Err Item := getRec h n (normpath key)

/-- build/builders.py:213-217 `__check_obj_type` -/
def objTypeOk (b : Node) (name : Key) (k : Kind) : Bool :=
  match Dict.get? b.objType name with
  | some k' => k' == k
  | none => true

/-- build/builders.py:206-211 `set_attribute` of a group -/
def setAttribute (h : Heap) (n : Nat) (name : Key) (v : Nat) : Heap × Except Err Unit :=
  if objTypeOk (h.node n) name .attr then
    (h.upd n fun b => { b with attrs := b.attrs.set name v, objType := b.objType.set name .attr }, .ok ())
  else (h, .error .valueError)

/-- build/builders.py:246 `self.get(name) == builder` -/
def alreadyThere (h : Heap) (n c : Nat) : Bool :=
  match getItem h n (h.node c).name with
  | .ok (.builder c') => eqB h.size h c' c
  | _ => false

/-- build/builders.py:240-251 `__set_builder`, called by `set_group`, `set_dataset` and `set_link` (219-238), whose argument has
the class of that category -/
def setBuilder (h : Heap) (n c : Nat) : Heap × Except Err Unit :=
  let name := (h.node c).name
  let k := (h.node c).kind
  if objTypeOk (h.node n) name k then
    if alreadyThere h n c then (h, .ok ())
    else
      let h1 := h.upd n fun b => { b.setSub k name c with objType := b.objType.set name k }
      if (h1.node c).parent = none then setParent h1 c n else (h1, .ok ())
  else (h, .error .valueError)

/-- public operations (histories of the calls modelled from build/builders.py:14-318) -/
inductive Op
  | new (name : Key) (kind : Kind) (parent : Option Nat) (source : Option String) (content : Nat)
  | setAttribute (n : Nat) (name : Key) (v : Nat)
  | setBuilder (n c : Nat)
  | setSource (n : Nat) (s : Option String)
  | setParent (n p : Nat)
  deriving DecidableEq, Repr

/-- the builders an operation mentions (histories of the calls modelled from build/builders.py:14-318) -/
def Op.args : Op → List Nat
  | .new _ _ p _ _ => p.toList
  | .setAttribute n _ _ => [n]
  | .setBuilder n c => [n, c]
  | .setSource n _ => [n]
  | .setParent n p => [n, p]

/-- one operation.  Not possible: operations on builders that do not exist or are not of the class needed.
(histories of the calls modelled from build/builders.py:14-318) -/
def step (h : Heap) (op : Op) : Heap × Except Err Unit :=
  if op.args.any (fun n => decide (h.size ≤ n)) then (h, .error .unsupported)
  else match op with
    | .new name kind parent source content =>
      if kind = .attr then (h, .error .unsupported) else (h.new name kind parent source content, .ok ())
    | .setAttribute n name v => if (h.node n).kind = .group then setAttribute h n name v else (h, .error .unsupported)
    | .setBuilder n c =>
      if (h.node n).kind = .group ∧ (h.node c).kind ≠ .attr then setBuilder h n c else (h, .error .unsupported)
    | .setSource n s => setSource h.size h n s
    | .setParent n p => setParent h n p

/-- any history: errors are caught and the program goes on (histories of the calls modelled from build/builders.py:14-318) -/
def run (h : Heap) : List Op → Heap
  | [] => h
  | op :: ops => run (step h op).1 ops

end Verif.Builders

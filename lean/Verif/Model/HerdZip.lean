import Verif.Model.Herd

/-!
# External resources in zip files, and references from term sets

Model of `HERD.to_zip`, `get_zip_directory`, `from_zip` (common/resources.py:971-1085), `assert_external_resources_equal`
(202-253), `add_ref_container` (425-477) and `get_object_type` (828-846), on top of `Verif.Herd`.

Simplifications.
* A file system is a function from absolute paths, lists of names, to files; directories exist wherever they are needed, and
  there are no symbolic links.  A path given by the user is absolute or relative to the current directory and contains neither
  `.` nor `..`.
* Writing text to a tsv file and splitting it into cells when it is read is taken as faithful (pandas quotes what needs quoting);
  what is modelled is how pandas guesses the types of the columns that it reads.  Spaces around numbers, infinities, and integers
  beyond 64 bits are not modelled.
-/

namespace Verif.HerdZip
open Verif Verif.Herd

/-- a path: the names on the way from the root (common/resources.py:977-984, 998-1013) -/
abbrev Path := List String

/-- a column of a tsv file: integers, or text (common/resources.py:981-982) -/
inductive Col
  | ints (l : List Nat)
  | text (l : List String)
  deriving DecidableEq

/-- what a tsv file holds: its columns (common/resources.py:981-982) -/
abbrev Tsv := List Col

/-- files: a tsv file, a zip file with its members, anything else (common/resources.py:977-992) -/
inductive File
  | tsv (t : Tsv)
  | zip (members : List (Path × Tsv))
  | other (content : String)
  deriving DecidableEq

/-- a file system (common/resources.py:977-1013) -/
abbrev FS := Path → Option File

/-- writing a file (common/resources.py:982-986) -/
def FS.set (fs : FS) (p : Path) (f : File) : FS := fun q => if q = p then some f else fs q

/-- `os.remove` (common/resources.py:990-991) -/
def FS.remove (fs : FS) (p : Path) : FS := fun q => if q = p then none else fs q

/-- the path given to `to_zip` and `from_zip`: absolute or not, the directory and the name (common/resources.py:971-978) -/
structure Arg where
  abs : Bool
  dir : Path
  base : String
  deriving DecidableEq

/-- the directory of the zip file (common/resources.py:977, 994-999) -/
def directory (cwd : Path) (a : Arg) : Path := if a.abs then a.dir else cwd ++ a.dir

/-- the tables and the files that they are written to: `child.name + '.tsv'` (common/resources.py:979-982) -/
def sheets (h : Herd) : List (String × Tsv) :=
  [("keys.tsv", [.text h.keys]),
   ("files.tsv", [.text h.files]),
   ("objects.tsv", [.ints (h.objects.map (·.file)), .text (h.objects.map (·.oid)), .text (h.objects.map (·.otype)),
     .text (h.objects.map (·.path)), .text (h.objects.map (·.field))]),
   ("object_keys.tsv", [.ints (h.objectKeys.map (·.1)), .ints (h.objectKeys.map (·.2))]),
   ("entity_keys.tsv", [.ints (h.entityKeys.map (·.1)), .ints (h.entityKeys.map (·.2))]),
   ("entities.tsv", [.text (h.entities.map (·.1)), .text (h.entities.map (·.2))])]

/-- the names of the tables (common/resources.py:1015-1043) -/
def tableFiles : List String :=
  ["keys.tsv", "files.tsv", "objects.tsv", "object_keys.tsv", "entity_keys.tsv", "entities.tsv"]

/-- `to_zip` (common/resources.py:971-992).  The members of the zip file are named by the paths of the files, without a leading
slash. -/
def toZip (cwd : Path) (a : Arg) (h : Herd) (fs : FS) : FS :=
  let d := directory cwd a
  let fs1 := (sheets h).foldl (fun fs s => fs.set (d ++ [s.1]) (.tsv s.2)) fs
  let fs2 := fs1.set (d ++ [a.base]) (.zip ((sheets h).map fun s => (a.dir ++ [s.1], s.2)))
  (sheets h).foldl (fun fs s => fs.remove (d ++ [s.1])) fs2

/-! ## Reading columns -/

/-- the values of a table that was read (common/resources.py:1018-1043) -/
inductive Cell
  | str (s : String)
  | int (i : Int)
  /-- a float, given by the text it was read from -/
  | float (text : String)
  | bool (b : Bool)
  deriving DecidableEq

/-- what pandas takes for a missing value (common/resources.py:1018, `pd.read_csv`) -/
def naValues : List String :=
  ["", "#N/A", "#N/A N/A", "#NA", "-1.#IND", "-1.#QNAN", "-NaN", "-nan", "1.#IND", "1.#QNAN", "<NA>", "N/A", "NA", "NULL", "NaN",
    "None", "n/a", "nan", "null"]

/-- is the cell missing (common/resources.py:1018) -/
def isNA (s : String) : Bool := naValues.contains s

/-- the value of digits (common/resources.py:1018) -/
def digits : List Char → Option Nat
  | [] => none
  | c :: cs => (c :: cs).foldl (fun n c => n.bind fun n => if c.isDigit then some (10 * n + (c.toNat - '0'.toNat)) else none) (some 0)

/-- an integer: a sign if any, and digits (common/resources.py:1018, `pd.read_csv`) -/
def parseInt (s : String) : Option Int :=
  match s.toList with
  | '-' :: cs => (digits cs).map fun n => -(n : Int)
  | '+' :: cs => (digits cs).map fun n => (n : Int)
  | cs => (digits cs).map fun n => (n : Int)

/-- is it a float: a sign if any, digits with a point among, before or after them, an exponent if any
(common/resources.py:1018, `pd.read_csv`) -/
def isFloat (s : String) : Bool :=
  let cs := match s.toList with
    | '-' :: cs => cs
    | '+' :: cs => cs
    | cs => cs
  let mantissa := cs.takeWhile fun c => c != 'e' && c != 'E'
  let rest := cs.drop mantissa.length
  let okMantissa := mantissa.all (fun c => c.isDigit || c == '.') && mantissa.any Char.isDigit && mantissa.count '.' ≤ 1
  let okExp := match rest with
    | [] => true
    | _ :: '-' :: ds => (digits ds).isSome
    | _ :: '+' :: ds => (digits ds).isSome
    | _ :: ds => (digits ds).isSome
  okMantissa && okExp

/-- is it a truth value (common/resources.py:1018, `pd.read_csv`) -/
def parseBool (s : String) : Option Bool :=
  if ["True", "TRUE", "true"].contains s then some true
  else if ["False", "FALSE", "false"].contains s then some false
  else none

/-- A column of text as `pd.read_csv(...).replace(np.nan, '')` gives it: numbers or truth values if all that is there can be read
so, else strings; missing values are empty strings. (common/resources.py:1018-1043) -/
def readText (l : List String) : List Cell :=
  let vs := l.filter fun s => !isNA s
  if vs.all (fun s => (parseInt s).isSome) then
    l.map fun s => if isNA s then .str "" else
      if l.any isNA then .float s else match parseInt s with
        | some i => .int i
        | none => .str s
  else if vs.all (fun s => (parseInt s).isSome || isFloat s) then l.map fun s => if isNA s then .str "" else .float s
  else if vs.all (fun s => (parseBool s).isSome) then
    l.map fun s => if isNA s then .str "" else match parseBool s with
      | some b => .bool b
      | none => .str s
  else l.map fun s => if isNA s then .str "" else .str s

/-- a column (common/resources.py:1018-1043) -/
def readCol : Col → List Cell
  | .ints l => l.map fun n : Nat => .int n
  | .text l => readText l

/-- the tables of a HERD that was read, by the name of their file: columns of cells (common/resources.py:1018-1043, 1078-1085) -/
abbrev Tables := String → List (List Cell)

/-- the tables of a HERD in memory, in the same form (common/resources.py:162-200) -/
def asTables (h : Herd) : Tables := fun f => match (sheets h).find? (fun s => s.1 = f) with
  | none => []
  | some s => s.2.map fun
    | .ints l => l.map fun n : Nat => .int n
    | .text l => l.map fun s => .str s

/-- the number of rows of a table (common/resources.py:1047-1076) -/
def rows (t : List (List Cell)) : Nat := (t.headD []).length

/-- `if not int(idx) < len(table)` for a column of indices (common/resources.py:1045-1076); what is not an integer is not
modelled -/
def idxOk (col : Option (List Cell)) (n : Nat) : Bool :=
  (col.getD []).all fun
    | .int i => decide (i < n)
    | _ => false

/-- the checks of `from_zip` (common/resources.py:1045-1076) -/
def checks (t : Tables) : Bool :=
  idxOk (t "entity_keys.tsv")[0]? (rows (t "entities.tsv")) && idxOk (t "objects.tsv")[0]? (rows (t "files.tsv")) &&
    idxOk (t "object_keys.tsv")[0]? (rows (t "objects.tsv")) && idxOk (t "object_keys.tsv")[1]? (rows (t "keys.tsv")) &&
    idxOk (t "entity_keys.tsv")[1]? (rows (t "keys.tsv"))

/-- is there a table (common/resources.py:1013-1043) -/
def isTsv : Option File → Bool
  | some (.tsv _) => true
  | _ => false

/-- the columns of a table (common/resources.py:1018-1043) -/
def columns : Option File → List (List Cell)
  | some (.tsv t) => t.map readCol
  | _ => []

/-- `from_zip` (common/resources.py:1001-1085): the members are extracted below the directory of the zip file; then the tables are
looked for in that directory itself.  Those that are found are read and removed; if one is not found, its variable is unbound
(UnboundLocalError, here `runtimeError`).  The number of columns of a table is not checked here. -/
def fromZip (cwd : Path) (a : Arg) (fs : FS) : Except Err Tables × FS :=
  let d := directory cwd a
  match fs (d ++ [a.base]) with
  | some (.zip ms) =>
    let fs1 := ms.foldl (fun fs m => fs.set (d ++ m.1) (.tsv m.2)) fs
    let fs2 := tableFiles.foldl (fun fs f => fs.remove (d ++ [f])) fs1
    if tableFiles.all (fun f => isTsv (fs1 (d ++ [f]))) then
      let t : Tables := fun f => if tableFiles.contains f then columns (fs1 (d ++ [f])) else []
      if checks t then (.ok t, fs2) else (.error .valueError, fs2)
    else (.error .runtimeError, fs2)
  | _ => (.error .valueError, fs)

/-! ## Comparing, and references from term sets -/

/-- `assert_external_resources_equal` (common/resources.py:202-253): the tables that differ; it passes if there are none -/
def differences (l r : Herd) : List String :=
  (if l.keys = r.keys then [] else ["keys"]) ++ (if l.files = r.files then [] else ["files"]) ++
    (if l.objects = r.objects then [] else ["objects"]) ++ (if l.entities = r.entities then [] else ["entities"]) ++
    (if l.objectKeys = r.objectKeys then [] else ["object_keys"])

/-- an object with an attribute wrapped in a `TermSetWrapper`: what container and attribute are resolved to by `add_ref`, the
values, and the term set: id and URI of a term, or an error (common/resources.py:425-471) -/
structure Item where
  target : Except Err (String × String × String)
  terms : List String
  termset : String → Except Err (String × String)

/-- the references that `add_ref_container` adds, in order, or the error of a term that is not in its term set
(common/resources.py:461-477) -/
def itemCalls (root : String) (i : Item) : List (Except Err Call) :=
  i.terms.map fun t => match i.termset t with
    | .error e => .error e
    | .ok (id, uri) => .ok { file := some root, target := i.target, key := .str t, eid := id, uri := some uri }

/-- calls one after the other up to the first error (common/resources.py:461-477) -/
def runAll (h : Herd) : List (Except Err Call) → Herd × Except Err Unit
  | [] => (h, .ok ())
  | .error e :: _ => (h, .error e)
  | .ok c :: cs => match addRef h c with
    | (h', .error e) => (h', .error e)
    | (h', .ok ()) => runAll h' cs

/-- `add_ref_container` (common/resources.py:425-477); `items` are the wrapped attributes of the root container and of what is
below it -/
def addRefContainer (h : Herd) (root : String) (items : List Item) : Herd × Except Err Unit :=
  runAll h (items.flatMap (itemCalls root))

/-- `get_object_type` (common/resources.py:828-846) -/
def getObjectType (h : Herd) (otype path field : String) (all : Bool) : Except Err (List FlatRow) :=
  match toDataframe h with
  | .error e => .error e
  | .ok rs => .ok (rs.filter fun r =>
      if all then r.obj.otype == otype else r.obj.otype == otype && r.obj.path == path && r.obj.field == field)

end Verif.HerdZip

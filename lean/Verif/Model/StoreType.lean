import Verif.Model.Convert

/-!
# Model of the types in which the HDF5 backend stores data (backends/hdf5/h5tools.py:878-949, 1346-1362, 1461-1477)

Types of values are those of `Verif.Convert`.  A compound within a compound is not modelled.  What `h5py` does with the type is
not modelled: the theorems are about the type it is asked for.
-/

namespace Verif.StoreType
open Verif Convert

/-- A type that is not compound: a numpy type, variable-length text or bytes, or a reference (backends/hdf5/h5tools.py:895-925) -/
inductive Flat
  | num (d : DT)
  | text
  | binary
  | ref
  | regref
  deriving DecidableEq, Repr

/-- A type in the file (backends/hdf5/h5tools.py:937-949) -/
inductive Sto
  | flat (f : Flat)
  | compound (fs : List (String × Flat))
  deriving DecidableEq, Repr

/-- `__dtypes` (backends/hdf5/h5tools.py:895-925) -/
def table : String → Option Flat
  | "float" => some (.num ⟨.float, 4⟩)
  | "float32" => some (.num ⟨.float, 4⟩)
  | "double" => some (.num ⟨.float, 8⟩)
  | "float64" => some (.num ⟨.float, 8⟩)
  | "long" => some (.num ⟨.int, 8⟩)
  | "int64" => some (.num ⟨.int, 8⟩)
  | "int" => some (.num ⟨.int, 4⟩)
  | "int32" => some (.num ⟨.int, 4⟩)
  | "short" => some (.num ⟨.int, 2⟩)
  | "int16" => some (.num ⟨.int, 2⟩)
  | "int8" => some (.num ⟨.int, 1⟩)
  | "uint64" => some (.num ⟨.uint, 8⟩)
  | "uint" => some (.num ⟨.uint, 4⟩)
  | "uint32" => some (.num ⟨.uint, 4⟩)
  | "uint16" => some (.num ⟨.uint, 2⟩)
  | "uint8" => some (.num ⟨.uint, 1⟩)
  | "bool" => some (.num ⟨.bool, 1⟩)
  | "text" => some .text
  | "utf" => some .text
  | "utf8" => some .text
  | "utf-8" => some .text
  | "ascii" => some .binary
  | "bytes" => some .binary
  | "ref" => some .ref
  | "reference" => some .ref
  | "object" => some .ref
  | "region" => some .regref
  | "isodatetime" => some .text
  | "datetime" => some .text
  | _ => none

/-- `primary_dtype_synonyms` (spec/spec.py:26-44) -/
def synonyms : List (String × List String) :=
  [("float", ["float", "float32"]), ("double", ["double", "float64"]), ("short", ["int16", "short"]), ("int", ["int32", "int"]),
   ("long", ["int64", "long"]), ("utf", ["text", "utf", "utf8", "utf-8"]), ("ascii", ["ascii", "bytes"]), ("bool", ["bool"]),
   ("int8", ["int8"]), ("uint8", ["uint8"]), ("uint16", ["uint16"]), ("uint32", ["uint32", "uint"]), ("uint64", ["uint64"]),
   ("object", ["object"]), ("region", ["region"]), ("numeric", ["numeric"]), ("isodatetime", ["isodatetime", "datetime", "date"])]

/-- The dtype of a field of a compound: a name or a `RefSpec`, which is a dict (backends/hdf5/h5tools.py:938-949) -/
inductive FieldDt
  | name (s : String)
  | refspec (reftype : String)
  deriving DecidableEq, Repr

/-- The dtype of a builder: missing, a name, a `RefSpec`, a numpy dtype (of data that were read), a Python or numpy type, or the
fields of a compound (backends/hdf5/h5tools.py:938-949, 1353-1356) -/
inductive BDt
  | missing
  | name (s : String)
  | refspec (reftype : String)
  | dtype (s : Sto)
  | type (d : DT)
  | compound (fs : List (String × FieldDt))

/-- Data, as far as its type is concerned.  `other` is anything without `__len__`, with `np.dtype(type(data))`; an array is a
sequence of its parts, if it has any (backends/hdf5/h5tools.py:878-893) -/
inductive Data
  | str
  | bytes
  | container
  | other (d : DT)
  | emptyArray (d : DT)
  | seq (l : List Data)

/-- backends/hdf5/h5tools.py:938-945 for the dtype of a field -/
def fieldType : FieldDt → Option Flat
  | .name s => table s
  | .refspec r => table r

/-- `np.dtype(None)` is float64 (used by backends/hdf5/h5tools.py:949) -/
def npNone : Flat := .num ⟨.float, 8⟩

/-- backends/hdf5/h5tools.py:937-949 `__resolve_dtype_helper__` -/
def helper : BDt → Option Sto
  | .missing => none
  | .name s => (table s).map .flat
  | .refspec r => (table r).map .flat
  | .dtype s => some s
  | .type d => some (.flat (.num d))
  | .compound fs => some (.compound (fs.map fun p => (p.1, (fieldType p.2).getD npNone)))

/-- backends/hdf5/h5tools.py:877-893 `get_type` -/
def getType : Data → Except Err Flat
  | .str => .ok .text
  | .bytes => .ok .binary
  | .container => .ok .ref
  | .other d => .ok (.num d)
  | .emptyArray d => .ok (.num d)
  | .seq [] => .error .valueError
  | .seq (x :: _) => getType x

/-- backends/hdf5/h5tools.py:927-935 `__resolve_dtype__` -/
def resolveDtype (b : BDt) (x : Data) : Except Err Sto :=
  match helper b with
  | some s => .ok s
  | none => (getType x).map .flat

/-- the type that `__scalar_fill__` and `__list_fill__` ask for: a Python or numpy type is taken as it is
(backends/hdf5/h5tools.py:1346-1358, 1461-1473) -/
def storeType (b : BDt) (x : Data) : Except Err Sto :=
  match b with
  | .type d => .ok (.flat (.num d))
  | b => resolveDtype b x

/-- what `convert_dtype` reports for a value of type `g` that is not compound, as the builder has it (build/objectmapper.py:188-265) -/
def plainBDt (t : Tgt) (g : DT) : Except Err BDt :=
  match t with
  | .utf8 => .ok (.name "utf8")
  | .ascii => .ok (.name "ascii")
  | .num s => (resolve g s).map fun r => .type r.1

/-- the dtype that the mapper gives the builder of a compound: that of the spec (build/objectmapper.py:288-291) -/
def compoundBDt (fs : List (String × String)) : BDt := .compound (fs.map fun p => (p.1, .name p.2))

end Verif.StoreType

import Verif.Base.Py

/-!
# Conversion of values to the dtype of their spec, and dimension labels

Models `ObjectMapper.__dtypes`, `__resolve_numeric_dtype`, `convert_dtype`, `__check_convert_numeric`,
`__check_edgecases`, `__check_dset_spec` and `__get_dimension_labels_from_spec`
(build/objectmapper.py:72-336, 818-884).

Not modelled: compound dtypes and `RefSpec` (returned as given, 288–291 and 328–332), types registered with
`no_convert` (180–185), the wording of messages.
-/

namespace Verif.Convert

/-- The kinds of numpy dtype a value can have.  Datetimes, records and void are left out. (build/objectmapper.py:98-131) -/
inductive Kind where
  | int | uint | float | bool | complex | str | bytes | object
  deriving DecidableEq, Repr

/-- A numpy dtype: kind and `itemsize` in bytes (byte order left out). (build/objectmapper.py:98-180) -/
structure DT where
  kind : Kind
  size : Nat
  deriving DecidableEq, Repr

/-- `np.dtype(...).name[:3]`, the comparison used at build/objectmapper.py:155. -/
def Kind.prefix3 : Kind → String
  | .int => "int" | .uint => "uin" | .float => "flo" | .bool => "boo" | .complex => "com" | .str => "str"
  | .bytes => "byt" | .object => "obj"

/-- The item sizes for which numpy has a type of the kind (x86-64: `float128` exists). -/
def widths : Kind → List Nat
  | .int => [1, 2, 4, 8] | .uint => [1, 2, 4, 8] | .float => [2, 4, 8, 16] | .bool => [1] | .complex => [8, 16, 32]
  | _ => []

/-- `np.dtype('uint' + str(bits))` and the like (build/objectmapper.py:160, 166, 172): TypeError if numpy has no such type. -/
def mkDT (k : Kind) (size : Nat) : Except Err DT :=
  if size ∈ widths k then .ok ⟨k, size⟩ else .error .typeError

/-- `__resolve_numeric_dtype(given, specified)` (build/objectmapper.py:135-178): the dtype to use and whether a warning is
given. -/
def resolve (g s : DT) : Except Err (DT × Bool) :=
  if g = s then .ok (s, false)
  else if g.size ≤ s.size then .ok (s, true)
  else if g.kind.prefix3 = s.kind.prefix3 then .ok (g, false)
  else match s.kind with
    | .uint => (mkDT .uint g.size).map (·, true)
    | .float => (mkDT .float (max g.size 4)).map (·, true)
    | .int => (mkDT .int g.size).map (·, true)
    | _ => .error .valueError

/-- What an entry of `__dtypes` stands for: a numpy type, or one of the helpers `_unicode` and `_ascii`.
(build/objectmapper.py:98-131) -/
inductive Tgt where
  | num (s : DT) | utf8 | ascii
  deriving DecidableEq, Repr

/-- `__dtypes` (build/objectmapper.py:104-130). -/
def dtypes : String → Option Tgt
  | "float" => some (.num ⟨.float, 4⟩)
  | "float32" => some (.num ⟨.float, 4⟩)
  | "double" => some (.num ⟨.float, 8⟩)
  | "float64" => some (.num ⟨.float, 8⟩)
  | "long" => some (.num ⟨.int, 8⟩)
  | "int64" => some (.num ⟨.int, 8⟩)
  | "int" => some (.num ⟨.int, 4⟩)
  | "int32" => some (.num ⟨.int, 4⟩)
  | "short" => some (.num ⟨.int, 2⟩)
  | "int16" => some (.num ⟨.int, 2⟩)
  | "int8" => some (.num ⟨.int, 1⟩)
  | "uint" => some (.num ⟨.uint, 4⟩)
  | "uint64" => some (.num ⟨.uint, 8⟩)
  | "uint32" => some (.num ⟨.uint, 4⟩)
  | "uint16" => some (.num ⟨.uint, 2⟩)
  | "uint8" => some (.num ⟨.uint, 1⟩)
  | "bool" => some (.num ⟨.bool, 1⟩)
  | "text" => some .utf8
  | "utf" => some .utf8
  | "utf8" => some .utf8
  | "utf-8" => some .utf8
  | "ascii" => some .ascii
  | "bytes" => some .ascii
  | "isodatetime" => some .ascii
  | "datetime" => some .ascii
  | _ => none

/-- A value handed to `convert_dtype`.  Contents of numbers and arrays are opaque (`x`), their dtype is what the code
looks at. (build/objectmapper.py:188-265) -/
inductive Val where
  /-- `None` -/
  | missing
  /-- anything with `astype` and `dtype`: numpy array, numpy scalar, Zarr array -/
  | arr (d : DT) (x : Nat)
  /-- a Python scalar that is not a string: `d = np.dtype(type(value))` -/
  | py (d : DT) (x : Nat)
  /-- a Python `str` -/
  | str (s : List Char)
  /-- a Python `bytes` -/
  | bytes (b : List Nat)
  /-- an `AbstractDataChunkIterator` with its `dtype` -/
  | chunks (d : DT) (x : Nat)
  /-- a list or tuple -/
  | seq (l : List Val)
  /-- a `DataIO` around data -/
  | io (v : Val)
  /-- a `DataIO` without data; its `dtype` -/
  | ioEmpty (d : DT)

/-- The second component of the result of `convert_dtype`: a numpy type, `'utf8'`, `'ascii'`, or the dtype of the spec
as given. (build/objectmapper.py:188-265) -/
inductive Ret where
  | dt (d : DT) | utf8 | ascii | asSpec
  deriving DecidableEq, Repr

/-- The casts of numpy that the model leaves open: `value.astype(d)` and `np.T(value)` on contents (`none` = raises),
the width of the strings numpy makes, the decoding of bytes as UTF-8 and the reading of a number from a string.
(build/objectmapper.py:188-265) -/
structure Env where
  cast : DT → Nat → DT → Option Nat
  toText : DT → Nat → Kind → Option (Nat × Nat)
  decode : List Nat → Option (List Char)
  parse : List Char → DT → Option Nat
  parseBytes : List Nat → DT → Option Nat

/-- One hexadecimal digit, lower case. (used by `_ascii`, build/objectmapper.py:83-92) -/
def hexDigit (n : Nat) : Nat := if n < 10 then 48 + n else 87 + n

/-- `n` in `k` hexadecimal digits. (used by `_ascii`, build/objectmapper.py:83-92) -/
def hex : Nat → Nat → List Nat
  | 0, _ => []
  | k + 1, n => hex k (n / 16) ++ [hexDigit (n % 16)]

/-- One character under `encode('ascii', 'backslashreplace')`. (build/objectmapper.py:83-92) -/
def asciiChar (c : Char) : List Nat :=
  if c.toNat < 128 then [c.toNat]
  else if c.toNat < 256 then [92, 120] ++ hex 2 c.toNat
  else if c.toNat < 65536 then [92, 117] ++ hex 4 c.toNat
  else [92, 85] ++ hex 8 c.toNat

/-- `_ascii` on a `str` (build/objectmapper.py:83-92).  Lone surrogates, which Python strings may hold, are not modelled. -/
def asciiEnc : List Char → List Nat
  | [] => []
  | c :: s => asciiChar c ++ asciiEnc s

/-- `np.dtype(str)` and `np.dtype(bytes)`: item size 0. (build/objectmapper.py:268-340) -/
def strDT : DT := ⟨.str, 0⟩
/-- see `strDT` (build/objectmapper.py:268-340) -/
def bytesDT : DT := ⟨.bytes, 0⟩

/-- The warning of a conversion from `g`, as a list (build/objectmapper.py:262-264). -/
def warnOf (w : Bool) (g : DT) : List DT := if w then [g] else []

/-- The branch for arrays (build/objectmapper.py:213-230). -/
def convertArr (env : Env) (t : Tgt) (d : DT) (x : Nat) : Except Err (Val × Ret × List DT) :=
  match t with
  | .utf8 => match env.toText d x .str with
    | some (n, x') => .ok (.arr ⟨.str, n⟩ x', .utf8, [])
    | none => .error .valueError
  | .ascii => match env.toText d x .bytes with
    | some (n, x') => .ok (.arr ⟨.bytes, n⟩ x', .ascii, [])
    | none => .error .valueError
  | .num s => match resolve d s with
    | .error e => .error e
    | .ok (r, w) =>
      if d = r then .ok (.arr d x, .dt r, warnOf w d)
      else match env.cast d x r with
        | some x' => .ok (.arr r x', .dt r, warnOf w d)
        | none => .error .valueError

/-- The dtype reported for an empty list (build/objectmapper.py:233-240). -/
def emptyRet : Tgt → Ret
  | .num s => .dt s
  | .utf8 => .utf8
  | .ascii => .ascii

/-- The branch for scalars (build/objectmapper.py:252-261): `got` is what `dtype_func(value)` gives for a numeric dtype, `txt`
what the helper gives. -/
def convertScalar (t : Tgt) (g : DT) (got : DT → Option Nat) (uni asc : Except Err Val) :
    Except Err (Val × Ret × List DT) :=
  match t with
  | .utf8 => match uni with
    | .ok v => .ok (v, .utf8, [])
    | .error e => .error e
  | .ascii => match asc with
    | .ok v => .ok (v, .ascii, [])
    | .error e => .error e
  | .num s => match resolve g s with
    | .error e => .error e
    | .ok (r, w) => match got r with
      | some x' => .ok (.arr r x', .dt r, warnOf w g)
      | none => .error .valueError

/-- The branch for chunk iterators (build/objectmapper.py:243-251): the value is left alone. -/
def convertChunks (t : Tgt) (d : DT) (x : Nat) : Except Err (Val × Ret × List DT) :=
  match t with
  | .utf8 => .ok (.chunks d x, .utf8, [])
  | .ascii => .ok (.chunks d x, .ascii, [])
  | .num s => match resolve d s with
    | .error e => .error e
    | .ok (r, w) => .ok (.chunks d x, .dt r, warnOf w d)

mutual
/-- `convert_dtype(spec, value, spec_dtype)` for a spec dtype in `__dtypes` (build/objectmapper.py:188-265 with the cases
`None` and `DataIO` of `__check_edgecases` 277–301): the value, the dtype reported and the dtypes warned about. -/
def convert (env : Env) (t : Tgt) : Val → Except Err (Val × Ret × List DT)
  | .missing => .ok (.missing, .asSpec, [])
  | .ioEmpty d => .ok (.ioEmpty d, .dt d, [])
  | .io v => match convert env t v with
    | .error e => .error e
    | .ok (_, r, w) => .ok (.io v, r, w)
  | .arr d x => convertArr env t d x
  | .seq l => match convertL env t l with
    | .error e => .error e
    | .ok (l', r, w) => .ok (.seq l', r.getD (emptyRet t), w)
  | .chunks d x => convertChunks t d x
  | .py d x => convertScalar t d (env.cast d x) (.error .valueError) (.error .valueError)
  | .str s => convertScalar t strDT (env.parse s) (.ok (.str s)) (.ok (.bytes (asciiEnc s)))
  | .bytes b => convertScalar t bytesDT (env.parseBytes b)
      (match env.decode b with | some s => .ok (.str s) | none => .error .valueError) (.ok (.bytes b))

/-- The loop over the elements (build/objectmapper.py:241-244): the dtype kept is that of the last element; `none` if there
is no element. -/
def convertL (env : Env) (t : Tgt) : List Val → Except Err (List Val × Option Ret × List DT)
  | [] => .ok ([], none, [])
  | v :: l => match convert env t v with
    | .error e => .error e
    | .ok (v', r, w) => match convertL env t l with
      | .error e => .error e
      | .ok (l', r', w') => .ok (v' :: l', some (r'.getD r), w ++ w')
end

/-- `__check_convert_numeric` (build/objectmapper.py:267-275). -/
def numericOk (d : DT) : Bool :=
  match d.kind with
  | .int => true | .uint => true | .float => true | _ => false

/-- The dtype inferred for something with a `dtype` (build/objectmapper.py:304-317). -/
def inferDT (numeric : Bool) (d : DT) : Except Err Ret :=
  if numeric && !numericOk d then .error .valueError
  else .ok (match d.kind with
    | .str => .utf8 | .bytes => .ascii | .object => .utf8 | _ => .dt d)

/-- `__check_edgecases` for the spec dtypes `None` and `'numeric'` (build/objectmapper.py:279-327): the value is returned as
it is; this is the dtype.  `DataIO` goes back through `convert_dtype`, which ends here again (301).  A list is judged by
its first element (322). -/
def infer (numeric : Bool) : Val → Except Err Ret
  | .missing => .ok .asSpec
  | .ioEmpty d => .ok (.dt d)
  | .io v => infer numeric v
  | .arr d _ => inferDT numeric d
  | .chunks d _ => inferDT numeric d
  | .seq [] => .error .valueError
  | .seq (v :: _) => infer numeric v
  | .py d _ => if numeric && !numericOk d then .error .valueError else .ok (.dt d)
  | .str _ => if numeric then .error .valueError else .ok .utf8
  | .bytes _ => if numeric then .error .valueError else .ok .ascii

/-- The dtype of a spec: none, `'numeric'`, or another name. (build/objectmapper.py:188-206, 277-340) -/
inductive SpecDT where
  | none | numeric | name (s : String)
  deriving DecidableEq, Repr

/-- `convert_dtype` for every (simple) spec dtype (build/objectmapper.py:188-209, 277-336).  `None` and `DataIO` are looked
at before the name (280–301): a `DataIO` around nothing needs no known name. -/
def convertSpec (env : Env) (sd : SpecDT) (v : Val) : Except Err (Val × Ret × List DT) :=
  match sd with
  | .none => match infer false v with
    | .ok r => .ok (v, r, [])
    | .error e => .error e
  | .numeric => match infer true v with
    | .ok r => .ok (v, r, [])
    | .error e => .error e
  | .name s => match dtypes s with
    | some t => convert env t v
    | none => match v with
      | .missing => .ok (.missing, .asSpec, [])
      | .ioEmpty d => .ok (.ioEmpty d, .dt d, [])
      | _ => .error .valueError

/-! ## Dimension labels -/

/-- The `shape` of a dataset spec: one shape or a list of alternatives.  The code tells them apart by
`isinstance(spec_shape[0], list)` (build/objectmapper.py:840). -/
inductive SpecShape where
  | one (s : List (Option Nat))
  | alts (l : List (List (Option Nat)))
  deriving Repr

/-- The `dims` of a dataset spec. (build/objectmapper.py:835-884) -/
inductive SpecDims where
  | one (d : List String)
  | alts (l : List (List String))
  deriving Repr

/-- The comparison of one dimension (build/objectmapper.py:850, 873).  The length of a data dimension may be unknown
(`None`). -/
def dimOk (s : Option Nat) (d : Option Nat) : Bool :=
  match s with
  | none => true
  | some _ => s == d

/-- The comparison loop over dimensions of equal number (build/objectmapper.py:848-852, 871-875). -/
def dimsOk : List (Option Nat) → List (Option Nat) → Bool
  | s :: ss, d :: ds => if dimOk s d then dimsOk ss ds else false
  | _, _ => true

/-- One alternative against the shape of the data (build/objectmapper.py:844-855). -/
def shapeOk (s d : List (Option Nat)) : Bool :=
  if s.length ≠ d.length then false else dimsOk s d

/-- `match_shape_inds` (build/objectmapper.py:841-855); `i` is the index of the head. -/
def matchInds (d : List (Option Nat)) : Nat → List (List (Option Nat)) → List Nat
  | _, [] => []
  | i, s :: l => if shapeOk s d then i :: matchInds d (i + 1) l else matchInds d (i + 1) l

/-- `len([x for x in s if x is None])` (build/objectmapper.py:861). -/
def countNones (s : List (Option Nat)) : Nat := (s.filter (·.isNone)).length

/-- `min(l)` of a non-empty list. (build/objectmapper.py:135-178) -/
def minOf : Nat → List Nat → Nat
  | a, [] => a
  | a, b :: l => minOf (min a b) l

/-- `l.index(x)`. (build/objectmapper.py:835-884) -/
def indexOf (x : Nat) : List Nat → Nat
  | [] => 0
  | a :: l => if a = x then 0 else indexOf x l + 1

/-- `tuple(spec_dims[k])` (build/objectmapper.py:859, 864).  A `dims` that is not nested like the shape gives a tuple of
characters; the spec constructor refuses it, here it is an error. -/
def dimsAt (dims : SpecDims) (k : Nat) : Except Err (List String) :=
  match dims with
  | .one _ => .error .unsupported
  | .alts l => match l[k]? with
    | some x => .ok x
    | none => .error .indexError

/-- `__get_dimension_labels_from_spec` (build/objectmapper.py:835-884).  `data` is `get_data_shape(data)`: `none` for data
without a length, whose `len` then raises TypeError (845, 867).  `some none` = no labels. -/
def labels (data : Option (List (Option Nat))) (shape : Option SpecShape) (dims : Option SpecDims) :
    Except Err (Option (List String)) :=
  match shape, dims with
  | some sh, some dm => match sh with
    | .alts [] => .error .indexError
    | .alts l => match data with
      | none => .error .typeError
      | some d => match matchInds d 0 l with
        | [] => .ok none
        | [k] => (dimsAt dm k).map some
        | k :: ks =>
          let counts := (k :: ks).map (fun i => countNones (l[i]?.getD []))
          let best := (k :: ks)[indexOf (minOf (counts.headD 0) counts.tail) counts]?.getD 0
          (dimsAt dm best).map some
    | .one [] => .error .indexError
    | .one s => match data with
      | none => .error .typeError
      | some d =>
        if d.length ≠ s.length then .ok none
        else if !dimsOk s d then .ok none
        else match dm with
          | .one x => .ok (some x)
          | .alts _ => .error .unsupported
  | _, _ => .ok none

/-- The dtype, shape and dims of a dataset spec, as used by the mapper. (build/objectmapper.py:818-833) -/
structure DsSpec where
  dtype : Option String
  shape : Option SpecShape
  dims : Option SpecDims

/-- `__check_dset_spec(orig, ext)` (build/objectmapper.py:818-833). -/
def checkDsetSpec (orig : DsSpec) (ext : Option DsSpec) : DsSpec :=
  match ext with
  | none => orig
  | some e =>
    ⟨e.dtype.or orig.dtype, if e.shape.isSome then e.shape else orig.shape, if e.shape.isSome then e.dims else orig.dims⟩

end Verif.Convert

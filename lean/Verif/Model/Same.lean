import Verif.Base.Py

/-!
# Asserting that containers are equal

Model of `TestCase.assertContainerEqual` (testing/testcase.py:37-223) and of the validation at the end of
`H5RoundTripMixin` (344-358), with which extensions test that what they write is read back.

Values are numbers, strings, bytes, sequences, dictionaries and containers.  An assertion that fails inside `subTest` lets the
others go on, but the test fails all the same: an outcome is `pass`, `fail` or the error raised first.

Simplifications.
* Floats are decimal numbers with nine digits after the point: `flt m` is `m / 10^9`.  There is no NaN and no infinity.
* Arrays hold numbers and have one dimension; datasets are the arrays that `[()]` gives.
* Bytes are given as the string they decode to.
* Comparing two dictionaries that are elements of lists, and iterating over containers that are not `Data`, is not modelled
  (`unsupported`).
* The recursion is bounded by a fuel argument; running out of it is Python's `RecursionError` (`runtimeError`).
-/

namespace Verif.Same
open Verif

/-- What fields hold. A container has a class, a name, a source, an object id, a number of children, and its fields in the
order of its class; a `Data` object also has data. (testing/testcase.py:57-80, 102-128) -/
inductive V where
  | none
  | int (i : Int)
  | flt (m : Int)
  | str (s : List Char)
  | bytes (s : List Char)
  | seq (vs : List V)
  | arr (isFloat : Bool) (xs : List Int)
  | dict (kvs : List (String × V))
  | obj (data : Option V) (cls : Nat) (name : String) (src : Option String) (oid : Nat) (children : Nat)
      (fields : List (String × V))

/-- How an assertion ends. (testing/testcase.py:57-223) -/
inductive Out where
  | pass
  | fail
  | err (e : Err)
  deriving DecidableEq

/-- the assertions of a list of comparisons; the first that does not pass is reported
(testing/testcase.py:73-80, 203-223) -/
def Out.all : List Out → Out
  | [] => .pass
  | .pass :: l => Out.all l
  | o :: _ => o

/-- one assertion after the other (testing/testcase.py:57-71, 147-158) -/
def Out.andThen (a : Out) (b : Out) : Out :=
  match a with
  | .pass => b
  | o => o

/-- `assertTrue`, `assertEqual` of what can be compared (testing/testcase.py:57-71) -/
def check (b : Bool) : Out := if b then .pass else .fail

/-- Options: `ignore_hdmf_attrs` and `ignore_string_to_byte`. (testing/testcase.py:37-56) -/
structure Opts where
  ignoreAttrs : Bool := false
  strToByte : Bool := false
  deriving DecidableEq

/-- a number in units of `10^-9` (testing/testcase.py:126, 187, 201) -/
def V.num : V → Option Int
  | .int i => some (i * 1000000000)
  | .flt m => some m
  | _ => Option.none

/-- `np.testing.assert_allclose` with the tolerance it has by default: `|x - y| ≤ 10^-7 |y|`
(testing/testcase.py:126, 187, 201; numpy) -/
def close (x y : Int) : Bool := decide ((x - y).natAbs * 10000000 ≤ y.natAbs)

/-- the elements of an array (testing/testcase.py:207) -/
def arrElem (isFloat : Bool) (x : Int) : V := if isFloat then .flt x else .int x

/-- `isinstance(x, (tuple, list, np.ndarray))`, and so `array_data` (testing/testcase.py:102-103, 184-185) -/
def isSeq : V → Bool
  | .seq _ => true
  | .arr _ _ => true
  | _ => false

/-- `len(x)` (testing/testcase.py:146, 196) -/
def lenOf : V → Except Err Nat
  | .seq vs => .ok vs.length
  | .arr _ xs => .ok xs.length
  | .str s => .ok s.length
  | .bytes s => .ok s.length
  | .dict kvs => .ok kvs.length
  | .obj (some d) _ _ _ _ _ _ => lenOf d
  | _ => .error .typeError

/-- what iterating gives (testing/testcase.py:207); a `Data` object gives the elements of its data (container.py:973-982) -/
def elems : V → Except Err (List V)
  | .seq vs => .ok vs
  | .arr f xs => .ok (xs.map (arrElem f))
  | .str s => .ok (s.map fun c => .str [c])
  | .bytes s => .ok (s.map fun c => .int c.toNat)
  | .dict kvs => .ok (kvs.map fun p => .str p.1.toList)
  | .obj (some d) _ _ _ _ _ _ => elems d
  | _ => .error .typeError

/-- `assertEqual(a, b)` where `a` is not a container (testing/testcase.py:128, 193) -/
def scalarEq : V → V → Out
  | .none, .none => .pass
  | .str s, .str t => check (s = t)
  | .bytes s, .bytes t => check (s = t)
  | .dict [], .dict [] => .pass
  | .dict (_ :: _), .dict (_ :: _) => .err .unsupported
  | a, b => match a.num, b.num with
    | some x, some y => check (x = y)
    | _, _ => .fail

/-- `assert_allclose(a, b)` for a float `a` (testing/testcase.py:125-126, 186-187).  Anything but a number as `b` is an
error. -/
def closeTo (m : Int) (b : V) : Out :=
  match b.num with
  | some y => check (close m y)
  | Option.none => .err .typeError

/-- decoding of bytes if wished (testing/testcase.py:189-193) -/
def decode (o : Opts) : V → V
  | .bytes s => if o.strToByte then .str s else .bytes s
  | v => v

/-- two values neither of which is a sequence (testing/testcase.py:185-193) -/
def scalars (o : Opts) (a b : V) : Out :=
  match a with
  | .flt m => closeTo m b
  | a => scalarEq (decode o a) (decode o b)

/-- which of the functions is called: `assertContainerEqual`, `_assert_field_equal`, `_assert_data_equal`,
`_assert_array_equal`, or the comparison of elements (testing/testcase.py:37-223) -/
inductive Fn where
  | container (ignoreName : Bool)
  | field
  | data
  | array
  | elem
  deriving DecidableEq

/-- `getattr(container, field)` (testing/testcase.py:74-75) -/
def getField (fields : List (String × V)) (f : String) : Except Err V :=
  match fields.find? (fun p => p.1 = f) with
  | some p => .ok p.2
  | Option.none => .error .attributeError

/-- is it a container that is not `Data` (testing/testcase.py:68, 116) -/
def isContainer : V → Bool
  | .obj Option.none _ _ _ _ _ _ => true
  | _ => false

/-- is it a `Data` object (testing/testcase.py:121, 144-145) -/
def isData : V → Bool
  | .obj (some _) _ _ _ _ _ _ => true
  | _ => false

/-- the two arrays compared as arrays (testing/testcase.py:200-204): `assert_allclose` -/
def arrays (xs ys : List Int) (f g : Bool) : Out :=
  Out.all ((xs.zip ys).map fun p => match (arrElem f p.1).num, (arrElem g p.2).num with
    | some x, some y => check (close x y)
    | _, _ => .fail)

/-- the comparison of the parts of two containers (testing/testcase.py:57-80); `rec` is `_assert_field_equal` -/
def containers (rec : V → V → Out) (ignoreName : Bool) (o : Opts) : V → V → Out
  | .obj d1 c1 n1 s1 i1 k1 f1, .obj d2 c2 n2 s2 i2 k2 f2 =>
    (check (c1 = c2 ∧ d1.isSome = d2.isSome)).andThen <|
    (check (ignoreName ∨ n1 = n2)).andThen <|
    (check (o.ignoreAttrs ∨ (s1 = s2 ∧ i1 = i2))).andThen <|
    (check (d1.isSome ∨ k1 = k2)).andThen <|
    Out.all (f1.map fun p => match getField f2 p.1 with
      | .error e => .err e
      | .ok w => rec p.2 w)
  | _, _ => .fail

/-- `_assert_array_equal` (testing/testcase.py:160-223); `rec` compares elements -/
def arrayEq (rec : V → V → Out) (o : Opts) (a b : V) : Out :=
  if !isSeq a && !isSeq b then scalars o a b
  else match lenOf a, lenOf b with
    | .ok m, .ok n => if m ≠ n then .fail else match a, b with
      | .arr f xs, .arr g ys => arrays xs ys f g
      | a, b => match elems a, elems b with
        | .ok l, .ok l' => Out.all ((l.zip l').map fun p => rec p.1 p.2)
        | _, _ => .err .typeError
    | _, _ => .err .typeError

/-- The functions, calling each other. (testing/testcase.py:37-223) -/
def cmp : Nat → Fn → Opts → V → V → Out
  | 0, _, _, _, _ => .err .runtimeError
  | n + 1, .container ign, o, a, b => containers (cmp n .field o) ign o a b
  | n + 1, .field, o, a, b =>
    if isSeq a || isSeq b then cmp n .array o a b
    else match a with
      | .dict (_ :: _) => .err .typeError     -- `f1.values()[0]`
      | .obj Option.none _ _ _ _ _ _ => cmp n (.container false) o a b
      | .obj (some _) _ _ _ _ _ _ => cmp n .data o a b
      | .flt m => closeTo m b
      | a => scalarEq a b
  | n + 1, .data, o, a, b =>
    match a, b with
    | .obj (some d) _ _ _ _ _ _, .obj (some e) _ _ _ _ _ _ => match lenOf d, lenOf e with
      | .ok l, .ok m => if l ≠ m then .fail else
        (cmp n .array o d e).andThen (cmp n (.container false) ⟨o.ignoreAttrs, false⟩ a b)
      | _, _ => .err .typeError
    | _, _ => .fail
  | n + 1, .array, o, a, b => arrayEq (cmp n .elem o) o a b
  | n + 1, .elem, o, a, b => match a with
    | .obj Option.none _ _ _ _ _ _ => cmp n (.container false) o a b
    | .obj (some _) _ _ _ _ _ _ => cmp n .data o a b
    | a => cmp n .array o a b

/-- `assertContainerEqual(a, b, ignore_name, ignore_hdmf_attrs, ignore_string_to_byte)` (testing/testcase.py:37-80) -/
def assertContainerEqual (n : Nat) (ignoreName : Bool) (o : Opts) (a b : V) : Out := cmp n (.container ignoreName) o a b

/-- `H5RoundTripMixin.validate` (testing/testcase.py:344-358): `files` says which files exist and what the validator finds in
them; the first error raised -/
def mixinValidate (files : String → Option (List String)) (filename exportFilename : String) : Option String :=
  match (files filename).bind List.head? with
  | some e => some e
  | Option.none => match files exportFilename with
    | Option.none => Option.none
    | some _ => match files filename with
      | some es => es.head?
      | Option.none => some "no such file"

end Verif.Same

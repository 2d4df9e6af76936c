import Verif.Base.Py

/-!
# Sparse matrices

Model of `to_uint_array` (utils.py:937-954) and of `CSRMatrix` (common/sparse.py:8-58).

Simplifications.
* The elements of a matrix are integers.
* Of `scipy.sparse.csr_matrix` the following is modelled: the matrix of a two-dimensional array has the elements that are not zero, row by row; the matrix of
  three arrays is checked as `check_format(full_check=False)` does and cut to `indptr[-1]` elements.
* Whether SciPy stores `indices` and `indptr` as 32 or 64 bits is not modelled: the numbers are.
-/

namespace Verif.Sparse
open Verif

/-- the dtype of an array of numbers (utils.py:946-954) -/
inductive Dt where
  | int (bits : Nat)
  | uint (bits : Nat)
  | other
  deriving DecidableEq, Repr

/-- an array of one dimension (utils.py:944-945) -/
structure Arr where
  dt : Dt
  vals : List Int
  deriving DecidableEq, Repr

/-- `arr.astype('uint' + bits)`: modulo the number of values (utils.py:951-952) -/
def astypeUint (bits : Nat) (l : List Int) : Arr := ⟨.uint bits, l.map (· % (2 ^ bits : Int))⟩

/-- `to_uint_array` of an array (utils.py:937-954) -/
def toUint (a : Arr) : Except Err Arr := match a.dt with
  | .uint _ => .ok a
  | .int bits => if a.vals.any (· < 0) then .error .valueError else .ok (astypeUint bits a.vals)
  | .other => .error .valueError

/-- `np.array(l)` of a list of integers: 64 bits, with sign if they fit; no element or other numbers give another dtype (utils.py:944-945) -/
def ofList (l : List Int) : Arr :=
  if l.isEmpty then ⟨.other, l⟩
  else if l.all fun i => decide (-(2 ^ 63 : Int) ≤ i) && decide (i < (2 ^ 63 : Int)) then ⟨.int 64, l⟩
  else if l.all fun i => decide (0 ≤ i) && decide (i < (2 ^ 64 : Int)) then ⟨.uint 64, l⟩
  else ⟨.other, l⟩

/-- a matrix of SciPy (common/sparse.py:38, 50-55) -/
structure Csr where
  data : List Int
  indices : List Nat
  indptr : List Nat
  rows : Nat
  cols : Nat
  deriving DecidableEq, Repr

/-- the element in row `i` and column `j`: the sum of the entries of the row with that column (common/sparse.py:57-58) -/
def Csr.entry (m : Csr) (i j : Nat) : Int :=
  ((((m.data.zip m.indices).take (m.indptr.getD (i + 1) 0)).drop (m.indptr.getD i 0)).map fun p => if p.2 = j then p.1 else 0).sum

/-- the entries of a row that are not zero (common/sparse.py:27) -/
def rowEntries (row : List Int) : List (Int × Nat) := row.zipIdx.filter fun p => p.1 ≠ 0

/-- where the rows start (common/sparse.py:27) -/
def starts (n : Nat) : List (List Int) → List Nat
  | [] => [n]
  | r :: rs => n :: starts (n + (rowEntries r).length) rs

/-- `sps.csr_matrix(data)` of two dimensions (common/sparse.py:26-27) -/
def ofDense (cols : Nat) (a : List (List Int)) : Csr :=
  ⟨(a.flatMap rowEntries).map (·.1), (a.flatMap rowEntries).map (·.2), starts 0 a, a.length, cols⟩

/-- `sps.csr_matrix((data, indices, indptr), shape=shape)` (common/sparse.py:36) -/
def ofParts (data : List Int) (indices indptr : List Nat) (rows cols : Nat) : Except Err Csr :=
  if indptr.length ≠ rows + 1 then .error .valueError
  else if indptr.getD 0 0 ≠ 0 then .error .valueError
  else if indices.length ≠ data.length then .error .valueError
  else if indptr.getLastD 0 > indices.length then .error .valueError
  else .ok ⟨data.take (indptr.getLastD 0), indices.take (indptr.getLastD 0), indptr, rows, cols⟩

/-- the argument `data` (common/sparse.py:10-13) -/
inductive Input where
  | mat (m : Csr)
  | dense (cols : Nat) (a : List (List Int))
  | vec (l : List Int)
  | cube

/-- `__check_arr` (common/sparse.py:41-48) -/
def checkArr (a : Arr) : Except Err (List Nat) := match toUint a with
  | .error e => .error e
  | .ok u => .ok (u.vals.map Int.toNat)

/-- `CSRMatrix(data, indices, indptr, shape)` (common/sparse.py:19-39) -/
def new (data : Input) (indices indptr shape : Option Arr) : Except Err Csr := match data with
  | .mat m => .ok m
  | .dense cols a => .ok (ofDense cols a)
  | .cube => .error .valueError
  | .vec l => match indptr, indices, shape with
    | some p, some i, some s => match checkArr p with
      | .error e => .error e
      | .ok p => match checkArr i with
        | .error e => .error e
        | .ok i => match checkArr s with
          | .error e => .error e
          | .ok [r, c] => ofParts l i p r c
          | .ok _ => .error .valueError
    | _, _, _ => .error .valueError

/-- the attributes `indices`, `indptr`, `shape` of a matrix: SciPy keeps signed numbers (common/sparse.py:50-55) -/
def exposed (bits : Nat) (l : List Nat) : Except Err Arr := toUint ⟨.int bits, l.map Int.ofNat⟩

/-- write the attributes and create a matrix from what is read (common/sparse.py:19-39, 50-55) -/
def reread (bits : Nat) (m : Csr) : Except Err Csr := match exposed bits m.indices, exposed bits m.indptr, exposed 64 [m.rows, m.cols] with
  | .ok i, .ok p, .ok s => new (.vec m.data) (some i) (some p) (some s)
  | _, _, _ => .error .valueError

end Verif.Sparse

import Verif.Base.Py

/-!
# Processors of chunks

Model of `DataChunkProcessor` and `NumSampleCounter` (monitor.py:11-74).

Simplifications.
* The wrapped `DataChunkIterator` is the list of the chunks that are left; it is its own iterator (data_utils.py:583-585).
* A chunk is its number of values, `len(chunk)` (data_utils.py:767-772).
-/

namespace Verif.Monitor
open Verif

/-- the abstract methods and properties of `AbstractDataChunkIterator` (data_utils.py:83-146) -/
def abstractNames : List String := ["__iter__", "__next__", "recommended_chunk_shape", "recommended_data_shape", "dtype", "maxshape"]

/-- what `DataChunkProcessor` defines (monitor.py:19-44) -/
def processorNames : List String := ["__init__", "__next__", "__iter__", "recommended_chunk_shape", "recommended_data_shape", "get_final_result"]

/-- what `DataChunkProcessor` leaves abstract (monitor.py:46-59) -/
def processorAbstract : List String := ["process_data_chunk", "compute_final_result"]

/-- what `NumSampleCounter` defines (monitor.py:62-74) -/
def counterNames : List String := ["__init__", "process_data_chunk", "compute_final_result"]

/-- a processor: the chunks that are left in the wrapped iterator, the attribute `__done` if it is there, the count (monitor.py:13-17, 24, 66) -/
structure Proc where
  left : List Nat
  done : Option Bool
  count : Nat
  deriving DecidableEq, Repr

/-- create an object of a class that defines `names` and derives from `NumSampleCounter`: an abstract class cannot be instantiated, and `__done` is not set
(monitor.py:11-17, 62-66) -/
def new (names : List String) (chunks : List Nat) : Except Err Proc :=
  if (abstractNames ++ processorAbstract).all fun a => (names ++ counterNames ++ processorNames).contains a then .ok ⟨chunks, none, 0⟩ else .error .typeError

/-- `process_data_chunk` of the counter (monitor.py:68-71) -/
def process (p : Proc) (n : Nat) : Proc := { p with count := p.count + n }

/-- `__next__` (monitor.py:19-26) -/
def next (p : Proc) : Proc × Except Err Nat := match p.left with
  | [] => ({ p with done := some true }, .error .stopIteration)
  | c :: cs => (process { p with left := cs } c, .ok c)

/-- the first `n` steps of `for chunk in processor`: `__iter__` gives the wrapped iterator (monitor.py:28-29) -/
def forLoop (p : Proc) (n : Nat) : Proc × List Nat := ({ p with left := p.left.drop n }, p.left.take n)

/-- `get_final_result`: `NotYetExhausted` is `.runtimeError` here; without the attribute `__done` an AttributeError (monitor.py:37-41, 73-74) -/
def final (p : Proc) : Except Err Nat := match p.done with
  | none => .error .attributeError
  | some false => .error .runtimeError
  | some true => .ok p.count

/-- an operation on a processor (monitor.py:19-41) -/
inductive Op where
  | next
  | forLoop (n : Nat)
  | final

/-- one operation (monitor.py:19-41) -/
def step (p : Proc) : Op → Proc
  | .next => (next p).1
  | .forLoop n => (forLoop p n).1
  | .final => p

/-- a sequence of operations (monitor.py:19-41) -/
def run (p : Proc) (ops : List Op) : Proc := ops.foldl step p

end Verif.Monitor

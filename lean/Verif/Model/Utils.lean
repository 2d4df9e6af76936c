import Verif.Model.Docval

/-!
# Model of small helpers in utils.py

`getargs` 764-789, `popargs` 792-818, `popargs_to_dict` 821-839, `fmt_docval_args` 431-458, `call_docval_func` 483-503,
`get_data_shape` 886-925 on nested lists, `is_ragged` 957-968.
-/

namespace Verif.Utils
open Verif Verif.Docval

variable {α : Type}

/-- the loop of utils.py:784-788 -/
def getLoop (d : Dict String α) : List String → Except Err (List α)
  | [] => .ok []
  | n :: ns => match Dict.get? d n with
    | none => .error .valueError
    | some v => (getLoop d ns).map (v :: ·)

/-- utils.py:764-789 `getargs(*names, d)`.  The single-name form returns the bare value instead of a list; here always a
list.  The dict is not touched. -/
def getargs (names : List String) (d : Dict String α) : Except Err (List α) :=
  match names with
  | [] => .error .valueError          -- "Must supply at least one key and a dict"
  | n :: ns => getLoop d (n :: ns)

/-- the comprehension `[kwargs.pop(arg) for arg in names]`: the dict as left behind, and the values or the KeyError
(utils.py:792-818) -/
def popLoop : List String → Dict String α → Dict String α × Except Err (List α)
  | [], d => (d, .ok [])
  | n :: ns, d =>
    match Dict.get? d n with
    | none => (d, .error .valueError)
    | some v =>
      let r := popLoop ns (d.del n)
      (r.1, r.2.map (v :: ·))

/-- utils.py:792-818 `popargs(*names, d)`: the dict left behind and the result. -/
def popargs (names : List String) (d : Dict String α) : Dict String α × Except Err (List α) :=
  match names with
  | [] => (d, .error .valueError)
  | names => popLoop names d

/-- utils.py:821-839 `popargs_to_dict(keys, d)`. -/
def popargsToDict (keys : List String) (d : Dict String α) : Dict String α × Except Err (Dict String α) :=
  let rec go : List String → Dict String α → Dict String α → Dict String α × Except Err (Dict String α)
    | [], d, ret => (d, .ok ret)
    | k :: ks, d, ret =>
      match Dict.get? d k with
      | none => (d, .error .valueError)
      | some v => go ks (d.del k) (ret.set k v)
  go keys d []

/-! ### forwarding keyword arguments -/

/-- loop of utils.py:445-452: `(ret_args, ret_kwargs, kwargs_copy)` -/
def fmtLoop : List Param → Dict String Val → List Val × Dict String Val × Dict String Val
  | [], kw => ([], [], kw)
  | p :: ps, kw =>
    let val := (Dict.get? kw p.name).getD .none          -- `kwargs_copy.pop(name, None)`
    let r := fmtLoop ps (kw.del p.name)
    match p.default with
    | some _ => if val ≠ .none then (r.1, (p.name, val) :: r.2.1, r.2.2) else r
    | none => (val :: r.1, r.2.1, r.2.2)

/-- utils.py:431-458 `fmt_docval_args(func, kwargs)` for a function with docval signature `sig` (already reordered). -/
def fmtDocvalArgs (allowExtra : Bool) (sig : List Param) (kw : Dict String Val) : List Val × Dict String Val :=
  let r := fmtLoop sig kw
  (r.1, if allowExtra then r.2.2.foldl (fun d kv => d.set kv.1 kv.2) r.2.1 else r.2.1)

/-- utils.py:483-503 `call_docval_func(func, kwargs)`. -/
def callDocvalFunc (cfg : Cfg) (sig : List Param) (kw : Dict String Val) : Except Err (Dict String Val) :=
  let r := fmtDocvalArgs cfg.allowExtra (reorder sig) kw
  call cfg sig r.1 r.2

/-! ### nested lists -/

/-- Nested Python lists with scalar leaves. (utils.py:886-925, 957-968) -/
inductive Nest where
  | leaf
  | list (xs : List Nest)

/-- `len(sub_data) if isinstance(sub_data, (list, tuple)) else 1` (utils.py:962) -/
def Nest.lenOr1 : Nest → Nat
  | .leaf => 1
  | .list xs => xs.length

/-- `len(set(lengths)) > 1` (utils.py:957-968) -/
def manyLengths (ls : List Nat) : Bool :=
  match ls with
  | [] => false
  | l :: ls => ls.any (· ≠ l)

mutual
/-- utils.py:957-968 `is_ragged` -/
def isRagged : Nest → Bool
  | .leaf => false
  | .list xs => if manyLengths (xs.map Nest.lenOr1) then true else anyRagged xs
/-- `any(is_ragged(sub_data) for sub_data in data)` (utils.py:957-968) -/
def anyRagged : List Nest → Bool
  | [] => false
  | x :: xs => isRagged x || anyRagged xs
end

/-- utils.py:905-913 `__get_shape_helper`, on nested lists: follows the first element at every level. -/
def getShape : Nest → List Nat
  | .leaf => []
  | .list [] => [0]
  | .list (x :: xs) => (xs.length + 1) :: getShape x

end Verif.Utils

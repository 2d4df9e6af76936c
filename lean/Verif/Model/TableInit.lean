import Verif.Base.Py

/-!
# Model of the constructor of `DynamicTable` from column objects (common/table.py:321-499)

A column is an object with an identity, a name and a length; columns whose data are a `DataChunkIterator` have no known length.  Not modelled
here: columns given as dicts (common/table.py:584-632), the predefined columns of a class (common/table.py:512-547), target tables
(common/table.py:549-582), the check of the types of the columns.
-/

namespace Verif.TableInit
open Verif

/-- a `VectorData` (or `DynamicTableRegion`), a `VectorIndex` with its target, an `EnumData` with its elements; `len = none`: the data are an
iterator (common/table.py:23-47, 84-112, 1558-1584) -/
inductive Obj where
  | data (id : Nat) (name : String) (len : Option Nat)
  | index (id : Nat) (name : String) (len : Option Nat) (target : Obj)
  | enum (id : Nat) (name : String) (len : Option Nat) (elements : Obj)
  deriving DecidableEq

/-- the name of a column (common/table.py:347) -/
def Obj.name : Obj → String
  | .data _ n _ => n
  | .index _ n _ _ => n
  | .enum _ n _ _ => n

/-- `len(c)`, unless the data are an iterator (common/table.py:370-376) -/
def Obj.len : Obj → Option Nat
  | .data _ _ l => l
  | .index _ _ l _ => l
  | .enum _ _ l _ => l

/-- `isinstance(c, VectorIndex)` (common/table.py:351) -/
def Obj.isIndex : Obj → Bool
  | .index _ _ _ _ => true
  | _ => false

/-- the index and the indices it leads through (common/table.py:433-440) -/
def Obj.chain : Obj → List Obj
  | .index i n l t => .index i n l t :: t.chain
  | _ => []

/-- the column at the end of the chain of indices (common/table.py:433-440, 469-480) -/
def Obj.base : Obj → Obj
  | .index _ _ _ t => t.base
  | c => c

/-- `[c.target.name for c in columns if isinstance(c, VectorIndex)]` (common/table.py:351) -/
def targets : List Obj → List String
  | [] => []
  | .index _ _ _ t :: cs => t.name :: targets cs
  | _ :: cs => targets cs

/-- the columns whose length counts: those without an index, that are not the elements of an `EnumData`, and no iterators
(common/table.py:361-375) -/
def popLoop : List Obj → Dict String Obj → Except Err (Dict String Obj)
  | [], d => .ok d
  | .index _ n l t :: cs, d =>
    if Dict.has d t.name then popLoop cs (if l = none then Dict.del (Dict.del d t.name) n else Dict.del d t.name)
    else .error .valueError
  | .enum _ n l e :: cs, d => popLoop cs (if l = none then Dict.del (Dict.del d e.name) n else Dict.del d e.name)
  | .data _ n l :: cs, d => popLoop cs (if l = none then Dict.del d n else d)

/-- `[len(c) for c in colset.values()]`; a column without a length has been popped (common/table.py:376) -/
def lengths (d : Dict String Obj) : List Nat := (Dict.values d).map (fun c => c.len.getD 0)

/-- `range(n)` as ids (common/table.py:393-394) -/
def newIds (n : Nat) : List Int := (List.range n).map Int.ofNat

/-- the ids for columns of the given lengths (common/table.py:376-394) -/
def checkIds (ids : Option (List Int)) (lens : List Nat) : Except Err (List Int) := match lens, ids with
  | [], none => .error .valueError
  | [], some is => .ok is
  | n :: ns, is =>
    if ns.all (fun i => decide (i = n)) then
      if n ≠ (is.getD []).length then
        if is.isSome ∧ 0 < (is.getD []).length then .error .valueError else .ok ((is.getD []) ++ newIds n)
      else .ok (is.getD [])
    else .error .valueError

/-- the ids of the table (common/table.py:331-396) -/
def makeIds (ids : Option (List Int)) : Option (List Obj) → Except Err (List Int)
  | none => .ok (ids.getD [])
  | some [] => .ok (ids.getD [])
  | some (c :: cs) =>
    if ((c :: cs).map Obj.name).Nodup then
      if (targets (c :: cs)).Nodup then
        match popLoop (c :: cs) ((c :: cs).map (fun c => (c.name, c))) with
        | .error e => .error e
        | .ok d => checkIds ids (lengths d)
      else .error .valueError
    else .error .valueError

/-- the names of the columns if none are given (common/table.py:406-418) -/
def nameLoop : List Obj → List String → List String → List String
  | [], _, tmp => tmp
  | c :: cs, skip, tmp =>
    if c.name ∈ skip then nameLoop cs skip tmp
    else match c with
      | .index _ _ _ _ => nameLoop cs skip tmp
      | .enum _ n _ e =>
        nameLoop cs (e.name :: skip) (if n ∈ tmp.filter (fun x => decide (x ≠ e.name)) then tmp.filter (fun x => decide (x ≠ e.name))
          else tmp.filter (fun x => decide (x ≠ e.name)) ++ [n])
      | .data _ n _ => nameLoop cs skip (if n ∈ tmp then tmp else tmp ++ [n])

/-- the indices of each column and the columns by name, to put them in the order of the names (common/table.py:427-451) -/
def orderLoop : List Obj → Dict String (List Obj) × Dict String Obj → Dict String (List Obj) × Dict String Obj
  | [], s => s
  | .index i n l t :: cs, s =>
    if (Obj.chain (.index i n l t)).length > ((Dict.get? s.1 t.base.name).getD []).length then
      orderLoop cs (Dict.set s.1 t.base.name (Obj.chain (.index i n l t)), s.2)
    else orderLoop cs s
  | .enum i n l e :: cs, s =>
    if Dict.has s.1 n then orderLoop cs s
    else orderLoop cs (Dict.set s.1 n [.enum i n l e], Dict.set s.2 n e)
  | .data _ n _ :: cs, s => if Dict.has s.1 n then orderLoop cs s else orderLoop cs (Dict.set s.1 n [], s.2)

/-- `indices[name]` and `col_dict[name]` for each name (common/table.py:452-457) -/
def pick (s : Dict String (List Obj) × Dict String Obj) : List String → Except Err (List Obj)
  | [] => .ok []
  | n :: ns => match Dict.get? s.1 n, Dict.get? s.2 n with
    | some is, some c => match pick s ns with
      | .ok cs => .ok (is ++ c :: cs)
      | .error e => .error e
    | _, _ => .error .keyError

/-- `colnames` and `columns` of the table (common/table.py:398-457) -/
def arrange (columns : Option (List Obj)) (colnames : List String) : Except Err (List String × List Obj) :=
  if colnames = [] then match columns with
    | none => .ok ([], [])
    | some cs => .ok (nameLoop cs [] [], cs)
  else match columns with
    | none => .error .valueError
    | some cs => match pick (orderLoop cs ([], cs.map (fun c => (c.name, c)))) colnames with
      | .ok cs' => .ok (colnames, cs')
      | .error e => .error e

/-- the attributes set on the table, `__indices` and the columns by name (common/table.py:459-462) -/
structure Attached where
  attrs : Dict String Obj
  indices : Dict String Obj
  cols : Dict String Obj

/-- `hasattr(self, name)`: an attribute of the class, or one set for a column (common/table.py:476, 501-508) -/
def Attached.hasAttr (reserved : List String) (s : Attached) (n : String) : Bool := decide (n ∈ reserved) || Dict.has s.attrs n

/-- common/table.py:501-508 `__set_table_attr`: a warning instead if there is such an attribute -/
def setAttr (reserved : List String) (s : Attached) (c : Obj) : Attached :=
  if s.hasAttr reserved c.name then s else { s with attrs := Dict.set s.attrs c.name c }

/-- the loop through the nested indices: the index found is the outermost one (common/table.py:470-477) -/
def nested (reserved : List String) (col : Obj) : List Obj → Attached → Attached
  | [], s => s
  | c :: cs, s => nested reserved col cs
      (if s.hasAttr reserved c.name then s
       else { setAttr reserved s c with indices := Dict.set (setAttr reserved s c).indices c.name col })

/-- one column (common/table.py:462-489) -/
def attachOne (reserved : List String) (s : Attached) : Obj → Attached
  | .index i n l t =>
    if Dict.has s.indices n then s
    else
      let s1 := nested reserved (.index i n l t) t.chain (setAttr reserved { s with indices := Dict.set s.indices n (.index i n l t) } (.index i n l t))
      setAttr reserved { s1 with cols := Dict.set s1.cols t.base.name (.index i n l t) } t.base
  | c => if Dict.has s.cols c.name then s else setAttr reserved { s with cols := Dict.set s.cols c.name c } c

/-- common/table.py:459-489 -/
def attach (reserved : List String) (cs : List Obj) : Attached := cs.foldl (attachOne reserved) ⟨[], [], []⟩

/-- the table: `id.data`, `colnames`, `columns`, `__df_cols` without the ids, `__indices`, the attributes (common/table.py:396-494) -/
structure Table where
  ids : List Int
  colnames : List String
  columns : List Obj
  dfCols : List Obj
  indices : Dict String Obj
  attrs : Dict String Obj

/-- `[col_dict[name] for name in self.colnames]` (common/table.py:491) -/
def lookupAll (d : Dict String Obj) : List String → Except Err (List Obj)
  | [] => .ok []
  | n :: ns => match Dict.get? d n with
    | none => .error .keyError
    | some c => match lookupAll d ns with
      | .ok cs => .ok (c :: cs)
      | .error e => .error e

/-- common/table.py:321-499 `__init__` -/
def init (reserved : List String) (ids : Option (List Int)) (columns : Option (List Obj)) (colnames : List String) : Except Err Table :=
  match makeIds ids columns with
  | .error e => .error e
  | .ok is => match arrange columns colnames with
    | .error e => .error e
    | .ok (names, cs) => match lookupAll (attach reserved cs).cols names with
      | .error e => .error e
      | .ok dfs => .ok ⟨is, names, cs, dfs, (attach reserved cs).indices, (attach reserved cs).attrs⟩

/-- the last column of a name: `self.__df_cols[self.__colids[name]]` (common/table.py:494, 1018-1019) -/
def byName (n : String) : List String → List Obj → Option Obj
  | m :: ms, c :: cs => match byName n ms cs with
    | some d => some d
    | none => if m = n then some c else none
  | _, _ => none

/-- common/table.py:966-1024 `table[name]` for a name other than `id`; `none`: KeyError -/
def Table.get (t : Table) (n : String) : Option Obj := match byName n t.colnames t.dfCols with
  | some c => some c
  | none => Dict.get? t.indices n

/-- common/table.py:1337-1345 `copy` -/
def Table.copy (reserved : List String) (t : Table) : Except Err Table := init reserved (some t.ids) (some t.columns) t.colnames

end Verif.TableInit

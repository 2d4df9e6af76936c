import Verif.Base.Py

/-!
# Model of `H5DataIO` and of the datasets that are made from it

`DataIO` (data_utils.py), `H5DataIO` (backends/hdf5/h5_utils.py), and what `write_dataset` asks `h5py` for (backends/hdf5/h5tools.py).  Values in arrays, datasets of
references and of compound types are not modelled; dtypes are names.
-/

namespace Verif.DataIO
open Verif

/-- the data that can be wrapped: an array or a list; an `h5py.Dataset`; an iterator over chunks with what it recommends
(data_utils.py:1003-1014, 107-165) -/
inductive Data where
  | mem (shape : List Nat) (dtype : String)
  | dset (id : Nat) (isOpen : Bool)
  | iter (chunks : Option (List Nat)) (maxshape : List (Option Nat)) (shape : List Nat) (dtype : String)
  deriving DecidableEq

/-- `chunks`: a flag or a shape (backends/hdf5/h5_utils.py:461-464) -/
inductive Chunks where
  | flag (b : Bool)
  | shape (s : List Nat)
  deriving DecidableEq

/-- `compression`: a flag, a name or the number of a filter (backends/hdf5/h5_utils.py:465-469) -/
inductive Comp where
  | flag (b : Bool)
  | name (s : String)
  | id (n : Int)
  deriving DecidableEq

/-- what is in a tuple of options (backends/hdf5/h5_utils.py:470-473) -/
inductive Item where
  | int (n : Int)
  | str (s : String)
  deriving DecidableEq

/-- `compression_opts` (backends/hdf5/h5_utils.py:470-473) -/
inductive Opts where
  | int (n : Int)
  | tup (l : List Item)
  deriving DecidableEq

/-- the dict `io_settings`: a key is there if it is not `none`; `dtype` may be there and be `None` (backends/hdf5/h5_utils.py:521-525, backends/hdf5/h5tools.py:1382-1390) -/
structure Settings where
  maxshape : Option (List (Option Nat))
  chunks : Option Chunks
  compression : Option Comp
  opts : Option Opts
  fillvalue : Option Int
  shuffle : Option Bool
  fletcher32 : Option Bool
  shape : Option (List Nat)
  dtype : Option (Option String)
  deriving DecidableEq

/-- the argument `dtype`: a string, or a type or `np.dtype` (backends/hdf5/h5_utils.py:499-503) -/
inductive DtArg where
  | str (s : String)
  | ty (s : String)
  deriving DecidableEq

/-- the arguments of `H5DataIO` (backends/hdf5/h5_utils.py:451-504) -/
structure Args where
  data : Option Data
  maxshape : Option (List (Option Nat))
  chunks : Option Chunks
  compression : Option Comp
  opts : Option Opts
  fillvalue : Option Int
  shuffle : Option Bool
  fletcher32 : Option Bool
  link : Bool
  plugins : Bool
  shape : Option (List Nat)
  dtype : Option DtArg
  deriving DecidableEq

/-- an `H5DataIO`: `data`, the `dtype` and `shape` of `DataIO`, `io_settings`, `link_data`, and the dataset that was made for it, if there is one
(data_utils.py:1028-1030, backends/hdf5/h5_utils.py:505-562) -/
structure Wrapper where
  data : Option Data
  dtype : Option String
  shape : Option (List Nat)
  settings : Settings
  link : Bool
  dataset : Option Nat
  deriving DecidableEq

/-- the filters: the names `h5py` can encode, and the numbers of filters that can be loaded (backends/hdf5/h5_utils.py:630-655) -/
structure Filters where
  encode : List String
  plugin : Int → Bool

/-- `DataIO.__init__` (data_utils.py:1016-1030): `dtype` and `shape` as they are kept.  A string is no `dtype` here -/
def dataInit (data : Option Data) (dtype : Option DtArg) (shape : Option (List Nat)) : Except Err (Option String × Option (List Nat)) := match dtype with
  | some (.str _) => .error .typeError
  | _ =>
    let dt := match dtype with
      | some (.ty s) => some s
      | _ => none
    match data with
    | some _ => .ok (none, none)
    | none => if dt.isNone != shape.isNone then .error .valueError else .ok (dt, shape)

/-- the properties `dtype` and `shape` of a `DataIO` without data: `self.__shape or self.__getattr__("shape")`.  `InvalidDataIOError` is `runtimeError`; an empty tuple
counts as nothing (data_utils.py:1052-1060, 1105-1112) -/
def propOr (dtype : Option String) (shape : Option (List Nat)) : Except Err (String × List Nat) := match dtype, shape with
  | none, _ => .error .runtimeError
  | _, none => .error .runtimeError
  | some _, some [] => .error .runtimeError
  | some d, some (n :: s) => .ok (d, n :: s)

/-- the settings: those given, those of `dtype` and `shape` if there are no data, those of an iterator (backends/hdf5/h5_utils.py:521-533) -/
def baseSettings (a : Args) (dt : Option (String × List Nat)) : Settings :=
  let st : Settings := ⟨a.maxshape, a.chunks, a.compression, a.opts, a.fillvalue, a.shuffle, a.fletcher32, dt.map (·.2), dt.map (fun x => some x.1)⟩
  match a.data with
  | some (.iter ch mx _ _) =>
    ⟨match st.maxshape with
      | none => some mx
      | some m => some m,
     match st.chunks with
      | none => ch.map Chunks.shape
      | some c => some c,
     st.compression, st.opts, st.fillvalue, st.shuffle, st.fletcher32, st.shape, st.dtype⟩
  | _ => st

/-- `compression` given as a flag (backends/hdf5/h5_utils.py:535-543) -/
def compSettings (st : Settings) : Settings := match st.compression with
  | some (.flag true) => ⟨st.maxshape, st.chunks, some (.name "gzip"), st.opts, st.fillvalue, st.shuffle, st.fletcher32, st.shape, st.dtype⟩
  | some (.flag false) => ⟨st.maxshape, st.chunks, none, none, st.fillvalue, st.shuffle, st.fletcher32, st.shape, st.dtype⟩
  | _ => st

/-- the options of SZIP: the method and the number of pixels; a string is compared with a number: TypeError (backends/hdf5/h5_utils.py:613-627) -/
def checkSzip : Opts → Except Err Unit
  | .int _ => .error .valueError
  | .tup [m, .int n] => if (m = .str "ec" ∨ m = .str "nn") ∧ 0 < n ∧ n ≤ 32 ∧ n % 2 = 0 then .ok () else .error .valueError
  | .tup [_, .str _] => .error .typeError
  | .tup _ => .error .valueError

/-- `_check_compression_options` (backends/hdf5/h5_utils.py:594-633), without the warning -/
def checkOpts (st : Settings) : Except Err Unit := match st.compression, st.opts with
  | some (.name "gzip"), some (.int n) => if 0 ≤ n ∧ n < 10 then .ok () else .error .valueError
  | some (.name "gzip"), some (.tup _) => .error .valueError
  | some (.name "lzf"), some _ => .error .valueError
  | some (.name "szip"), some o => checkSzip o
  | _, _ => .ok ()

/-- `filter_available` (backends/hdf5/h5_utils.py:635-657) -/
def available (fs : Filters) (plugins : Bool) : Option Comp → Bool
  | none => true
  | some (.flag _) => false
  | some (.name s) => fs.encode.contains s
  | some (.id n) => plugins && fs.plugin n

/-- the end of `H5DataIO.__init__`: the options are checked, and there must be such a filter (backends/hdf5/h5_utils.py:544-562) -/
def finish (fs : Filters) (a : Args) (st : Settings) (w : Wrapper) : Except Err Wrapper := match checkOpts st with
  | .error e => .error e
  | .ok () => if available fs a.plugins st.compression then .ok w else .error .valueError

/-- `H5DataIO.__init__` (backends/hdf5/h5_utils.py:505-562), without the warnings -/
def new (fs : Filters) (a : Args) : Except Err Wrapper :=
  let link := a.link && (match a.data with
    | some (.dset _ _) => true
    | _ => false)
  match dataInit a.data a.dtype a.shape with
  | .error e => .error e
  | .ok (dt, sh) => match (match a.data with
      | none => (propOr dt sh).map some
      | some _ => Except.ok none) with
    | .error e => .error e
    | .ok p => finish fs a (compSettings (baseSettings a p)) ⟨a.data, dt, sh, compSettings (baseSettings a p), link, none⟩

/-- `get_io_params`, with other data: the arguments from which the mapper makes a wrapper for the data it has converted (backends/hdf5/h5_utils.py:585-592,
build/objectmapper.py:636-640, 987-989); `allow_plugin_filters` is not among them -/
def paramsWith (w : Wrapper) (d : Data) : Args :=
  ⟨some d, w.settings.maxshape, w.settings.chunks, w.settings.compression, w.settings.opts, w.settings.fillvalue, w.settings.shuffle, w.settings.fletcher32, w.link, false,
    w.settings.shape, match w.settings.dtype with
      | some (some s) => some (.ty s)
      | _ => none⟩

/-- `valid` (data_utils.py:1146-1149, backends/hdf5/h5_utils.py:667-671) -/
def valid (w : Wrapper) : Bool := match w.data with
  | none => false
  | some (.dset _ o) => o
  | some _ => true

/-- the `data` of a copy: `copy.copy` and `copy.deepcopy` give a `DataIO`, which has no settings, no `dtype` and no `shape` (data_utils.py:1062-1072, 1080-1093) -/
def copyOf (w : Wrapper) : Option Data := w.data

/-! ## Writing -/

/-- what a builder has for data: a wrapper, or something else (a `DataIO` counts as what it wraps; backends/hdf5/h5tools.py:1122-1132) -/
inductive Source where
  | wrapper (w : Wrapper)
  | plain (d : Option Data)
  deriving DecidableEq

/-- a dataset as `create_dataset` is asked for it (backends/hdf5/h5tools.py:1391, 1422, 1487) -/
structure Request where
  shape : List Nat
  dtype : Option String
  maxshape : Option (List (Option Nat))
  chunks : Option Chunks
  compression : Option Comp
  opts : Option Opts
  fillvalue : Option Int
  shuffle : Option Bool
  fletcher32 : Option Bool
  deriving DecidableEq

/-- what there is in the file: a link to a dataset, a copy of one, or a new one (backends/hdf5/h5tools.py:1138-1199, 1305-1330) -/
inductive Out where
  | link (id : Nat)
  | copy (id : Nat)
  | made (r : Request)
  deriving DecidableEq

/-- the request made of a shape, a dtype and settings (backends/hdf5/h5tools.py:1391, 1422, 1487) -/
def request (shape : List Nat) (dtype : Option String) (st : Settings) : Request :=
  ⟨shape, dtype, st.maxshape, st.chunks, st.compression, st.opts, st.fillvalue, st.shuffle, st.fletcher32⟩

/-- `__setup_chunked_dset__`: the settings, which it changes in place (backends/hdf5/h5tools.py:1371-1390).  `options['dtype']` is always there, so the dtype of the iterator is
not used -/
def chunkedSettings (st : Settings) (ch : Option (List Nat)) (mx : List (Option Nat)) (sh : List Nat) (builderDtype : Option String) : Settings :=
  ⟨match st.maxshape with
    | none => some mx
    | some m => some m,
   match st.chunks with
    | none => some (match ch with
      | none => .flag true
      | some c => .shape c)
    | some c => some c,
   st.compression, st.opts, st.fillvalue, st.shuffle, st.fletcher32,
   match st.shape with
    | none => some sh
    | some s => some s,
   match st.dtype with
    | none => some builderDtype
    | some d => some d⟩

/-- `__list_fill__` takes `shape` out of the settings (backends/hdf5/h5tools.py:1476-1477) -/
def dropShape (st : Settings) : Settings := ⟨st.maxshape, st.chunks, st.compression, st.opts, st.fillvalue, st.shuffle, st.fletcher32, none, st.dtype⟩

/-- the first dimension after the data are written: the dataset is made longer if it is too short (backends/hdf5/h5tools.py:1492-1496) -/
def grown : List Nat → List Nat → List Nat
  | s :: ss, n :: _ => max s n :: ss
  | s, _ => s

/-- `write_dataset` for a dataset that has not been written: what is made and the wrapper afterwards.  `id`: the dataset that is made, `linkData`: the argument; the
wrapper decides if there is one.  If a dataset has been made for the wrapper before, the error comes when another one is there already, so the file is changed; here only the
error is given.  Data that are not wrapped have no settings, and `None` is an error (backends/hdf5/h5tools.py:1120-1343, 1395-1427) -/
def writeDataset (src : Source) (builderDtype : Option String) (linkData : Bool) (id : Nat) : Except Err (Out × Source) := match src with
  | .plain none => .error .valueError
  | .plain (some (.dset i _)) => .ok (if linkData then .link i else .copy i, src)
  | .plain (some (.mem sh dt)) => .ok (.made (request sh (some (builderDtype.getD dt)) ⟨none, none, none, none, none, none, none, none, none⟩), src)
  | .plain (some (.iter ch mx sh _)) =>
    let st := chunkedSettings ⟨none, none, none, none, none, none, none, none, none⟩ ch mx sh builderDtype
    .ok (.made (request (st.shape.getD []) (st.dtype.getD none) st), src)
  | .wrapper w => match w.data with
    | none => match w.settings.shape, w.settings.dtype with
      | some sh, some dt => match w.dataset with
        | some _ => .error .valueError
        | none => .ok (.made (request sh dt w.settings), .wrapper ⟨w.data, w.dtype, w.shape, w.settings, w.link, some id⟩)
      | _, _ => .error .valueError
    | some (.dset i _) => .ok (if w.link then .link i else .copy i, src)
    | some (.mem sh dt) => match w.settings.shape with
      | none => match w.settings.dtype with
        | none => .ok (.made (request sh (some (builderDtype.getD dt)) w.settings), src)
        | some _ => .error .typeError
      | some s => .ok (.made (request (grown s sh) (some (builderDtype.getD dt)) (dropShape w.settings)),
          .wrapper ⟨w.data, w.dtype, w.shape, dropShape w.settings, w.link, w.dataset⟩)
    | some (.iter ch mx sh _) =>
      let st := chunkedSettings w.settings ch mx sh builderDtype
      .ok (.made (request (st.shape.getD []) (st.dtype.getD none) st), .wrapper ⟨w.data, w.dtype, w.shape, st, w.link, w.dataset⟩)

/-- many writes of one source, each with the dtype of its builder and the number of the dataset (backends/hdf5/h5tools.py:1120-1343): the source afterwards -/
def writes (src : Source) : List (Option String × Nat) → Source
  | [] => src
  | (d, i) :: l => match writeDataset src d true i with
    | .error _ => writes src l
    | .ok (_, s) => writes s l

end Verif.DataIO

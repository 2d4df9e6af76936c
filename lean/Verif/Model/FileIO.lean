import Verif.Base.Py

/-!
# Model of reading, writing and exporting files

`HDMFIO` (backends/io.py) and the methods of `HDF5IO` around it (backends/hdf5/h5tools.py): modes, opening and closing, `read`, `write`, `export`, and
the record of builders that have been written (backends/utils.py).  What is in a file is a value of any type; how builders are made and written is given by
functions.  Links to other files, MPI, and files passed as objects are not modelled.
-/

namespace Verif.FileIO
open Verif

/-- the modes of a file (backends/hdf5/h5tools.py:51-56) -/
inductive Mode where
  | r
  | rp
  | w
  | wm
  | x
  | a
  deriving DecidableEq

/-- an `HDF5IO`: its source, its mode, whether the file is open, the path of the HERD file, and what was in the file when it was first read
(`__read`; backends/hdf5/h5tools.py:72-111, backends/io.py:28-47).  That the data of a dataset of that time are those of today is not modelled -/
structure IOObj (D : Type) where
  path : String
  mode : Mode
  isOpen : Bool
  herdPath : Option String
  seen : Option (Option D)
  deriving DecidableEq

/-- how builders are made and written.  `build c`: `BuildManager.build`; `rebuild c`: the same with `export=True`; `builderOf c`: the builder the manager has for
a container, as whether it has a parent; `put old b`: what a file has after `write_builder`, and the error if one is raised; `construct`: the container for
what is in a file; `addHerd`: `add_ref_container` to the HERD given or to a new one (backends/io.py:52-103, 143-173) -/
structure Env (D C H : Type) where
  build : C → Except Err D
  rebuild : C → Except Err D
  builderOf : C → Option Bool
  put : Option D → D → Option D × Option Err
  construct : D → C
  addHerd : Option H → C → H

/-- the files and the objects that read and write them.  The contents of a file are `none` if it has no values (backends/io.py:57-59) -/
structure St (D H : Type) where
  h5 : Dict String (Option D)
  zips : Dict String H
  ios : List (IOObj D)

/-- what an operation gives (backends/io.py:52-173) -/
inductive Res (C : Type) where
  | done
  | value (c : Option C)
  | failed (e : Err)
  deriving DecidableEq

/-- `h5py.File`, and the checks before it: the files afterwards.  A file that is open cannot be truncated: `OSError`, here `runtimeError`.  Other rules about
files that are open are not modelled (backends/hdf5/h5tools.py:87-93, 775-788) -/
def openFile {D : Type} (h5 : Dict String (Option D)) (busy : Bool) (path : String) : Mode → Except Err (Dict String (Option D))
  | .r => if Dict.has h5 path then .ok h5 else .error .unsupported
  | .rp => if Dict.has h5 path then .ok h5 else .error .unsupported
  | .w => if busy then .error .runtimeError else .ok (Dict.set h5 path none)
  | .wm => if Dict.has h5 path then .error .unsupported else .ok (Dict.set h5 path none)
  | .x => if Dict.has h5 path then .error .unsupported else .ok (Dict.set h5 path none)
  | .a => if Dict.has h5 path then .ok h5 else .ok (Dict.set h5 path none)

/-- whether an object has the file open (backends/hdf5/h5tools.py:775-788) -/
def busy {D H : Type} (s : St D H) (path : String) : Bool := s.ios.any (fun io => io.isOpen && decide (io.path = path))

/-- `HDF5IO(path, mode, herd_path=...)` (backends/hdf5/h5tools.py:72-111) -/
def create {D C H : Type} (s : St D H) (path : String) (mode : Mode) (herdPath : Option String) : St D H × Res C :=
  match openFile s.h5 (busy s path) path mode with
  | .error e => (s, .failed e)
  | .ok h5 => (⟨h5, s.zips, s.ios ++ [⟨path, mode, true, herdPath, none⟩]⟩, .done)

/-- the builder kept from an earlier call, or one for what is in the file; `none` for a file without values (backends/hdf5/h5tools.py:517-526) -/
def contents {D H : Type} (s : St D H) (io : IOObj D) : Option D := io.seen.getD ((Dict.get? s.h5 io.path).getD none)

/-- `read_builder` (backends/hdf5/h5tools.py:505-526): what it gives; see `remember` for what it keeps -/
def readBuilder {D H : Type} (s : St D H) (io : IOObj D) : Except Err (Option D) :=
  if io.isOpen then .ok (contents s io) else .error .unsupported

/-- `read_builder`: what it keeps (backends/hdf5/h5tools.py:515-526) -/
def remember {D H : Type} (s : St D H) (i : Nat) : St D H := match s.ios[i]? with
  | none => s
  | some io => if io.isOpen then ⟨s.h5, s.zips, s.ios.set i ⟨io.path, io.mode, io.isOpen, io.herdPath, some (contents s io)⟩⟩ else s

/-- `HDMFIO.read` (backends/io.py:52-74); the flag tells that the message is the one about values -/
def readBase {D C H : Type} (env : Env D C H) (s : St D H) (io : IOObj D) : Except (Err × Bool) C :=
  match readBuilder s io with
  | .error e => .error (e, false)
  | .ok none => .error (.unsupported, true)
  | .ok (some d) => .ok (env.construct d)

/-- `HDF5IO.read` (backends/hdf5/h5tools.py:493-503): an `UnsupportedOperation` with another message is dropped and nothing is returned -/
def read {D C H : Type} (env : Env D C H) (s : St D H) (io : IOObj D) : Except Err (Option C) :=
  if io.mode = .w ∨ io.mode = .wm ∨ io.mode = .x then .error .unsupported
  else match readBase env s io with
    | .ok c => .ok (some c)
    | .error (.unsupported, true) => .error .unsupported
    | .error (.unsupported, false) => .ok none
    | .error (e, _) => .error e

/-- `write_builder` (backends/hdf5/h5tools.py:838-852); a file that is closed gives a `ValueError` of h5py -/
def writeBuilder {D C H : Type} (env : Env D C H) (s : St D H) (io : IOObj D) (b : D) : St D H × Res C :=
  if io.isOpen then
    let (d, e) := env.put ((Dict.get? s.h5 io.path).getD none) b
    (⟨Dict.set s.h5 io.path d, s.zips, s.ios⟩, match e with
      | none => .done
      | some e => .failed e)
  else (s, .failed .valueError)

/-- the HERD is written if there is a path for it (backends/io.py:84-95) -/
def writeHerd {D C H : Type} (env : Env D C H) (s : St D H) (io : IOObj D) (c : C) (herd : Option H) : St D H := match io.herdPath with
  | none => s
  | some p => ⟨s.h5, Dict.set s.zips p (env.addHerd herd c), s.ios⟩

/-- `HDF5IO.write` (backends/hdf5/h5tools.py:385-397, backends/io.py:80-99); the specifications cached in the file are in the model of `SpecCache` -/
def write {D C H : Type} (env : Env D C H) (s : St D H) (io : IOObj D) (c : C) (herd : Option H) : St D H × Res C :=
  if io.mode = .r then (s, .failed .unsupported)
  else match env.build c with
    | .error e => (writeHerd env s io c herd, .failed e)
    | .ok b => writeBuilder env (writeHerd env s io c herd) io b

/-- the builder that is exported (backends/io.py:143-172).  `clear`: all builders are dropped first, `clear_cache`, which makes no difference for what is
built here -/
def exportBuilder {D C H : Type} (env : Env D C H) (s : St D H) (src : IOObj D) (container : Option C) (clear : Bool) : Except Err (Option D) :=
  match (match container with
    | some c => Except.ok (some c)
    | none => if clear then read env s src else Except.ok none) with
  | .error e => .error e
  | .ok none => readBuilder s src
  | .ok (some c) => match env.builderOf c with
    | none => .error .valueError
    | some true => .error .valueError
    | some false => match env.rebuild c with
      | .error e => .error e
      | .ok d => .ok (some d)

/-- what the source keeps when it is read for an export (backends/io.py:143-145, 172, backends/hdf5/h5tools.py:493-526) -/
def exportRemember {D C H : Type} (s : St D H) (j : Nat) (src : IOObj D) (container : Option C) (clear : Bool) : St D H := match container with
  | some _ => s
  | none => if clear && (decide (src.mode = .w) || decide (src.mode = .wm) || decide (src.mode = .x)) then s else remember s j

/-- `HDF5IO.export` (backends/hdf5/h5tools.py:436-475, backends/io.py:141-173); `hdf5`: whether the source, number `j`, is an `HDF5IO` -/
def «export» {D C H : Type} (env : Env D C H) (s : St D H) (io : IOObj D) (j : Nat) (src : IOObj D) (hdf5 : Bool) (container : Option C) (linkData : Bool) :
    St D H × Res C :=
  if io.mode ≠ .w then (s, .failed .unsupported)
  else if !hdf5 && linkData then (s, .failed .unsupported)
  else match exportBuilder env s src container (!linkData) with
    | .error e => (exportRemember s j src container (!linkData), .failed e)
    | .ok none => (exportRemember s j src container (!linkData), if io.isOpen then .done else .failed .valueError)
    | .ok (some b) => writeBuilder env (exportRemember s j src container (!linkData)) io b

/-- `close`: the object stays closed; `open` does nothing since the file is still there, though closed (backends/hdf5/h5tools.py:775-806) -/
def close {D H : Type} (s : St D H) (i : Nat) : St D H := match s.ios[i]? with
  | none => s
  | some io => ⟨s.h5, s.zips, s.ios.set i ⟨io.path, io.mode, false, io.herdPath, io.seen⟩⟩

/-- `open` after the constructor (backends/hdf5/h5tools.py:775-788) -/
def reopen {D H : Type} (s : St D H) (_ : Nat) : St D H := s

/-- the operations (backends/io.py:52-195) -/
inductive Op (C H : Type) where
  | create (path : String) (mode : Mode) (herdPath : Option String)
  | read (i : Nat)
  | write (i : Nat) (c : C) (herd : Option H)
  | «export» (i src : Nat) (hdf5 : Bool) (container : Option C) (linkData : Bool)
  | close (i : Nat)
  | reopen (i : Nat)

/-- one operation (backends/io.py:52-195) -/
def step {D C H : Type} (env : Env D C H) (s : St D H) : Op C H → St D H × Res C
  | .create p m h => create s p m h
  | .read i => match s.ios[i]? with
    | none => (s, .failed .indexError)
    | some io => (if io.mode = .w ∨ io.mode = .wm ∨ io.mode = .x then s else remember s i, match read env s io with
      | .error e => .failed e
      | .ok c => .value c)
  | .write i c herd => match s.ios[i]? with
    | none => (s, .failed .indexError)
    | some io => write env s io c herd
  | .export i j hdf5 c link => match s.ios[i]?, s.ios[j]? with
    | some io, some src => «export» env s io j src hdf5 c link
    | _, _ => (s, .failed .indexError)
  | .close i => (close s i, .done)
  | .reopen i => (reopen s i, .done)

/-- many of them (backends/io.py:52-195) -/
def run {D C H : Type} (env : Env D C H) (s : St D H) : List (Op C H) → St D H
  | [] => s
  | o :: os => run env (step env s o).1 os

/-! ## Builders that have been written -/

/-- a builder: the object, its address, its name (backends/utils.py:15-20) -/
structure Bld where
  uid : Nat
  addr : Nat
  name : String
  deriving DecidableEq

/-- `__builderhash` (backends/utils.py:15-20); the string of the address and the name, here a pair -/
def hash (b : Bld) : Nat × String := (b.addr, b.name)

/-- the builders there are, the record (`WriteStatusTracker`), and, for the statements only, the builders that were marked (backends/utils.py:7-43) -/
structure Track where
  live : List Bld
  marks : List (Nat × String)
  written : List Nat
  next : Nat

/-- what happens: a builder is made at an address that is free, a builder that nothing refers to goes, a builder is marked (backends/utils.py:22-32) -/
inductive TOp where
  | alloc (addr : Nat) (name : String)
  | free (uid : Nat)
  | setWritten (uid : Nat)

/-- one of them (backends/utils.py:22-32); an address in use is not given out -/
def tstep (t : Track) : TOp → Track
  | .alloc a n => if t.live.any (fun b => decide (b.addr = a)) then t else ⟨t.live ++ [⟨t.next, a, n⟩], t.marks, t.written, t.next + 1⟩
  | .free u => ⟨t.live.filter (fun b => decide (b.uid ≠ u)), t.marks, t.written, t.next⟩
  | .setWritten u => match t.live.find? (fun b => decide (b.uid = u)) with
    | none => t
    | some b => ⟨t.live, hash b :: t.marks, u :: t.written, t.next⟩

/-- `get_written` (backends/utils.py:34-43) -/
def getWritten (t : Track) (b : Bld) : Bool := t.marks.contains (hash b)

/-- many of them (backends/utils.py:7-43) -/
def trun (t : Track) : List TOp → Track
  | [] => t
  | o :: os => trun (tstep t o) os

end Verif.FileIO

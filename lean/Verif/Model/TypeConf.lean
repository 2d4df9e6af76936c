import Verif.Model.Terms

/-!
# Type maps and their configurators

Model of the `type_config` of type maps and of the functions that load and unload a configuration (common/__init__.py:24-59; build/manager.py:400-441; container.py:94-96).

Simplifications.
* A type map is the number of its configurator; configurators are kept in a list.
* The global type map is map 0.  `None` as type map is a copy of it that is not kept.
-/

namespace Verif.TypeConf
open Verif Verif.Terms

variable {Cfg : Type}

/-- the configurators, and for each type map the number of its configurator (build/manager.py:420) -/
structure St (Cfg : Type) where
  confs : List (Conf Cfg)
  maps : List Nat

/-- the global type map with its configurator (common/__init__.py:21-22; build/manager.py:411-412) -/
def init : St Cfg := ⟨[⟨none, []⟩], [0]⟩

/-- the number of the configurator of a map; of the global map if no map is given (common/__init__.py:33, 43, 57) -/
def refOf (s : St Cfg) : Option Nat → Nat
  | none => s.maps.getD 0 0
  | some m => s.maps.getD m 0

/-- the configurator of a map (common/__init__.py:35, 45, 59) -/
def confOf (s : St Cfg) (m : Option Nat) : Conf Cfg := s.confs.getD (refOf s m) ⟨none, []⟩

/-- an operation: copy a map (`get_type_map()` copies the global one), create a map, load or unload with a map (common/__init__.py:24-59, 137-164) -/
inductive Op where
  | copy (m : Option Nat)
  | fresh
  | load (m : Option Nat) (path : String)
  | unload (m : Option Nat)

/-- one operation; `fs` is what the files have (build/manager.py:411-412, 433-436; common/__init__.py:24-59) -/
def step (fs : String → File Cfg) (s : St Cfg) : Op → St Cfg
  | .copy m => { s with maps := s.maps ++ [refOf s m] }
  | .fresh => ⟨s.confs ++ [⟨none, []⟩], s.maps ++ [s.confs.length]⟩
  | .load m p => { s with confs := s.confs.set (refOf s m) (load (confOf s m) p (fs p)).1 }
  | .unload m => { s with confs := s.confs.set (refOf s m) (unload (confOf s m)) }

/-- a sequence of operations (common/__init__.py:24-59) -/
def run (fs : String → File Cfg) (ops : List Op) : St Cfg := ops.foldl (step fs) init

/-- the configurator by which the fields of containers are checked: that of a copy of the global map (container.py:94-96, 115) -/
def fieldConf (s : St Cfg) : Conf Cfg := confOf (step (fun _ => none) s (.copy none)) (some s.maps.length)

end Verif.TypeConf

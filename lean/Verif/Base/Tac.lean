import Mathlib.Tactic.Common
import Mathlib.Tactic.ByContra
import Mathlib.Tactic.Ring
import Mathlib.Data.List.Nodup
import Mathlib.Data.List.Perm.Subperm

/-! Tactics and list lemmas used in proofs only. -/

import Verif.Model.Hier

/-!
# Model of the foreign columns of aligned tables (common/alignedtable.py:359-395)

Tables are numbers, with their columns given by a function as in `Verif.Model.Hier`; the categories are names with tables.
-/

namespace Verif.Hier
open Verif

/-- common/alignedtable.py:362-375 `has_foreign_columns` -/
def alignedHas (g : Nat → List GCol) (self : Nat) (cats : List (String × Nat)) (ignore : Bool) : Bool :=
  if hasForeign (g self) then true
  else if !ignore then cats.any fun c => hasForeign (g c.2)
  else false

/-- common/alignedtable.py:380-395 `get_foreign_columns` -/
def alignedForeign (g : Nat → List GCol) (self : Nat) (cats : List (String × Nat)) (ignore : Bool) : List (Option String × String) :=
  (foreignColumns (g self)).map (none, ·) ++
    if !ignore then cats.flatMap fun c => (foreignColumns (g c.2)).map (some c.1, ·) else []

end Verif.Hier

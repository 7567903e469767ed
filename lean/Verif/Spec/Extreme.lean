import Verif.Model.Core
import Mathlib.Data.Nat.Notation

/-!
# Specification: the coarsest and the finest cover
-/

set_option autoImplicit false

namespace Verif

/-- The cover has a single chart, which lists all the rows. -/
def SingleChart {T : Type} (cover : CoverFn T) (y : List T) : Prop :=
  ∃ ids : List ℕ, ids.Perm (List.range y.length) ∧ cover y = .ok [ids]

/-- Each row is a chart of its own, in the order of the rows. -/
def ChartPerRow {T : Type} (cover : CoverFn T) (y : List T) : Prop :=
  cover y = .ok ((List.range y.length).map fun i => [i])

end Verif

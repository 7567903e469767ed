import Verif.Spec.Core
import Verif.Spec.Cover
import Mathlib.Algebra.Order.Floor.Defs
import Mathlib.Data.Fintype.Card

/-!
# Specification: the size of Mapper graphs
-/

set_option autoImplicit false

namespace Verif

namespace NxGraph

/-- The number of nodes. -/
def order (g : NxGraph) : ℕ := g.nodes.keys.length

/-- The sum of the attribute `size` over all nodes. -/
def totalSize (g : NxGraph) : ℕ :=
  (g.nodes.keys.map fun u => ((g.nodes.get? u).bind NodeAttr.size).getD 0).sum

/-- The number of neighbours of a node. -/
def degree (g : NxGraph) (u : ℤ) : ℕ := ((g.adj.get? u).getD []).length

/-- The sum of the numbers of neighbours over all nodes: twice the number of edges. -/
def totalDegree (g : NxGraph) : ℕ := (g.nodes.keys.map g.degree).sum

end NxGraph

/-- The number of charts that contain the point `i`. -/
def chartsWith (charts : List (List ℕ)) (i : ℕ) : ℕ := charts.countP fun chart => decide (i ∈ chart)

section
variable {R : Type} [Field R] [LinearOrder R] {m : ℕ}

/-- The number of intervals of one column in which a value can be: `1 / (1 - p)`, rounded up. An
interval is `1 / (1 - p)` times as wide as a cell. -/
def maxIntervals [FloorRing R] (p : R) : ℕ := ⌈1 / (1 - p)⌉.toNat

/-- The number of columns that are not constant. -/
def spreadColumns (lo hi : Fin m → R) : ℕ := (Finset.univ.filter (Spread lo hi)).card

end

end Verif

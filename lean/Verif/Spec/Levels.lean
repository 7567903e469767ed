import Verif.Spec.Local
import Verif.Spec.Size

/-!
# Specification: how Mapper graphs lie over the cover
-/

set_option autoImplicit false

namespace Verif

/-- `chart` gives for every node the number of a chart that has all rows of the node. Nodes of one
chart have no rows in common. Joined nodes have a row in common, so they are of different charts. -/
structure OverCharts (g : NxGraph) (charts : List (List ℕ)) (chart : ℤ → ℕ) : Prop where
  rows : ∀ u, g.IsNode u → ∃ ids, charts[chart u]? = some ids ∧ ∀ i, g.HasRow u i → i ∈ ids
  disjoint : ∀ u v i, u ≠ v → g.HasRow u i → g.HasRow v i → chart u ≠ chart v
  edge : ∀ u v, g.Adj u v → g.IsNode u ∧ g.IsNode v ∧ chart u ≠ chart v ∧ ∃ i, g.HasRow u i ∧ g.HasRow v i

/-- Edges lead to the next level, up or down. -/
def NextLevels (g : NxGraph) (level : ℤ → ℤ) : Prop :=
  ∀ u v, g.Adj u v → level v = level u + 1 ∨ level u = level v + 1

end Verif

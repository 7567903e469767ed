import Verif.Spec.Coarser
import Verif.Spec.Reproducible

/-!
# Specification: how a cover lists its charts
-/

set_option autoImplicit false

namespace Verif

/-- The same charts in some order, the points of each in some order; as often as they were. -/
def RelistedCharts (charts charts' : List (List ℕ)) : Prop :=
  ∃ mid, List.Forall₂ List.Perm charts mid ∧ mid.Perm charts'

/-- Two nodes that hold the same points, are joined to each other and to the same other nodes. -/
structure Twins (g : NxGraph) (L M : ℤ) : Prop where
  ne : L ≠ M
  attr : g.IsNode L ∧ g.nodes.get? L = g.nodes.get? M
  joined : g.Adj L M
  others : ∀ N, N ≠ L → N ≠ M → (g.Adj L N ↔ g.Adj M N)

end Verif

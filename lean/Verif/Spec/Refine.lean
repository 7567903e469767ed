import Verif.Spec.Nerve

/-!
# Specification: coarser covers and graphs
-/

set_option autoImplicit false

namespace Verif

/-- Every chart of the first cover is contained in a chart of the second. -/
def ChartsWithin (charts charts' : List (List ℕ)) : Prop :=
  ∀ ids ∈ charts, ∃ ids' ∈ charts', ∀ i ∈ ids, i ∈ ids'

/-- `f` takes each node of `g` to a node of `g'` that holds all its points, and nodes joined by an
edge to the same node or to nodes joined by an edge. -/
structure Coarsening (f : ℤ → ℤ) (g g' : NxGraph) : Prop where
  node : ∀ L, g.IsNode L → g'.IsNode (f L)
  ids : ∀ L size l, g.nodes.get? L = some ⟨size, some l⟩ →
    ∃ size' l', g'.nodes.get? (f L) = some ⟨size', some l'⟩ ∧ ∀ i ∈ l, i ∈ l'
  adj : ∀ L M, g.Adj L M → f L = f M ∨ g'.Adj (f L) (f M)

end Verif

import Verif.Spec.Jobs

/-!
# Specification: what a job may return
-/

set_option autoImplicit false

namespace Verif

/-- What the clustering, as a function, makes of the points of a chart: their labels, or
the exception it raises on them. -/
def OutcomeOn (W : World) (h : Heap) (fuel : ℕ) (X : List RealArray) (clust : ℕ) (ids : List ℕ) :
    Py (List ℤ) := do
  let xs ← gather X ids
  labelsOf W h fuel clust xs

end Verif

import Verif.Model.Cover
import Verif.Spec.VPTree
import Verif.Props.VPTree

/-!
# Specification: admissible parameters of the covers
-/

set_option autoImplicit false

namespace Verif

variable {T R : Type}

/-- Parameters with which `BallCover` works as documented: a pseudo-metric, a
known kind of tree and a positive leaf capacity. -/
structure BallOK [AddCommGroup R] [LinearOrder R] (P : BallParams T R) : Prop where
  metric : PseudoMetric P.metric
  kind : IsKind P.kind
  capacity : 1 ≤ P.leafCapacity

/-- Parameters with which `KNNCover` works as documented: a pseudo-metric, a
known kind of tree and at least one neighbour. -/
structure KnnOK [AddCommGroup R] [LinearOrder R] (P : KnnParams T R) : Prop where
  metric : PseudoMetric P.metric
  kind : IsKind P.kind
  neighbors : 1 ≤ P.neighbors

/-- Parameters with which the cubical covers work as documented: at least one
interval, overlap fraction (given or default) in `(0, 1)`, a known kind of tree
and a positive leaf capacity. -/
structure CubOK [Zero R] [One R] [LinearOrder R] (dflt : ℕ → R) (m : ℕ) (P : CubParams R) (p : R) : Prop where
  overlap : P.overlapFrac.getD (dflt m) = p
  pos : 0 < p
  lt_one : p < 1
  intervals : 1 ≤ P.nIntervals
  kind : IsKind P.kind
  capacity : 1 ≤ P.leafCapacity

end Verif

import Verif.Model.PlotNan
import Verif.Spec.Core
import Verif.Spec.PlotBackends

/-!
# Specification: colours of nodes when values are missing
-/

set_option autoImplicit false

namespace Verif

variable {K : Type} [Field K] [LinearOrder K]

/-- `c` is the mean of the entries of `l` that are numbers, and missing if there are none. -/
def IsMeanOfPresent (l : List (Option K)) (c : Option K) : Prop :=
  (c = none ↔ ∀ v ∈ l, v = none) ∧
    ∀ m, c = some m → m * ((l.filterMap id).length : K) = (l.filterMap id).sum

/-- A graph whose nodes have the points `ids`, which have values in `colors`. -/
structure Valued (g : NxGraph) (ids : ℤ → List ℕ) (colors : List (Option K)) : Prop where
  nodup : g.nodes.keys.Nodup
  attr : ∀ n, g.IsNode n → ∃ size, g.nodes.get? n = some ⟨size, some (ids n)⟩
  ids_lt : ∀ n, g.IsNode n → ∀ i ∈ ids n, i < colors.length

/-- `val` gives every node the mean of the values of its points that have one. -/
def MeanColors (g : NxGraph) (ids : ℤ → List ℕ) (colors : List (Option K)) (val : ℤ → Option K) :
    Prop :=
  ∀ n, g.IsNode n → IsMeanOfPresent (pointsOf colors (ids n)) (val n)

/-- The numbers among the colours of the nodes. -/
def presentColors (g : NxGraph) (val : ℤ → Option K) : Set K :=
  {v | ∃ n, g.IsNode n ∧ val n = some v}

/-- The position on a colour scale that goes from `lo` to `hi`. -/
def OnScale (lo hi c t : K) : Prop :=
  (lo < hi → t * (hi - lo) = c - lo) ∧ (lo = hi → t = 1 / 2)

end Verif

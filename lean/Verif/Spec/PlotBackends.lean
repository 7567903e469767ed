import Verif.Model.PlotBackends
import Verif.Spec.Plot

/-!
# Specifications for the PyVis and matplotlib backends
-/

set_option autoImplicit false

namespace Verif

variable {K V : Type} [Field K] [LinearOrder K]

/-- `k` is the integer nearest to `x`, the even one of two. -/
def IsRounded (x : K) (k : ℤ) : Prop :=
  |x - k| ≤ 1 / 2 ∧ (|x - k| = 1 / 2 → Even k)

/-- What is used of the square root: it is monotone and not negative on the numbers that
are not negative, and the square root of one is one. -/
structure SqrtLike (sqrt : K → K) : Prop where
  nonneg : ∀ x, 0 ≤ x → 0 ≤ sqrt x
  mono : ∀ x y, 0 ≤ x → x ≤ y → sqrt x ≤ sqrt y
  one : sqrt 1 = 1

/-- The values of the nodes of a graph. -/
def nodeValues {α : Type} (g : NxGraph) (val : ℤ → α) : Set α := {x | ∃ n, g.IsNode n ∧ val n = x}

/-- A one-dimensional array of colours that can be aggregated over the nodes of a plot,
with results `val`. -/
structure Colorable (p : MapperPlot K) (ids : ℤ → List ℕ) (colors : List V) (agg : List V → Py K)
    (val : ℤ → K) : Prop where
  ids_lt : ∀ n, p.graph.IsNode n → ∀ i ∈ ids n, i < colors.length
  agg_eq : ∀ n, p.graph.IsNode n → agg (pointsOf colors (ids n)) = .ok (val n)

end Verif

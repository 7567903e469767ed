import Mathlib.Analysis.SpecialFunctions.Pow.Real
import Mathlib.Algebra.BigOperators.Fin

/-!
# Specification: distances on real vectors
-/

set_option autoImplicit false

namespace Verif

/-- The requirements on a metric listed at the head of `metrics.py`. -/
structure IsMetric {V : Type} (d : V → V → ℝ) : Prop where
  symm : ∀ x y, d x y = d y x
  self : ∀ x, d x x = 0
  pos : ∀ x y, x ≠ y → 0 < d x y
  triangle : ∀ x y z, d x z ≤ d x y + d y z

variable {n : ℕ}

/-- The square root of the sum of squared differences. -/
noncomputable def euclideanFormula (x y : Fin n → ℝ) : ℝ := Real.sqrt (∑ i, (x i - y i) ^ 2)

/-- The sum of absolute differences. -/
noncomputable def manhattanFormula (x y : Fin n → ℝ) : ℝ := ∑ i, |x i - y i|

/-- `r` is the maximum absolute difference (`0` for empty vectors). -/
def IsMaxDiff (x y : Fin n → ℝ) (r : ℝ) : Prop :=
  (∀ i, |x i - y i| ≤ r) ∧ (n = 0 ∧ r = 0 ∨ ∃ i, r = |x i - y i|)

/-- The `p`-th root of the sum of `p`-th powers of absolute differences. -/
noncomputable def minkowskiFormula (p : ℝ) (x y : Fin n → ℝ) : ℝ :=
  (∑ i, |x i - y i| ^ p) ^ (1 / p)

/-- The Euclidean length of a vector. -/
noncomputable def length2 (x : Fin n → ℝ) : ℝ := Real.sqrt (∑ i, x i ^ 2)

/-- Two vectors have the same direction: one is a positive multiple of the other. -/
def SameDirection (x y : Fin n → ℝ) : Prop := ∃ c : ℝ, 0 < c ∧ ∀ i, y i = c * x i

end Verif

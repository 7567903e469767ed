import Verif.Model.MetricsFloat
import Verif.Spec.Metrics
import Verif.Spec.Numbers
import Verif.Spec.CubicalFloat

/-!
# Specification: laws of floating-point arithmetic used by the distances
-/

set_option autoImplicit false

namespace Verif

variable {R : Type} [LT R] [Zero R] [Neg R] [Add R] [Sub R] [Mul R] [Div R]

/-- Laws of all floating-point numbers, infinities and NaN included; `Finite` are the finite
ones. Swapping a subtraction changes the sign, the difference of a finite number with itself
is zero, and the operations on zeros give zero. The two zeros are identified. -/
structure FloatLaws (L : Libm R) (Finite : R → Prop) : Prop where
  sub_swap : ∀ x y : R, y - x = -(x - y)
  sub_self : ∀ x : R, Finite x → x - x = 0
  neg_mul_neg : ∀ x : R, -x * -x = x * x
  neg_eq_zero : ∀ x : R, -x = 0 ↔ x = 0
  mul_comm : ∀ x y : R, x * y = y * x
  zero_add_zero : (0 : R) + 0 = 0
  zero_mul_zero : (0 : R) * 0 = 0
  abs_neg : ∀ x, L.abs (-x) = L.abs x
  abs_zero : L.abs 0 = 0
  sqrt_zero : L.sqrt 0 = 0
  pow_zero : ∀ p, 0 < p → L.pow 0 p = 0
  not_pos_zero : ¬ (0 : R) < 0
  one_div_pos : ∀ p, 0 < p → L.isInf p = false → 0 < L.one / p

/-- What the distances rely on from the routines adding up arrays: a sum of zeros is zero, the
norm ignores signs, and the scalar product is symmetric. -/
structure RoutineLaws (L : Libm R) : Prop where
  sum_zero : ∀ n : ℕ, L.sum (fun _ : Fin n => (0 : R)) = 0
  nrm2_neg : ∀ {n : ℕ} (v : Fin n → R), L.nrm2 (fun i => -v i) = L.nrm2 v
  nrm2_zero : ∀ n : ℕ, L.nrm2 (fun _ : Fin n => (0 : R)) = 0
  dot_comm : ∀ {n : ℕ} (x y : Fin n → R), L.dot x y = L.dot y x

/-- The distances that the library offers on vectors, except `cosine`. -/
inductive IsVectorMetric [DecidableLT R] [DecidableEq R] (L : Libm R) {n : ℕ} :
    ((Fin n → R) → (Fin n → R) → R) → Prop where
  | euclidean : IsVectorMetric L (floatEuclidean L)
  | manhattan : IsVectorMetric L (floatManhattan L)
  | chebyshev : IsVectorMetric L (floatChebyshev L)
  | minkowski (p : R) (hp : 0 < p) : IsVectorMetric L (floatMinkowski L p)

/-- Each entry is added exactly once. -/
def SumTree.AddsAll {n : ℕ} (t : SumTree n) : Prop := t.leaves.Perm (List.finRange n)

/-- Absolute values are exact, and square roots have a relative error of at most `w`. -/
structure RoundedRoutines (L : Libm R) (val : R → ℝ) (w : ℝ) : Prop where
  abs : ∀ x, val (L.abs x) = |val x|
  sqrt : ∀ x, 0 ≤ val x → |val (L.sqrt x) - Real.sqrt (val x)| ≤ w * Real.sqrt (val x)

end Verif

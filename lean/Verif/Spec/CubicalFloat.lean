import Verif.Model.CubicalFloat
import Verif.Spec.Rounding
import Verif.Spec.Cover
import Verif.Spec.CoverParams

/-!
# Specification: machine arithmetic for the cubical covers
-/

set_option autoImplicit false

namespace Verif

variable {R K : Type} [Machine R] [Field K] [LinearOrder K]

/-- Arithmetic with relative rounding error at most `w` (for IEEE 754 numbers with 53 bits
`w` is `2⁻⁵³`) when nothing overflows or underflows; `val` is the exact value of a
number. Integers up to `maxInt` are exact. -/
structure MachineLaws (val : R → K) (w : K) (maxInt : ℤ) : Prop extends Rounded val where
  w_nonneg : 0 ≤ w
  w_small : w ≤ 1 / 64
  sub_comm : ∀ x y : R, y - x = -(x - y)
  add_err : ∀ x y, |val (x + y) - (val x + val y)| ≤ w * |val x + val y|
  sub_err : ∀ x y, |val (x - y) - (val x - val y)| ≤ w * |val x - val y|
  mul_err : ∀ x y, |val (x * y) - val x * val y| ≤ w * |val x * val y|
  div_err : ∀ x y, val y ≠ 0 → |val (x / y) - val x / val y| ≤ w * |val x / val y|
  two_le : 2 ≤ maxInt
  ofInt : ∀ k, |k| ≤ maxInt → val (Machine.ofInt k) = k
  floor : ∀ x, (Machine.floor x : K) ≤ val x ∧ val x < Machine.floor x + 1
  half : val Machine.half = 1 / 2
  eps : 0 ≤ val Machine.eps ∧ val Machine.eps ≤ 1

/-- The computed width of a column with least entry `lo` and greatest entry `hi`; a column
of width at most `eps` counts as having width `n`. -/
def columnWidth (n : ℕ) (lo hi : R) : R :=
  if hi - lo ≤ Machine.eps then Machine.ofInt n else hi - lo

/-- The exact coordinate of a number in the division of a column into `n` intervals: interval
number `c` reaches from `c` to `c + 1`. -/
def gridCoordinate (val : R → K) (n : ℕ) (lo width z : R) : K := n * (val z - val lo) / val width

/-- A bound for the rounding errors of coordinates: for each column `n w (1 + |lo| / width)`. -/
def ErrorBound {m : ℕ} (val : R → K) (w : K) (n : ℕ) (lo hi : Fin m → R) (E : K) : Prop :=
  ∀ i, n * w * (1 + |val (lo i)| / val (columnWidth n (lo i) (hi i))) ≤ E

/-- Admissible parameters: an overlap fraction (given or default) in `(0, 1)`, at least one
interval, a known kind of tree and a positive leaf capacity. -/
structure FloatCubOK (val : R → K) (maxInt : ℤ) (dflt : ℕ → R) (m : ℕ) (P : CubParams R) (p : R) :
    Prop where
  overlap : P.overlapFrac.getD (dflt m) = p
  pos : 0 < val p
  lt_one : val p < 1
  intervals : 1 ≤ P.nIntervals
  representable : (P.nIntervals : ℤ) ≤ maxInt
  kind : IsKind P.kind
  capacity : 1 ≤ P.leafCapacity

end Verif

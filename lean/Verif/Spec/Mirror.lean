import Verif.Spec.Cover
import Verif.Spec.Columns

/-!
# Specification: tables with the signs of some columns reversed
-/

set_option autoImplicit false

namespace Verif

variable {R : Type} {m : ℕ}

/-- `x` with the sign of the coordinates in `flip` reversed. -/
def mirror [Neg R] (flip : Fin m → Bool) (x : Fin m → R) : Fin m → R :=
  fun i => if flip i then -x i else x i

variable [Field R] [LinearOrder R]

/-- No entry of column `i` is at the end of two intervals, if the range of the column is split in `n`
intervals of the same length. -/
def OffEnds (y : List (Fin m → R)) (n : ℕ) (i : Fin m) : Prop :=
  ∀ lo ∈ y, ∀ hi ∈ y, (∀ x ∈ y, lo i ≤ x i ∧ x i ≤ hi i) →
    ∀ x ∈ y, ∀ k : ℕ, 0 < k → k < n → x i ≠ lo i + k * ((hi i - lo i) / n)

end Verif

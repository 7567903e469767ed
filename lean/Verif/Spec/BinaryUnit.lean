import Verif.Model.Binary

/-!
# Specification: columns in other units, by powers of two
-/

set_option autoImplicit false

namespace Verif

/-- The same column in another unit: column `i` of the second table is column `i` of the first times
`2 ^ (e i)`, exactly. -/
def TimesPowers {b m : ℕ} (e : Fin m → ℤ) (y y' : List (Fin m → Bin b)) : Prop :=
  y.length = y'.length ∧ ∀ (r : ℕ) (x x' : Fin m → Bin b), y[r]? = some x → y'[r]? = some x' →
    ∀ i, (x' i).1 = 2 ^ (e i) * (x i).1

/-- Column `i` has two entries which differ, as computed, by more than the machine epsilon `2⁻⁵²`. -/
def SpreadBin {b m : ℕ} (y : List (Fin m → Bin b)) (i : Fin m) : Prop :=
  ∃ x ∈ y, ∃ z ∈ y, roundTo b (1 / 2 ^ 52) < roundTo b ((z i).1 - (x i).1)

end Verif

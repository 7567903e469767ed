import Verif.Spec.Cover

/-!
# Specification: tables that show the same columns
-/

set_option autoImplicit false

namespace Verif

variable {R : Type} [Field R] [LinearOrder R] {m m' : ℕ}

/-- Column `i` of `y` has, row by row, the same entries as column `j` of `y'`. -/
def SameColumn (y : List (Fin m → R)) (y' : List (Fin m' → R)) (i : Fin m) (j : Fin m') : Prop :=
  ∀ (r : ℕ) x x', y[r]? = some x → y'[r]? = some x' → x i = x' j

/-- The entries of column `i` are the same, up to the machine epsilon of double precision. -/
def FlatColumn (y : List (Fin m → R)) (i : Fin m) : Prop :=
  ∀ x ∈ y, ∀ z ∈ y, x i - z i ≤ 1 / 2 ^ 52

/-- Two tables with as many rows and, up to order and repetition, the same columns, not
counting flat ones. -/
structure SameColumns (y : List (Fin m → R)) (y' : List (Fin m' → R)) : Prop where
  length : y.length = y'.length
  left : ∀ i, FlatColumn y i ∨ ∃ j, SameColumn y y' i j
  right : ∀ j, FlatColumn y' j ∨ ∃ i, SameColumn y y' i j

/-- `x'` is `x` with its coordinates at other places, given by `ι`, and further coordinates
inserted between them. -/
def PlacedAt (ι : Fin m → Fin m') (x : Fin m → R) (x' : Fin m' → R) : Prop :=
  ∀ i, x' (ι i) = x i

/-- `x` and `z` agree in the coordinates that `ι` does not reach. -/
def AgreeElsewhere (ι : Fin m → Fin m') (x z : Fin m' → R) : Prop :=
  ∀ j, (∀ i, ι i ≠ j) → x j = z j

end Verif

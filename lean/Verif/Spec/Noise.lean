import Verif.Spec.Cover

/-!
# Specification: small changes of the lens
-/

set_option autoImplicit false

namespace Verif

section
variable {T R : Type} [AddCommGroup R] [LinearOrder R]

/-- The rows of `y'` are those of `y`, each moved by at most `ε`. -/
def RowsMovedBy (d : T → T → R) (ε : R) (y y' : List T) : Prop :=
  y.length = y'.length ∧ ∀ (i : ℕ) x x', y[i]? = some x → y'[i]? = some x' → d x x' ≤ ε

/-- No two rows, or a row and itself, have a distance within `δ` of `r`: it is smaller by more than
`δ`, or larger by at least `δ`. -/
def ClearOf (d : T → T → R) (r δ : R) (y : List T) : Prop :=
  ∀ x ∈ y, ∀ z ∈ y, d x z + δ < r ∨ r + δ ≤ d x z

/-- The distances of any row from two others differ by more than `δ`. -/
def DistancesApart (d : T → T → R) (δ : R) (y : List T) : Prop :=
  ∀ q ∈ y, ∀ (i j : ℕ) xi xj, y[i]? = some xi → y[j]? = some xj → i ≠ j →
    d q xi + δ < d q xj ∨ d q xj + δ < d q xi

end

section
variable {R : Type} [Field R] [LinearOrder R] {m : ℕ}

/-- The rows of `y'` are those of `y`, each coordinate moved by at most `ε`; and a coordinate is only
moved if its column is not constant and it is further than `ε` from the ends of all cells and
boxes. -/
def MovedInside (lo hi : Fin m → R) (n : ℕ) (p ε : R) (y y' : List (Fin m → R)) : Prop :=
  y.length = y'.length ∧ ∀ (k : ℕ) x x', y[k]? = some x → y'[k]? = some x' → ∀ i,
    x' i = x i ∨ (Spread lo hi i ∧ |x' i - x i| ≤ ε ∧ ∀ c : ℤ,
      ε < |x i - cellLeft (lo i) (hi i) n c| ∧
      ε < |x i - (cellLeft (lo i) (hi i) n c - p * boxWidth (lo i) (hi i) n p / 2)| ∧
      ε < |x i - (cellRight (lo i) (hi i) n c + p * boxWidth (lo i) (hi i) n p / 2)|)

end

end Verif

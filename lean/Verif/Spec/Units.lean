import Verif.Spec.Cover

/-!
# Specification: changes of units
-/

set_option autoImplicit false

namespace Verif

/-- The rows of `y` and `y'` correspond: there are as many, and any four rows at
corresponding positions satisfy `Q`. -/
def RowsAgree {T T' : Type} (y : List T) (y' : List T') (Q : T → T → T' → T' → Prop) : Prop :=
  y.length = y'.length ∧ ∀ (i j : ℕ) xi xj xi' xj', y[i]? = some xi → y[j]? = some xj →
    y'[i]? = some xi' → y'[j]? = some xj' → Q xi xj xi' xj'

/-- A row in other units: column `i` is multiplied by `a i` and shifted by `b i`. -/
def otherUnits {R : Type} [Mul R] [Add R] {m : ℕ} (a b : Fin m → R) (x : Fin m → R) : Fin m → R :=
  fun i => a i * x i + b i

end Verif

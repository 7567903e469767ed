import Verif.Spec.Plot

/-!
# Specification: arguments of plots that are of no use
-/

set_option autoImplicit false

namespace Verif

variable {K V : Type}

/-- The number of columns of the argument `colors`, if it has one or two dimensions. -/
def ColorsArg.width : ColorsArg V → Option ℕ
  | .one _ => some 1
  | .two c => some c.cols
  | .other => none

/-- Arguments of the wrong kind: colours without or with more than two dimensions; a title that is neither text
nor a list, or a list with another number of titles than there are columns; a size that is neither a number
nor a list; a colour scale that is neither text nor a list. -/
inductive WrongKind (cols : Option ℕ) (colors : Option (ColorsArg V)) (title cmap : Option (OneOrMany String))
    (size : Option (OneOrMany K)) : Prop
  | colors : colors = some .other → WrongKind cols colors title cmap size
  | title : title = some .other → WrongKind cols colors title cmap size
  | titles {l : List String} {n : ℕ} : title = some (.many l) → cols = some n → l.length ≠ n →
      WrongKind cols colors title cmap size
  | size : size = some .other → WrongKind cols colors title cmap size
  | cmap : cmap = some .other → WrongKind cols colors title cmap size

/-- A node holds a point that has no row in an array of `n` rows. -/
def PointWithoutRow (g : NxGraph) (ids : ℤ → List ℕ) (n : ℕ) : Prop :=
  ∃ v, g.IsNode v ∧ ∃ i ∈ ids v, n ≤ i

/-- The arguments with further rows of colours at the end. -/
def ColorsArg.MoreRows : ColorsArg V → ColorsArg V → Prop
  | .one l, .one l' => ∃ e, l' = l ++ e
  | .two c, .two c' => c'.cols = c.cols ∧ ∃ e, c'.rows = c.rows ++ e
  | _, _ => False

end Verif

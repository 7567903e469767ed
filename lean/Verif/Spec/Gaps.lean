import Verif.Spec.Cover
import Verif.Spec.Local
import Verif.Spec.Nerve

/-!
# Specification: data without gaps
-/

set_option autoImplicit false

namespace Verif

section
variable {R : Type} [Field R] [LinearOrder R] {m : ℕ}

/-- The length of the interval in which the intervals of two adjacent cells of column `i` overlap:
the fraction `p` of their width. -/
def overlapLength (lo hi : Fin m → R) (n : ℕ) (p : R) (i : Fin m) : R :=
  p * boxWidth (lo i) (hi i) n p

/-- The distance between the intervals of two cells of column `i` that have one cell between them,
if `p ≤ 1/2`. -/
def gapLength (lo hi : Fin m → R) (n : ℕ) (p : R) (i : Fin m) : R :=
  (1 - 2 * p) * boxWidth (lo i) (hi i) n p

/-- In every column that is not constant, the rows differ by less than half of the length in which
adjacent intervals overlap. -/
def HalfOverlapApart (lo hi : Fin m → R) (n : ℕ) (p : R) (x z : Fin m → R) : Prop :=
  ∀ i, Spread lo hi i → |x i - z i| < overlapLength lo hi n p i / 2

end

/-- Rows number `i` and `j` of `y` are related by `r`. -/
def RowsRelated {T : Type} (y : List T) (r : T → T → Prop) (i j : ℕ) : Prop :=
  ∃ a b, y[i]? = some a ∧ y[j]? = some b ∧ r a b

/-- Rows that are related by `r` are together in a node of the graph `g`; rows that are linked by
steps in `r` have the same value in `out`; and if all rows are linked, there is a path between any
two nodes. -/
structure NoBreaks {T : Type} (y : List T) (r : T → T → Prop) (g : NxGraph) (out : List ℤ) : Prop where
  node : ∀ i j, RowsRelated y r i j → ∃ u, g.HasRow u i ∧ g.HasRow u j
  component : ∀ i j, i < y.length → j < y.length → Linked (RowsRelated y r) i j → out[i]? = out[j]?
  connected : (∀ i j, i < y.length → j < y.length → Linked (RowsRelated y r) i j) →
    ∀ u v, g.IsNode u → g.IsNode v → g.Reachable u v

end Verif

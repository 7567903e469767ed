import Mathlib.Data.Int.Notation

/-!
# Finite numbers among the floating-point numbers
-/

set_option autoImplicit false

namespace Verif

variable {R F : Type} [LE R] [LT R] [Zero R] [Neg R] [Sub R] [LE F] [LT F] [Zero F] [Neg F] [Sub F]

/-- `ι` reads the numbers of `R` as finite numbers of `F`, a type of numbers that has other
values too (infinities, NaN): comparing and subtracting means the same in both, and each
finite number is below `inf`. -/
structure FiniteIn (ι : R → F) (inf : F) : Prop where
  lt : ∀ a b, ι a < ι b ↔ a < b
  le : ∀ a b, ι a ≤ ι b ↔ a ≤ b
  zero : ι 0 = 0
  neg : ∀ a, ι (-a) = -ι a
  sub : ∀ a b, ι (a - b) = ι a - ι b
  lt_inf : ∀ a, ι a < inf
  le_inf : ∀ a, ι a ≤ inf
  not_inf_le : ∀ a, ¬ inf ≤ ι a

end Verif

import Mathlib.Order.Basic

/-!
# Specification: comparing floating-point numbers
-/

namespace Verif

/-- What `<` satisfies on all floating-point numbers, infinities and NaN included: it is
irreflexive and transitive. NaN compares with nothing, so `¬ a < b` does not give `b ≤ a`. -/
class StrictLT (R : Type) [LT R] : Prop where
  irrefl : ∀ a : R, ¬ a < a
  trans : ∀ a b c : R, a < b → b < c → a < c

instance {R : Type} [Preorder R] : StrictLT R where
  irrefl := lt_irrefl
  trans := fun _ _ _ => lt_trans

theorem StrictLT.asymm {R : Type} [LT R] [StrictLT R] {a b : R} (h : a < b) : ¬ b < a :=
  fun h' => StrictLT.irrefl a (StrictLT.trans a b a h h')

/-- Laws of the finite floating-point numbers among all of them: two of them can be compared,
and the difference of equal ones is zero. (Infinities violate the second: `inf - inf` is NaN.
The two zeros are identified.) -/
structure FiniteNumbers {R : Type} [LE R] [LT R] [Zero R] [Sub R] (Fin : R → Prop) : Prop where
  total : ∀ a b, Fin a → Fin b → ¬ a < b → b ≤ a
  sub_eq : ∀ a b, Fin a → Fin b → a ≤ b → b ≤ a → a - b = 0

end Verif

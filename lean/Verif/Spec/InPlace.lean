import Verif.Spec.Rounding
import Verif.Spec.Cover
import Verif.Model.InPlace

/-!
# Specification: searches of data that changed since the fit
-/

set_option autoImplicit false

namespace Verif

variable {T R : Type} [AddCommGroup R] [LinearOrder R]

/-- The distances among the points of `X` changed by at most `δ` between the memories `σ` and
`σ'`. -/
def ChangedBy (metric : T → T → R) (σ σ' : ℕ → T) (X : List (RowRef T)) (δ : R) : Prop :=
  0 ≤ δ ∧ ∀ x ∈ X, ∀ z ∈ X,
    |metric (x.read σ') (z.read σ') - metric (x.read σ) (z.read σ)| ≤ δ

/-- Every point of `X` moved by at most `η` between the memories `σ` and `σ'`. -/
def MovedBy (metric : T → T → R) (σ σ' : ℕ → T) (X : List (RowRef T)) (η : R) : Prop :=
  0 ≤ η ∧ ∀ x ∈ X, metric (x.read σ) (x.read σ') ≤ η

end Verif

import Verif.Spec.Threads

/-!
# Specification: estimators that are read while they are fitted
-/

set_option autoImplicit false

namespace Verif

/-- On the heap `h'` the results of `r` are those of the heap `h`; or the result called `name` is the expected one, and
the number of features is that of `h` or the expected one. -/
def OldOrNew (h h' : Heap) (r : ℕ) (name : String) (expected : Py (Val × ℕ)) : Prop :=
  (attrAt h' r name = attrAt h r name ∧ attrAt h' r "n_features_in_" = attrAt h r "n_features_in_") ∨
    ∃ v m, expected = .ok (v, m) ∧ attrAt h' r name = some v ∧
      (attrAt h' r "n_features_in_" = attrAt h r "n_features_in_" ∨
        attrAt h' r "n_features_in_" = some (.int m))

end Verif

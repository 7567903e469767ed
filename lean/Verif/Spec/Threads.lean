import Verif.Model.Threads
import Verif.Spec.Interrupt

/-!
# Specification: calls of `fit` from several threads
-/

set_option autoImplicit false

namespace Verif

/-- One thread for each call, before the first step. -/
def Threads.start (W : World) (S : FitSteps) (fuel : ℕ) (calls : List FitCall) (h : Heap) : Threads :=
  ⟨h, calls.map fun c => c.steps W S fuel⟩

/-- The call is one of `fit` of a `MapperAlgorithm` or `MapperClustering` with this clustering, which shares
nothing with its clones: it is no `FailSafeClustering` around another estimator, and no `MapperClustering`
around such a one. -/
def FitCall.Separate (W : World) (h : Heap) (c : FitCall) : Prop :=
  ∃ clust, c.Valid W h clust ∧ ∀ rk, clust = .obj rk → SharesNothing h rk

/-- The outcome of a call on `r`, with the result called `name`: the expected result is there and the call
returned, or the expected exception was raised and the results are those of the heap `h`. -/
def CallOutcome (h h' : Heap) (r : ℕ) (name : String) (expected : Py (Val × ℕ)) (res : Py Unit) : Prop :=
  match expected with
  | .ok (v, m) => res = .ok () ∧ attrAt h' r name = some v ∧ attrAt h' r "n_features_in_" = some (.int m)
  | .error e => res = .error e ∧ attrAt h' r name = attrAt h r name ∧
      attrAt h' r "n_features_in_" = attrAt h r "n_features_in_"

end Verif

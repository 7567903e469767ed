import Verif.Model.Jobs
import Verif.Spec.Learn

/-!
# Specification: schedules of the parallel jobs
-/

set_option autoImplicit false

namespace Verif

/-- No step of the method sets a public attribute. -/
def Local.KeepsPublic : Local → Prop
  | .done _ => True
  | .step upd next => ∀ a, SamePublic a (upd a) ∧ (a.keys.Nodup → (upd a).keys.Nodup) ∧
      (next a).KeepsPublic

/-- The steps of `fit` compute, undisturbed, what the world says, and set no public
attribute. -/
def Implements (W : World) (S : FitSteps) : Prop :=
  ∀ cls X, (S cls X).KeepsPublic ∧ ∀ a, (S cls X).run a = W.fit cls a X

/-- The state before the first job. -/
def Config.start (h : Heap) (charts : List (List ℕ)) : Config := ⟨h, charts, []⟩

/-- `Parallel` returns or raises: all dispatched jobs have finished, and all charts are
dispatched or some job has failed. -/
def Config.Stopped (c : Config) : Prop :=
  (∀ j ∈ c.jobs, ∃ r, j.thread = .done r) ∧
    (c.pending = [] ∨ ∃ j ∈ c.jobs, ∃ e, j.thread = .done (.error e))

/-- What `mapper_labels` makes of the results of the jobs, core.py:106-116. -/
def Config.labels (X : List RealArray) (c : Config) : Py (List (List ℤ)) := do
  let runs ← collectJobs c.jobs
  labelCharts runs 0 (X.map fun _ => [])

end Verif

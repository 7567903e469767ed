import Verif.Model.Jobs

/-!
# Model of `MapperAlgorithm.fit` and `MapperClustering.fit` in steps

Model/Learn.lean has the two methods as a whole. Here they are sequences of atomic steps, one for each
attribute that is read or assigned and each object that is created, so that they can be stopped
between any two: the user interrupts the program (`KeyboardInterrupt`), or a callback raises an
exception that nothing in the library catches (core.py:344-350 catches `ValueError` only).

Simplifications: one clone is one step, and so are the charts of the cover, which is a new object
(an interrupt inside them can change new objects only). The jobs are done one after
the other (`n_jobs=1`); with more of them `joblib` waits or kills them.
-/

set_option autoImplicit false

namespace Verif

/-- learn.py:163-164 and 166-167: `self._x = clone(v)` unless `v` is `None`; see `cloneInto`. -/
def cloneIntoSteps (W : World) (fuel : ℕ) (r : ℕ) (priv : String) : Val → Thread Unit
  | .none => pure ()
  | v => do
    let c ← Thread.atom (cloneVal W fuel v)
    Thread.atom (writeAttr r priv (.obj c))

/-- learn.py:162-164 and 165-167; see `setParamClone`. -/
def setParamCloneSteps (W : World) (fuel : ℕ) (r : ℕ) (cls priv param : String) : Thread Unit := do
  let t ← Thread.atom (alloc cls PyDict.empty)
  Thread.atom (writeAttr r priv (.obj t))
  let v ← Thread.atom (readAttr r param)
  cloneIntoSteps W fuel r priv v

/-- learn.py:171-174; see `wrapFailSafe`. -/
def wrapFailSafeSteps (r : ℕ) : Thread Unit := do
  let c ← Thread.atom (readAttr r "_clustering")
  let v ← Thread.atom (readAttr r "_verbose")
  let f ← Thread.atom (alloc "FailSafeClustering" ⟨[("clustering", c), ("verbose", v)]⟩)
  Thread.atom (writeAttr r "_clustering" (.obj f))

/-- learn.py:170-174; see `wrapIf`. -/
def wrapIfSteps (failsafe : Val) (r : ℕ) : Thread Unit :=
  if truthy failsafe then wrapFailSafeSteps r else pure ()

/-- learn.py:162-176; see `mapperSetup`. -/
def mapperSetupSteps (W : World) (fuel : ℕ) (r : ℕ) : Thread Unit := do
  setParamCloneSteps W fuel r "TrivialCover" "_cover" "cover"
  setParamCloneSteps W fuel r "TrivialClustering" "_clustering" "clustering"
  let verbose ← Thread.atom (readAttr r "verbose")
  Thread.atom (writeAttr r "_verbose" verbose)
  let failsafe ← Thread.atom (readAttr r "failsafe")
  Thread.atom (writeAttr r "_failsafe" failsafe)
  let failsafe ← Thread.atom (readAttr r "_failsafe")
  wrapIfSteps failsafe r
  let nJobs ← Thread.atom (readAttr r "n_jobs")
  Thread.atom (writeAttr r "_n_jobs" nJobs)

/-- learn.py:177-183; see `mapperRun`. The graph is built in local variables (core.py:196-213), and
assigned when it is complete. -/
def mapperRunSteps (W : World) (S : FitSteps) (fuel : ℕ) (r : ℕ) (aX : RealArray)
    (X y : List RealArray) : Thread Unit := do
  let cover ← Thread.atom (readAttr r "_cover")
  let cover ← Thread.atom (asObj cover)
  let clust ← Thread.atom (readAttr r "_clustering")
  let clust ← Thread.atom (asObj clust)
  let charts ← Thread.atom (applyCover W cover y)
  let runs ← jobsThread W fuel (fitThread W S fuel fuel) X clust charts
  let itm ← Thread.done (labelCharts runs 0 (X.map fun _ => []))
  let g ← Thread.done (graphOfLabels itm)
  Thread.atom (writeAttr r "graph_" (.graph g))
  let n ← Thread.done (nFeatures aX)
  Thread.atom (writeAttr r "n_features_in_" (.int n))

/-- learn.py:147-184 `MapperAlgorithm.fit`; see `mapperAlgorithmFit`. -/
def mapperAlgorithmSteps (W : World) (S : FitSteps) (fuel : ℕ) (r : ℕ) (X : Input)
    (y : Option Input) : Thread Unit := do
  let (aX, ay) ← Thread.done (validateXy X (y.getD X))
  mapperSetupSteps W fuel r
  let X ← Thread.done (rowsOf aX)
  let y ← Thread.done (rowsOf ay)
  mapperRunSteps W S fuel r aX X y

/-- learn.py:65-91 `MapperClustering.fit`; see `mapperClusteringFitWith`. With `y=None` this is
`mapperClusteringThread`. -/
def mapperClusteringSteps (W : World) (fuel : ℕ) (fit : ℕ → List RealArray → Thread Unit) (r : ℕ)
    (X : Input) (y : Option Input) : Thread Unit := do
  let (aX, ay) ← Thread.done (validateXy X (y.getD X))
  let cover ← Thread.atom (readAttr r "cover")
  let cover ← Thread.atom (orTrivial "TrivialCover" cover)
  let cover ← Thread.atom (cloneVal W fuel cover)
  let clust ← Thread.atom (readAttr r "clustering")
  let clust ← Thread.atom (orTrivial "TrivialClustering" clust)
  let clust ← Thread.atom (cloneVal W fuel clust)
  let _nJobs ← Thread.atom (readAttr r "n_jobs")
  let X ← Thread.done (rowsOf aX)
  let y ← Thread.done (rowsOf ay)
  let charts ← Thread.atom (applyCover W cover y)
  let runs ← jobsThread W fuel fit X clust charts
  let itm ← Thread.done (labelCharts runs 0 (X.map fun _ => []))
  let comps ← Thread.done (componentsOfLabels W.setOrder itm)
  let lbls ← Thread.done (gather comps (List.range X.length))
  Thread.atom (writeAttr r "labels_" (.labels lbls))
  let n ← Thread.done (nFeatures aX)
  Thread.atom (writeAttr r "n_features_in_" (.int n))

/-- The heap after `k` steps, or after all steps if there are fewer. -/
def Thread.after {α : Type} : ℕ → Thread α → Heap → Heap
  | 0, _, h => h
  | _ + 1, .done _, h => h
  | k + 1, .step upd next, h => (next h).after k (upd h)

end Verif

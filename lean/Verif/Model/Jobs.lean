import Verif.Model.Learn

/-!
# Model of the parallel clustering jobs of `mapper_labels`

core.py:94-105 runs one job per chart with `joblib.Parallel(n_jobs, prefer="threads")`:
the jobs share one heap. A job is a computation in atomic steps (one attribute
access each), and a schedule chooses which job takes the next step. The
calling thread pulls the charts and clones the clustering when it dispatches a job,
at any time while earlier jobs are running.

Simplifications: one clone is one step (jobs do not modify the parameters that it
reads), the charts are computed beforehand (the generator `cover.apply` works on
the cover and its own state only), and `joblib` stores the result of each job in the
place of that job. The jobs of a `MapperClustering` that is itself the clustering of a
job are done one after the other (its default `n_jobs=1`). For `n_jobs=1` `joblib` runs each job when it is dispatched.
-/

set_option autoImplicit false

namespace Verif

/-- A computation in atomic steps on the shared heap: finished, or one step, which
updates the heap and continues depending on the heap it found. -/
inductive Thread (α : Type) where
  | done (r : Py α)
  | step (upd : Heap → Heap) (next : Heap → Thread α)

namespace Thread
variable {α β : Type}

/-- Sequencing; an exception skips the rest. -/
def bind (f : α → Thread β) : Thread α → Thread β
  | done (.ok a) => f a
  | done (.error e) => done (.error e)
  | step upd next => step upd fun h => bind f (next h)

instance : Monad Thread where
  pure a := done (.ok a)
  bind t f := Thread.bind f t

/-- One atomic step. -/
def atom (x : Eff α) : Thread α := step (fun h => (x h).2) fun h => done (x h).1

/-- `try: body except ValueError: handler`. -/
def tryValueError (handler : Thread α) : Thread α → Thread α
  | done r =>
    match r with
    | .error .valueError => handler
    | r => done r
  | step upd next => step upd fun h => tryValueError handler (next h)

/-- All steps in a row, undisturbed. -/
def run : Thread α → Eff α
  | done r => fun h => (r, h)
  | step upd next => fun h => run (next h) (upd h)

end Thread

/-- A method of a class outside this model, in atomic steps on the attributes of its
own object. -/
inductive Local where
  | done (r : Py Unit)
  | step (upd : PyDict String Val → PyDict String Val) (next : PyDict String Val → Local)

/-- All steps in a row. -/
def Local.run : Local → PyDict String Val → PyDict String Val × Py Unit
  | .done r, a => (a, r)
  | .step upd next, a => (next a).run (upd a)

/-- Update the attributes of the object at an address. -/
def modifyObj (h : Heap) (r : ℕ) (upd : PyDict String Val → PyDict String Val) : Heap :=
  match h[r]? with
  | some o => h.set r ⟨o.cls, upd o.attrs⟩
  | none => h

/-- The method called on the object at address `r`. -/
def Local.on (r : ℕ) : Local → Thread Unit
  | .done x => .done x
  | .step upd next => .step (fun h => modifyObj h r upd) fun h =>
    match h[r]? with
    | some o => (next o.attrs).on r
    | none => .done (.error .attributeError)

/-- The steps of `fit(X)` of classes outside this model, by class. -/
abbrev FitSteps := String → List RealArray → Local

/-- core.py:337-350 `FailSafeClustering.fit`, in steps. -/
def failSafeThread (fitInner : ℕ → List RealArray → Thread Unit) (r : ℕ) (X : List RealArray) :
    Thread Unit := do
  let c ← Thread.atom (readAttr r "clustering")
  let inner ← Thread.atom (orTrivial "TrivialClustering" c)
  Thread.atom (writeAttr r "_clustering" inner)
  let verbose ← Thread.atom (readAttr r "verbose")
  Thread.atom (writeAttr r "_verbose" verbose)
  Thread.tryValueError (Thread.atom (writeAttr r "labels_" (.labels (X.map fun _ => 0)))) (do
    let c ← Thread.atom (readAttr r "_clustering")
    let t ← Thread.atom (asObj c)
    fitInner t X
    let lbls ← Thread.atom (readAttr t "labels_")
    Thread.atom (writeAttr r "labels_" lbls))

/-- core.py:94-105: the jobs of a nested Mapper, in steps, one job after the other; see
`runJobsE`. -/
def jobsThread (W : World) (fuel : ℕ) (fit : ℕ → List RealArray → Thread Unit)
    (X : List RealArray) (clust : ℕ) : List (List ℕ) → Thread (List (List ℕ × List ℤ))
  | [] => pure []
  | ids :: charts => do
    let xLocal ← Thread.done (gather X ids)
    let c ← Thread.atom (cloneE W fuel clust)
    fit c xLocal
    let v ← Thread.atom (readAttr c "labels_")
    let lbls ← Thread.atom (asLabels v)
    let rest ← jobsThread W fuel fit X clust charts
    return (ids, lbls) :: rest

/-- learn.py:65-91 `MapperClustering.fit`, in steps; see `mapperClusteringFitWith`. The charts
are computed in one step: the cover is a new object, which other jobs do not know. -/
def mapperClusteringThread (W : World) (fuel : ℕ) (fit : ℕ → List RealArray → Thread Unit) (r : ℕ)
    (X : Input) : Thread Unit := do
  let (aX, ay) ← Thread.done (validateXy X X)
  let cover ← Thread.atom (readAttr r "cover")
  let cover ← Thread.atom (orTrivial "TrivialCover" cover)
  let cover ← Thread.atom (cloneVal W fuel cover)
  let clust ← Thread.atom (readAttr r "clustering")
  let clust ← Thread.atom (orTrivial "TrivialClustering" clust)
  let clust ← Thread.atom (cloneVal W fuel clust)
  let _nJobs ← Thread.atom (readAttr r "n_jobs")
  let X ← Thread.done (rowsOf aX)
  let y ← Thread.done (rowsOf ay)
  let charts ← Thread.atom (applyCover W cover y)
  let runs ← jobsThread W fuel fit X clust charts
  let itm ← Thread.done (labelCharts runs 0 (X.map fun _ => []))
  let comps ← Thread.done (componentsOfLabels W.setOrder itm)
  let lbls ← Thread.done (gather comps (List.range X.length))
  Thread.atom (writeAttr r "labels_" (.labels lbls))
  let n ← Thread.done (nFeatures aX)
  Thread.atom (writeAttr r "n_features_in_" (.int n))

/-- `obj.fit(X)` of a clustering, by class, in steps; see `fitObj`. -/
def fitThread (W : World) (S : FitSteps) (fuel depth : ℕ) (r : ℕ) (X : List RealArray) :
    Thread Unit := do
  let o ← Thread.atom (readObj r)
  if o.cls = "FailSafeClustering" then
    match depth with
    | 0 => Thread.done (.error .diverge)
    | depth + 1 => failSafeThread (fitThread W S fuel depth) r X
  else if o.cls = "MapperClustering" then
    match depth with
    | 0 => Thread.done (.error .diverge)
    | depth + 1 => mapperClusteringThread W fuel (fitThread W S fuel depth) r (stackRows X)
  else if o.cls = "TrivialClustering" then Thread.atom (trivialFit r X)
  else (S o.cls X).on r

/-- core.py:94-98 `_run_clustering`. -/
def jobThread (W : World) (S : FitSteps) (fuel : ℕ) (c : ℕ) (X : List RealArray) :
    Thread (List ℤ) := do
  fitThread W S fuel fuel c X
  let v ← Thread.atom (readAttr c "labels_")
  Thread.atom (asLabels v)

/-- A dispatched job: its chart, and what is left to do. -/
structure Job where
  ids : List ℕ
  thread : Thread (List ℤ)

/-- The state of `Parallel`: charts not yet dispatched, and dispatched jobs in order. -/
structure Config where
  heap : Heap
  pending : List (List ℕ)
  jobs : List Job

/-- What happens next: the next job is dispatched, or job `i` takes a step. -/
inductive Choice where
  | dispatch
  | run (i : ℕ)

/-- The job has finished without exception. -/
def Job.succeeded (j : Job) : Bool :=
  match j.thread with
  | .done (.ok _) => true
  | _ => false

/-- core.py:100-105: the job for a chart, with the heap after cloning. An exception
of the calling thread is recorded in the place of the job. -/
def dispatchJob (W : World) (S : FitSteps) (fuel : ℕ) (X : List RealArray) (clust : ℕ)
    (ids : List ℕ) (h : Heap) : Job × Heap :=
  match gather X ids with
  | .error e => (⟨ids, .done (.error e)⟩, h)
  | .ok xs =>
    match cloneE W fuel clust h with
    | (.error e, h') => (⟨ids, .done (.error e)⟩, h')
    | (.ok c, h') => (⟨ids, jobThread W S fuel c xs⟩, h')

/-- One step of the whole; `none` if the choice is not possible. With `oneWorker`
(`n_jobs=1`) a job is dispatched when all earlier ones have succeeded. -/
def Config.next (W : World) (S : FitSteps) (fuel : ℕ) (X : List RealArray) (clust : ℕ)
    (oneWorker : Bool) (c : Config) : Choice → Option Config
  | .dispatch =>
    match c.pending with
    | [] => none
    | ids :: rest =>
      if oneWorker && !(c.jobs.all Job.succeeded) then none
      else
        let p := dispatchJob W S fuel X clust ids c.heap
        some ⟨p.2, rest, c.jobs ++ [p.1]⟩
  | .run i =>
    match c.jobs[i]? with
    | some ⟨ids, .step upd next⟩ =>
      some ⟨upd c.heap, c.pending, c.jobs.set i ⟨ids, next c.heap⟩⟩
    | _ => none

/-- A whole schedule. -/
def Config.follow (W : World) (S : FitSteps) (fuel : ℕ) (X : List RealArray) (clust : ℕ)
    (oneWorker : Bool) : List Choice → Config → Option Config
  | [], c => some c
  | ch :: rest, c => (c.next W S fuel X clust oneWorker ch).bind
      (Config.follow W S fuel X clust oneWorker rest)

/-- The list `_lbls` of results, or an exception if a job raised one (or has not
finished, which does not happen when `Parallel` returns). -/
def collectJobs : List Job → Py (List (List ℕ × List ℤ))
  | [] => .ok []
  | ⟨ids, .done r⟩ :: rest => do
    let lbls ← r
    let out ← collectJobs rest
    return (ids, lbls) :: out
  | ⟨_, .step _ _⟩ :: _ => .error .diverge

end Verif

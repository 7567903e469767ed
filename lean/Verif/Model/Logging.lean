import Verif.Model.Core

/-!
# Model of the log records of `core.py`

`FailSafeClustering` logs the exceptions it catches (core.py:345-348). Here an exception of the
wrapped clustering comes with its message, and the computation of the graph returns the records
logged so far, whether it succeeds or raises. The jobs run one after another (`n_jobs=1`).
-/

set_option autoImplicit false

namespace Verif

variable {S T : Type}

/-- A clustering whose exceptions have a message, in job number `c`. -/
abbrev TalkingClustFn (S : Type) := Nat → List S → Except (PyErr × String) (List Int)

/-- core.py:348: the record logged for an exception with message `msg`. -/
def clusteringRecord (msg : String) : String :=
  "Unable to perform clustering on local chart: " ++ msg

/-- core.py:325-350 `FailSafeClustering.fit`, then `labels_`, and the records. -/
def failSafeLog (verbose : Bool) (inner : List S → Except (PyErr × String) (List Int))
    (X : List S) : Py (List Int) × List String :=
  match inner X with
  | .ok lbls => (.ok lbls, [])
  | .error (.valueError, msg) =>
    (.ok (X.map fun _ => 0), if verbose then [clusteringRecord msg] else [])
  | .error (e, _) => (.error e, [])

/-- core.py:94-105, see `runJobs`. -/
def runJobsLog (X : List S) (verbose : Bool) (clust : TalkingClustFn S) :
    (c : Nat) → List (List Nat) → Py (List (List Nat × List Int)) × List String
  | _, [] => (.ok [], [])
  | c, ids :: charts =>
    match gather X ids with
    | .error e => (.error e, [])
    | .ok xLocal =>
      match failSafeLog verbose (clust c) xLocal with
      | (.error e, log) => (.error e, log)
      | (.ok lbls, log) =>
        match runJobsLog X verbose clust (c + 1) charts with
        | (.error e, more) => (.error e, log ++ more)
        | (.ok rest, more) => (.ok ((ids, lbls) :: rest), log ++ more)

/-- core.py:61-116 `mapper_labels`. -/
def mapperLabelsLog (X : List S) (y : List T) (cover : CoverFn T) (verbose : Bool)
    (clust : TalkingClustFn S) : Py (List (List Int)) × List String :=
  match cover y with
  | .error e => (.error e, [])
  | .ok charts =>
    match runJobsLog X verbose clust 0 charts with
    | (.error e, log) => (.error e, log)
    | (.ok runs, log) => (labelCharts runs 0 (X.map fun _ => []), log)

/-- core.py:167-213 `mapper_graph`, for a clustering wrapped by `FailSafeClustering` as in
learn.py:170-174. -/
def mapperGraphLog (X : List S) (y : List T) (cover : CoverFn T) (verbose : Bool)
    (clust : TalkingClustFn S) : Py NxGraph × List String :=
  match mapperLabelsLog X y cover verbose clust with
  | (.error e, log) => (.error e, log)
  | (.ok itm, log) => (addPoints 0 itm NxGraph.empty >>= addEdges itm, log)

end Verif

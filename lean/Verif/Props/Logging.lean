import Verif.Model.Logging
import Verif.Proof.Labels

/-!
# C104: the log records of failing clusterings
-/

set_option autoImplicit false
set_option linter.unusedSectionVars false

namespace Verif

variable {S T : Type}

/-- The clustering without the messages of its exceptions. -/
def silent (clust : TalkingClustFn S) : ClustFn S := fun c X =>
  match clust c X with
  | .ok l => .ok l
  | .error (e, _) => .error e

/-- The messages of the `ValueError`s raised on the charts, from job number `c` on. -/
def valueErrors (X : List S) (clust : TalkingClustFn S) : ℕ → List (List ℕ) → List String
  | _, [] => []
  | c, ids :: charts =>
    match clust c (pointsOf X ids) with
    | .error (.valueError, msg) => msg :: valueErrors X clust (c + 1) charts
    | _ => valueErrors X clust (c + 1) charts

/-- The charts, from job number `c` on, before the first one whose job raises: an index is out of
range, or the clustering raises something else than `ValueError`. -/
def chartsBefore (X : List S) (clust : TalkingClustFn S) : ℕ → List (List ℕ) → List (List ℕ)
  | _, [] => []
  | c, ids :: charts =>
    if ∃ i ∈ ids, X.length ≤ i then []
    else
      match clust c (pointsOf X ids) with
      | .ok _ | .error (.valueError, _) => ids :: chartsBefore X clust (c + 1) charts
      | .error _ => []

theorem failSafeLog_fst (v : Bool) (clust : TalkingClustFn S) (c : ℕ) (X : List S) :
    (failSafeLog v (clust c) X).1 = failSafe (some (silent clust c)) X := by
  unfold failSafeLog failSafe silent
  simp only [Option.getD_some]
  rcases h : clust c X with ⟨e, m⟩ | l
  · cases e <;> rfl
  · rfl

theorem runJobsLog_fst (X : List S) (v : Bool) (clust : TalkingClustFn S) :
    ∀ charts c, (runJobsLog X v clust c charts).1 =
      runJobs X (fun c => failSafe (some (silent clust c))) c charts := by
  intro charts
  induction charts with
  | nil => intro c; rfl
  | cons ids charts ih =>
    intro c
    rw [runJobsLog, runJobs]
    cases gather X ids with
    | error e => rfl
    | ok xs =>
      simp only [ok_bind]
      have h1 := failSafeLog_fst v clust c xs
      rcases h2 : failSafeLog v (clust c) xs with ⟨_ | l, log⟩
      · rw [h2] at h1; rw [← h1]; rfl
      · rw [h2] at h1; rw [← h1]
        simp only [ok_bind]
        have h3 := ih (c + 1)
        rcases h4 : runJobsLog X v clust (c + 1) charts with ⟨_ | r, more⟩ <;>
          (rw [h4] at h3; rw [← h3]; rfl)

theorem failSafeLog_snd (v : Bool) (inner : List S → Except (PyErr × String) (List ℤ)) (X : List S) :
    (failSafeLog v inner X).2 =
      match inner X with
      | .error (.valueError, msg) => if v then [clusteringRecord msg] else []
      | _ => [] := by
  unfold failSafeLog
  rcases h : inner X with ⟨e, m⟩ | l
  · cases e <;> rfl
  · rfl

theorem runJobsLog_snd (X : List S) (v : Bool) (clust : TalkingClustFn S) :
    ∀ charts c, (runJobsLog X v clust c charts).2 =
      (if v then (valueErrors X clust c (chartsBefore X clust c charts)).map clusteringRecord
        else []) ∧
    ∀ runs, (runJobsLog X v clust c charts).1 = .ok runs → chartsBefore X clust c charts = charts := by
  intro charts
  induction charts with
  | nil => intro c; exact ⟨by simp [runJobsLog, valueErrors, chartsBefore], fun runs _ => rfl⟩
  | cons ids charts ih =>
    intro c
    rw [runJobsLog, chartsBefore]
    by_cases hin : ∃ i ∈ ids, X.length ≤ i
    · rw [if_pos hin, gather_error X ids hin]
      exact ⟨by simp [valueErrors], fun runs h => by simp at h⟩
    · rw [if_neg hin, gather_ok X ids (by simpa using hin)]
      simp only
      have h1 := failSafeLog_snd v (clust c) (pointsOf X ids)
      obtain ⟨hn, hok⟩ := ih (c + 1)
      have step : ∀ m, (if v then (valueErrors X clust c (ids :: m)).map clusteringRecord else []) =
          (failSafeLog v (clust c) (pointsOf X ids)).2 ++
            if v then (valueErrors X clust (c + 1) m).map clusteringRecord else [] := by
        intro m
        rw [h1, valueErrors]
        rcases clust c (pointsOf X ids) with ⟨e, msg⟩ | l
        · cases e <;> cases v <;> simp
        · cases v <;> simp
      have hcase : (∃ l, (failSafeLog v (clust c) (pointsOf X ids)).1 = .ok l ∧
            (match clust c (pointsOf X ids) with
              | .ok _ | .error (.valueError, _) => ids :: chartsBefore X clust (c + 1) charts
              | .error _ => []) = ids :: chartsBefore X clust (c + 1) charts) ∨
          ((∃ e, failSafeLog v (clust c) (pointsOf X ids) = (.error e, [])) ∧
            (match clust c (pointsOf X ids) with
              | .ok _ | .error (.valueError, _) => ids :: chartsBefore X clust (c + 1) charts
              | .error _ => []) = []) := by
        unfold failSafeLog
        rcases clust c (pointsOf X ids) with ⟨e, msg⟩ | l
        · cases e <;> first
            | exact .inr ⟨⟨_, rfl⟩, rfl⟩
            | exact .inl ⟨_, rfl, rfl⟩
        · exact .inl ⟨_, rfl, rfl⟩
      rcases hcase with ⟨l, hl, hm⟩ | ⟨⟨e, hl⟩, hm⟩
      · rw [hm, step]
        rcases h2 : failSafeLog v (clust c) (pointsOf X ids) with ⟨r, log⟩
        rw [h2] at hl
        obtain rfl : r = .ok l := hl
        simp only
        rcases h4 : runJobsLog X v clust (c + 1) charts with ⟨_ | r, more⟩
        · rw [h4] at hn
          exact ⟨by rw [← hn], fun runs h => by simp at h⟩
        · rw [h4] at hn
          exact ⟨by rw [← hn], fun runs _ => by rw [hok r (by rw [h4])]⟩
      · rw [hm, hl]
        exact ⟨by simp [valueErrors], fun runs h => by simp at h⟩

/-- **C104 (results).** Logging changes no result: the graph, or the exception, is that of
`mapper_graph` with the same clustering wrapped by `FailSafeClustering`, whether `verbose` is set or
not. -/
theorem C104_same (X : List S) (y : List T) (cover : CoverFn T) (v : Bool)
    (clust : TalkingClustFn S) :
    (mapperGraphLog X y cover v clust).1 =
      mapperGraph X y cover (fun c => failSafe (some (silent clust c))) := by
  unfold mapperGraphLog mapperLabelsLog mapperGraph mapperLabels
  cases cover y with
  | error e => rfl
  | ok charts =>
    simp only [ok_bind]
    have h := runJobsLog_fst X v clust charts 0
    rcases h2 : runJobsLog X v clust 0 charts with ⟨_ | runs, log⟩
    · rw [h2] at h; rw [← h]; rfl
    · rw [h2] at h; rw [← h]
      simp only [ok_bind]
      cases labelCharts runs 0 (X.map fun _ => []) <;> rfl

/-- **C104 (records).** With `verbose`, computing the graph logs one record for every chart on which
the clustering raised `ValueError`, in the order of the charts, with the message of the exception:
those of all charts if it succeeds, and else those of the charts before the first one whose job
raises. -/
theorem C104_records (X : List S) (y : List T) (cover : CoverFn T) (clust : TalkingClustFn S)
    (charts : List (List ℕ)) (hc : cover y = .ok charts) :
    (mapperGraphLog X y cover true clust).2 =
      ((valueErrors X clust 0 (chartsBefore X clust 0 charts)).map fun msg =>
        "Unable to perform clustering on local chart: " ++ msg) ∧
    ∀ g, (mapperGraphLog X y cover true clust).1 = .ok g → chartsBefore X clust 0 charts = charts := by
  unfold mapperGraphLog mapperLabelsLog
  rw [hc]
  simp only
  obtain ⟨hn, hok⟩ := runJobsLog_snd X true clust charts 0
  rcases h2 : runJobsLog X true clust 0 charts with ⟨_ | runs, log⟩
  · rw [h2] at hn
    exact ⟨hn.trans (if_pos rfl), fun g h => by simp at h⟩
  · rw [h2] at hn
    have hok := hok runs (by rw [h2])
    simp only
    cases labelCharts runs 0 (X.map fun _ => []) with
    | error e => exact ⟨hn.trans (if_pos rfl), fun g h => by simp at h⟩
    | ok itm => exact ⟨hn.trans (if_pos rfl), fun g _ => hok⟩

/-- **C104 (silence).** Without `verbose` nothing is logged. -/
theorem C104_silent (X : List S) (y : List T) (cover : CoverFn T) (clust : TalkingClustFn S) :
    (mapperGraphLog X y cover false clust).2 = [] := by
  unfold mapperGraphLog mapperLabelsLog
  cases cover y with
  | error e => rfl
  | ok charts =>
    simp only
    obtain ⟨hn, _⟩ := runJobsLog_snd X false clust charts 0
    rcases h2 : runJobsLog X false clust 0 charts with ⟨_ | runs, log⟩
    · rw [h2] at hn; simpa using hn
    · rw [h2] at hn
      simp only
      cases labelCharts runs 0 (X.map fun _ => []) <;> simpa using hn

section examples

/-- A clustering that needs two points, and can do nothing with a zero. -/
def fussy : TalkingClustFn ℕ := fun _ X =>
  if 0 ∈ X then .error (.typeError, "zero")
  else if X.length < 2 then .error (.valueError, "too few points")
  else .ok (X.map fun x => (x : ℤ))

/-- Non-vacuity: two of three charts have one point. -/
example : (mapperGraphLog [3, 4, 5] [()] (fun _ => .ok [[0], [0, 1], [2]]) true fussy).2 =
      ["Unable to perform clustering on local chart: too few points",
       "Unable to perform clustering on local chart: too few points"] ∧
    ∃ g, (mapperGraphLog [3, 4, 5] [()] (fun _ => .ok [[0], [0, 1], [2]]) true fussy).1 = .ok g :=
  ⟨by decide +kernel, _, rfl⟩

/-- An exception that is not caught: only the record before it. -/
example : (mapperGraphLog [3, 0, 5] [()] (fun _ => .ok [[0], [0, 1], [2]]) true fussy).2 =
      ["Unable to perform clustering on local chart: too few points"] := by decide +kernel

end examples

end Verif

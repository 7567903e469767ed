import Verif.Proof.JobsOwn
import Verif.Props.Learn

/-!
# C37: parallel jobs

`Config.follow` runs a schedule: at any time the next job is dispatched or some job
takes one atomic step. `mapperLabels` is the function of `Verif.Model.Core`, the jobs
done one after the other by a clustering without state.
-/

set_option autoImplicit false

namespace Verif

theorem oneRunning_start (h : Heap) (charts : List (List ℕ)) : OneRunning (.start h charts) :=
  ⟨[], ⟨[], .done (.error .diverge)⟩, Or.inl rfl, fun _ h => by cases h⟩

/-- **C37 (one worker).** With `n_jobs=1`, for every clustering that meets the
scikit-learn contract, wrapped or not, and every schedule: when the jobs stop, the
outcome of `mapper_labels` is that of the clustering as a function. -/
theorem C37_one_worker {W : World} (hW : Contract W) {S : FitSteps} (hS : Implements W S)
    {n fuel : ℕ} (hf : n ≤ fuel) {h : Heap} (hg : GoodHeap h n) {clust : ℕ} {o : Obj}
    (eo : h[clust]? = some o) {ci : ClassInfo} (hC : ParamsByInit W.classes o ci)
    (hmr : MapperReady W h clust) (X y : List RealArray) (cover : CoverFn RealArray)
    {charts : List (List ℕ)} (hc : cover y = .ok charts) (sched : List Choice) {c : Config}
    (hrun : (Config.start h charts).follow W S fuel X clust true sched = some c)
    (hst : c.Stopped) :
    c.labels X = mapperLabels X y cover (fun _ => labelsOf W h fuel clust) := by
  have hm := meaning_follow hS sched (oneRunning_start h charts) hrun
  obtain ⟨h1, e1, _⟩ := run_runJobsE hW hf (fitObj_spec hW hf fuel) X clust charts hg eo hC hmr 0
  have hstart : (Config.start h charts).meaning W fuel X clust =
      (runJobs X (fun _ => labelsOf W h fuel clust) 0 charts, h1) := by
    simp only [Config.meaning, Config.start, finishJobs]
    rw [run_bind, run_pure]
    simp only
    rw [run_bind, e1]
    cases runJobs X (fun _ => labelsOf W h fuel clust) 0 charts <;> rfl
  have hend : (c.meaning W fuel X clust).1 = collectJobs c.jobs := by
    simp only [Config.meaning]
    rw [run_bind, finishJobs_done hst.1]
    cases hcj : collectJobs c.jobs with
    | error e => rfl
    | ok a =>
      rcases hst.2 with hp | ⟨j, hj, e, he⟩
      · simp only [hp, runJobsE]
        rw [run_bind, run_pure]
        simp
      · exfalso
        have : ∀ (js : List Job) a, j ∈ js → collectJobs js ≠ .ok a := by
          intro js
          induction js with
          | nil => intro a h; cases h
          | cons j' js ih =>
            intro a hj h
            obtain ⟨ids, t⟩ := j'
            cases t with
            | step _ _ => cases h
            | done r =>
              cases r with
              | error e => cases h
              | ok l =>
                rw [collectJobs, ok_bind] at h
                cases hr : collectJobs js with
                | error e => rw [hr] at h; cases h
                | ok a' =>
                  rcases List.mem_cons.mp hj with rfl | hj
                  · cases he
                  · exact ih a' hj hr
        exact this _ a hj hcj
  have hcol : collectJobs c.jobs = runJobs X (fun _ => labelsOf W h fuel clust) 0 charts := by
    rw [← hend, hm, hstart]
  rw [Config.labels, mapperLabels, hcol, hc]
  rfl

/-- **C37 (proved part).** For every number of workers and every schedule, when the
clustering shares no fitted object with its clones (it is no `FailSafeClustering` around
another estimator, and no `MapperClustering` around such a one): when
the jobs stop, the outcome of `mapper_labels` is that of the clustering as a function.
(If several charts fail, it is the exception of the first of them; `joblib` may
report another.) Missing: clusterings that wrap another one, see
`C37_race_violation`. -/
theorem C37_all_schedules_partial {W : World} (hW : Contract W) {S : FitSteps} (hS : Implements W S)
    {n fuel : ℕ} (hf : n ≤ fuel) {h : Heap} (hg : GoodHeap h n) {clust : ℕ} {o : Obj}
    (eo : h[clust]? = some o) {ci : ClassInfo} (hC : ParamsByInit W.classes o ci)
    (hsh : SharesNothing h clust) (hmr : MapperReady W h clust) (X y : List RealArray)
    (cover : CoverFn RealArray)
    {charts : List (List ℕ)} (hc : cover y = .ok charts) (oneWorker : Bool) (sched : List Choice)
    {c : Config} (hrun : (Config.start h charts).follow W S fuel X clust oneWorker sched = some c)
    (hst : c.Stopped) :
    c.labels X = mapperLabels X y cover (fun _ => labelsOf W h fuel clust) := by
  obtain ⟨owns, hs⟩ := separate_follow hW hS hf eo hC hsh hmr sched
    (separate_start hg charts) hrun
  rw [Config.labels, mapperLabels, separate_stopped hs hst, hc]
  rfl

/-- No deadlock: with any number of workers, jobs that have not stopped can go on. -/
theorem C37_progress (W : World) (S : FitSteps) (fuel : ℕ) (X : List RealArray) (clust : ℕ)
    (oneWorker : Bool) (c : Config) (hst : ¬ c.Stopped) :
    ∃ ch c', c.next W S fuel X clust oneWorker ch = some c' := by
  by_cases hd : ∀ j ∈ c.jobs, ∃ r, j.thread = .done r
  · have h1 : ¬ (c.pending = [] ∨ ∃ j ∈ c.jobs, ∃ e, j.thread = .done (.error e)) :=
      fun h => hst ⟨hd, h⟩
    rw [not_or] at h1
    have hall : c.jobs.all Job.succeeded = true := by
      rw [List.all_eq_true]
      intro j hj
      obtain ⟨r, hr⟩ := hd j hj
      rw [succeeded_iff]
      cases r with
      | ok l => exact ⟨l, hr⟩
      | error e => exact absurd ⟨j, hj, e, hr⟩ h1.2
    cases hp : c.pending with
    | nil => exact absurd hp h1.1
    | cons ids rest =>
      refine ⟨.dispatch, ⟨(dispatchJob W S fuel X clust ids c.heap).2, rest,
        c.jobs ++ [(dispatchJob W S fuel X clust ids c.heap).1]⟩, ?_⟩
      simp only [Config.next, hp, hall]
      simp
  · simp only [not_forall] at hd
    obtain ⟨j, hj, hnd⟩ := hd
    obtain ⟨i, hi⟩ := List.getElem?_of_mem hj
    obtain ⟨ids, t⟩ := j
    cases t with
    | done r => exact absurd ⟨r, rfl⟩ hnd
    | step upd next => exact ⟨.run i, ⟨upd c.heap, c.pending, c.jobs.set i ⟨ids, next c.heap⟩⟩, by
      simp only [Config.next, hi]⟩

/-! ### Examples -/


/-- The steps of the clustering of `exWorld`: one assignment of `labels_`. -/
def exSteps : FitSteps := fun _ X =>
  .step (fun a => a.set "labels_" (.labels (X.mapIdx fun i _ => (i : ℤ) % 2))) fun _ => .done (.ok ())

theorem exSteps_implements : Implements exWorld exSteps := fun _ _ =>
  ⟨fun _ => ⟨samePublic_set _ private_labels _, fun h => PyDict.nodup_keys_set h _ _, trivial⟩,
    fun _ => rfl⟩

/-- Three points, in two charts of one and two points. -/
def exPoints : List RealArray := [⟨[1], [.finite 1]⟩, ⟨[1], [.finite 2]⟩, ⟨[1], [.finite 3]⟩]
/-- The charts. -/
def exCharts : List (List ℕ) := [[0], [1, 2]]
/-- A cover with these charts. -/
def exCover : CoverFn RealArray := fun _ => .ok exCharts

/-- Both jobs are dispatched, then their steps alternate. -/
def exAlternate : List Choice := [.dispatch, .dispatch, .run 0, .run 1, .run 0, .run 1, .run 0,
  .run 1, .run 0, .run 1]

theorem exKM_init : ParamsByInit exWorld.classes exKM ⟨["fit", "get_params", "set_params"],
    ⟨[("n_clusters", .int 8)]⟩⟩ :=
  ⟨by rw [World.classes]; rfl, by decide +kernel, fun k _ => by simp [exKM, PyDict.keys]⟩

/-- The result of a finished thread. -/
def Thread.result? {α : Type} : Thread α → Option (Py α)
  | .done r => some r
  | .step _ _ => none

instance : DecidableEq (List ℕ × Option (Py (List ℤ))) := inferInstance

/-- The finished part of a configuration. -/
def Config.results (c : Config) : List (List ℕ × Option (Py (List ℤ))) × List (List ℕ) :=
  (c.jobs.map fun j => (j.ids, j.thread.result?), c.pending)

theorem stopped_of_results {c : Config} {l : List (List ℕ × Py (List ℤ))}
    (h : c.results = (l.map fun p => (p.1, some p.2), [])) : c.Stopped := by
  rw [Config.results, Prod.mk.injEq] at h
  refine ⟨fun j hj => ?_, Or.inl h.2⟩
  have h1 : (j.ids, j.thread.result?) ∈ l.map fun p => (p.1, some p.2) := by
    rw [← h.1]
    exact List.mem_map_of_mem hj
  cases ht : j.thread with
  | done r => exact ⟨r, rfl⟩
  | step upd next =>
    rw [ht] at h1
    simp [Thread.result?] at h1

/-- The hypotheses are met by the alternating schedule of the clustering `KM`. -/
example : ∃ c, (Config.start exObjects exCharts).follow exWorld exSteps 3 exPoints 1 false
      exAlternate = some c ∧ c.Stopped ∧ c.labels exPoints = .ok [[0], [1], [2]] := by
  obtain ⟨c, hc⟩ := Option.isSome_iff_exists.mp (show ((Config.start exObjects exCharts).follow exWorld exSteps 3 exPoints 1 false
      exAlternate).isSome = true by decide +kernel)
  have hres : ((Config.start exObjects exCharts).follow exWorld exSteps 3 exPoints 1 false
      exAlternate).map Config.results = some ([([0], some (.ok [0])), ([1, 2], some (.ok [0, 1]))], []) := by
    decide +kernel
  rw [hc, Option.map_some, Option.some.injEq] at hres
  have hst := stopped_of_results (l := [([0], .ok [0]), ([1, 2], .ok [0, 1])]) hres
  refine ⟨c, hc, hst, ?_⟩
  rw [C37_all_schedules_partial exWorld_contract exSteps_implements (le_refl 3) exObjects_good
    (clust := 1) (o := exKM) rfl exKM_init (.other (o := exKM) rfl (by decide) (by decide)) (exObjects_ready (by decide)) exPoints exPoints exCover
    rfl false exAlternate hc hst]
  decide +kernel

/-- Both jobs are dispatched, then `k` steps of each alternate. -/
def alternate : ℕ → List Choice
  | 0 => []
  | k + 1 => .run 0 :: .run 1 :: alternate k

theorem exMC_init : ParamsByInit exWorld.classes exMC ⟨commonMembers,
    ⟨[("cover", .none), ("clustering", .none), ("n_jobs", .int 1)]⟩⟩ :=
  ⟨by rw [World.classes]; rfl, by decide +kernel, fun k _ => by simp [exMC, PyDict.keys]⟩

/-- The hypotheses are met by an alternating schedule of a clustering that is itself a
`MapperClustering`, around `KM`. -/
example : ∃ c, (Config.start exObjects exCharts).follow exWorld exSteps 3 exPoints 5 false
      ([.dispatch, .dispatch] ++ alternate 18) = some c ∧ c.Stopped ∧
      c.labels exPoints = .ok [[0], [1], [2]] := by
  obtain ⟨c, hc⟩ := Option.isSome_iff_exists.mp (show ((Config.start exObjects exCharts).follow exWorld exSteps 3 exPoints 5 false
      ([.dispatch, .dispatch] ++ alternate 18)).isSome = true by decide +kernel)
  have hres : ((Config.start exObjects exCharts).follow exWorld exSteps 3 exPoints 5 false
      ([.dispatch, .dispatch] ++ alternate 18)).map Config.results =
      some ([([0], some (.ok [0])), ([1, 2], some (.ok [0, 1]))], []) := by
    decide +kernel
  rw [hc, Option.map_some, Option.some.injEq] at hres
  have hst := stopped_of_results (l := [([0], .ok [0]), ([1, 2], .ok [0, 1])]) hres
  refine ⟨c, hc, hst, ?_⟩
  rw [C37_all_schedules_partial exWorld_contract exSteps_implements (le_refl 3) exObjects_good
    (clust := 5) (o := exMC) rfl exMC_init
    (.mapper (o := exMC) rfl rfl fun rk h => by
      cases h; exact .other (o := exKM) rfl (by decide) (by decide))
    exObjects_ready_mc exPoints exPoints exCover rfl false _ hc hst]
  decide +kernel

/-- `k` steps of job `i`. -/
def steps (i k : ℕ) : List Choice := List.replicate k (.run i)

/-- Job 0 runs until the wrapped clustering is fitted, then job 1 does the same, then
both go on. -/
def exRace : List Choice := [.dispatch, .dispatch] ++ steps 0 10 ++ steps 1 10 ++ steps 0 4 ++ steps 1 4

/-- One job after the other. -/
def exSequential : List Choice := [.dispatch] ++ steps 0 14 ++ [.dispatch] ++ steps 1 14

/-- The hypotheses of the theorem for one worker are met by a wrapped clustering. -/
example : ∃ c, (Config.start exObjects exCharts).follow exWorld exSteps 3 exPoints 2 true
      exSequential = some c ∧ c.Stopped ∧ c.labels exPoints = .ok [[0], [1], [2]] := by
  obtain ⟨c, hc⟩ := Option.isSome_iff_exists.mp (show ((Config.start exObjects exCharts).follow exWorld exSteps 3 exPoints 2 true
      exSequential).isSome = true by decide +kernel)
  have hres : ((Config.start exObjects exCharts).follow exWorld exSteps 3 exPoints 2 true
      exSequential).map Config.results = some ([([0], some (.ok [0])), ([1, 2], some (.ok [0, 1]))], []) := by
    decide +kernel
  rw [hc, Option.map_some, Option.some.injEq] at hres
  have hst := stopped_of_results (l := [([0], .ok [0]), ([1, 2], .ok [0, 1])]) hres
  refine ⟨c, hc, hst, ?_⟩
  rw [C37_one_worker exWorld_contract exSteps_implements (le_refl 3) exObjects_good
    (clust := 2) (o := exFS) rfl (byInit_failSafe _ _ _) (exObjects_ready (by decide)) exPoints exPoints exCover
    rfl exSequential hc hst]
  decide +kernel

/-- The charts of the race: two points, then one. -/
def exCharts' : List (List ℕ) := [[0, 1], [2]]

/-- **C37 is false of the code** for wrapped clusterings: with
`FailSafeClustering(KM())`, two workers and this schedule, the first job returns the
labels of the second one, and the point at position 1 gets no label although the
clustering labels every point. -/
theorem C37_race_violation : ∃ sched c,
    (Config.start exObjects exCharts').follow exWorld exSteps 3 exPoints 2 false sched = some c ∧
    c.Stopped ∧ c.labels exPoints = .ok [[0], [], [1]] ∧
    mapperLabels exPoints exPoints (fun _ => .ok exCharts') (fun _ => labelsOf exWorld exObjects 3 2) =
      .ok [[0], [1], [2]] := by
  obtain ⟨c, hc⟩ := Option.isSome_iff_exists.mp (show ((Config.start exObjects exCharts').follow exWorld exSteps 3 exPoints 2 false
      exRace).isSome = true by decide +kernel)
  have hres : ((Config.start exObjects exCharts').follow exWorld exSteps 3 exPoints 2 false
      exRace).map Config.results = some ([([0, 1], some (.ok [0])), ([2], some (.ok [0]))], []) := by
    decide +kernel
  have hlab : ((Config.start exObjects exCharts').follow exWorld exSteps 3 exPoints 2 false
      exRace).map (Config.labels exPoints) = some (.ok [[0], [], [1]]) := by
    decide +kernel
  rw [hc, Option.map_some, Option.some.injEq] at hres hlab
  exact ⟨exRace, c, hc, stopped_of_results (l := [([0, 1], .ok [0]), ([2], .ok [0])]) hres, hlab,
    by decide +kernel⟩

end Verif

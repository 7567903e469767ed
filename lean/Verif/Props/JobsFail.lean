import Verif.Proof.JobsFail
import Verif.Props.Jobs

/-!
# C130: jobs that raise an exception

`C37` compares what `mapper_labels` returns with what the clustering as a function gives
when the jobs have stopped. Here it is said what each job returns, at every moment of
every schedule, so that nothing needs to be known of how `joblib` picks one of several
exceptions.
-/

set_option autoImplicit false

namespace Verif

variable {W : World} {S : FitSteps} {n fuel : ℕ} {h : Heap} {clust : ℕ} {o : Obj} {ci : ClassInfo}
  {charts : List (List ℕ)} {oneWorker : Bool} {sched : List Choice} {c : Config}

/-- **C130 (each job).** At every moment of every schedule, with any number of workers:
the jobs are those of the first charts in their order, and a job that has ended, returned
or raised what the clustering as a function gives on its own chart. -/
theorem C130_each_job (hW : Contract W) (hS : Implements W S) (hf : n ≤ fuel) (hg : GoodHeap h n)
    (eo : h[clust]? = some o) (hC : ParamsByInit W.classes o ci) (hsh : SharesNothing h clust)
    (hmr : MapperReady W h clust) (X : List RealArray)
    (hrun : (Config.start h charts).follow W S fuel X clust oneWorker sched = some c) :
    charts = c.jobs.map Job.ids ++ c.pending ∧
    ∀ j ∈ c.jobs, ∀ r, j.thread = .done r → r = OutcomeOn W h fuel X clust j.ids := by
  obtain ⟨owns, hs⟩ := separate_follow hW hS hf eo hC hsh hmr sched (separate_start hg charts) hrun
  refine ⟨hs.chartsEq, fun j hj r hr => ?_⟩
  obtain ⟨i, hi⟩ := List.getElem?_of_mem hj
  have := hs.wp i j hi
  rw [hr] at this
  exact this

/-- **C130 (reported exceptions).** An exception raised by any job, hence the one that
`joblib` reports, is one that the clustering raises on one of the charts. -/
theorem C130_reported (hW : Contract W) (hS : Implements W S) (hf : n ≤ fuel) (hg : GoodHeap h n)
    (eo : h[clust]? = some o) (hC : ParamsByInit W.classes o ci) (hsh : SharesNothing h clust)
    (hmr : MapperReady W h clust) (X : List RealArray)
    (hrun : (Config.start h charts).follow W S fuel X clust oneWorker sched = some c) :
    ∀ j ∈ c.jobs, ∀ e, j.thread = .done (.error e) →
      ∃ ids ∈ charts, OutcomeOn W h fuel X clust ids = .error e := by
  obtain ⟨hch, hr⟩ := C130_each_job hW hS hf hg eo hC hsh hmr X hrun
  intro j hj e he
  refine ⟨j.ids, ?_, (hr j hj _ he).symm⟩
  rw [hch]
  exact List.mem_append_left _ (List.mem_map_of_mem hj)

/-- **C130 (a failing chart).** If the clustering raises an exception on some chart, then
`mapper_labels` returns nothing, whatever the schedule: when the jobs stop, one of them
has raised the exception that the clustering raises on its chart. -/
theorem C130_fails (hW : Contract W) (hS : Implements W S) (hf : n ≤ fuel) (hg : GoodHeap h n)
    (eo : h[clust]? = some o) (hC : ParamsByInit W.classes o ci) (hsh : SharesNothing h clust)
    (hmr : MapperReady W h clust) (X : List RealArray)
    (hrun : (Config.start h charts).follow W S fuel X clust oneWorker sched = some c)
    (hst : c.Stopped) (hbad : ∃ ids ∈ charts, ∃ e, OutcomeOn W h fuel X clust ids = .error e) :
    (∃ j ∈ c.jobs, ∃ e, j.thread = .done (.error e)) ∧ ∀ out, c.labels X ≠ .ok out := by
  obtain ⟨hch, hr⟩ := C130_each_job hW hS hf hg eo hC hsh hmr X hrun
  have key : ∃ j ∈ c.jobs, ∃ e, j.thread = .done (.error e) := by
    rcases hst.2 with hp | hj
    · obtain ⟨ids, hids, e, he⟩ := hbad
      rw [hch, hp, List.append_nil, List.mem_map] at hids
      obtain ⟨j, hj, rfl⟩ := hids
      obtain ⟨r, hd⟩ := hst.1 j hj
      exact ⟨j, hj, e, by rw [hd, hr j hj r hd, he]⟩
    · exact hj
  refine ⟨key, fun out ho => ?_⟩
  obtain ⟨j, hj, e, he⟩ := key
  have hno : ∀ (js : List Job) a, j ∈ js → collectJobs js ≠ .ok a := by
    intro js
    induction js with
    | nil => intro a h; cases h
    | cons j' js ih =>
      intro a hj h
      obtain ⟨ids, t⟩ := j'
      cases t with
      | step _ _ => cases h
      | done r =>
        cases r with
        | error e => cases h
        | ok l =>
          rw [collectJobs, ok_bind] at h
          cases hr : collectJobs js with
          | error e => rw [hr] at h; cases h
          | ok a' =>
            rcases List.mem_cons.mp hj with rfl | hj
            · cases he
            · exact ih a' hj hr
  rw [Config.labels] at ho
  cases hcj : collectJobs c.jobs with
  | error e => rw [hcj] at ho; cases ho
  | ok a => exact hno _ _ hj hcj

/-- **C130 (no failing chart).** If the clustering raises an exception on no chart, then no
job raises one at any moment, and jobs that have stopped have done all the charts. -/
theorem C130_succeeds (hW : Contract W) (hS : Implements W S) (hf : n ≤ fuel) (hg : GoodHeap h n)
    (eo : h[clust]? = some o) (hC : ParamsByInit W.classes o ci) (hsh : SharesNothing h clust)
    (hmr : MapperReady W h clust) (X : List RealArray)
    (hrun : (Config.start h charts).follow W S fuel X clust oneWorker sched = some c)
    (hgood : ∀ ids ∈ charts, ∃ l, OutcomeOn W h fuel X clust ids = .ok l) :
    (∀ j ∈ c.jobs, ∀ e, j.thread ≠ .done (.error e)) ∧
    (c.Stopped → c.jobs.map Job.ids = charts) := by
  have hrep := C130_reported hW hS hf hg eo hC hsh hmr X hrun
  have hno : ∀ j ∈ c.jobs, ∀ e, j.thread ≠ .done (.error e) := by
    intro j hj e he
    obtain ⟨ids, hids, h1⟩ := hrep j hj e he
    obtain ⟨l, h2⟩ := hgood ids hids
    rw [h1] at h2
    cases h2
  refine ⟨hno, fun hst => ?_⟩
  obtain ⟨hch, _⟩ := C130_each_job hW hS hf hg eo hC hsh hmr X hrun
  rcases hst.2 with hp | ⟨j, hj, e, he⟩
  · rw [hch, hp, List.append_nil]
  · exact absurd he (hno j hj e)

/-- **C130 (the caller's objects).** At every moment, whatever jobs have failed, every
object that existed before is as it was: the clustering passed to `mapper_labels` is never
fitted, in part or in whole. -/
theorem C130_objects_kept (hW : Contract W) (hS : Implements W S) (hf : n ≤ fuel)
    (hg : GoodHeap h n) (eo : h[clust]? = some o) (hC : ParamsByInit W.classes o ci)
    (hsh : SharesNothing h clust) (hmr : MapperReady W h clust) (X : List RealArray)
    (hrun : (Config.start h charts).follow W S fuel X clust oneWorker sched = some c) :
    ∀ a, a < h.length → c.heap[a]? = h[a]? := by
  obtain ⟨owns, hs⟩ := separate_follow hW hS hf eo hC hsh hmr sched (separate_start hg charts) hrun
  exact fun a ha => hs.base.frame a ha fun h => h

/-- **C130 (jobs end).** No sequence of choices goes on forever: for every clustering,
wrapped or not, some finite part of it is no schedule. -/
theorem C130_ends (W : World) (S : FitSteps) (fuel : ℕ) (X : List RealArray) (clust : ℕ)
    (oneWorker : Bool) (c : Config) (choose : ℕ → Choice) :
    ∃ k, c.follow W S fuel X clust oneWorker ((List.range k).map choose) = none := by
  obtain ⟨h, pending, js⟩ := c
  exact jobs_end W S fuel X clust oneWorker pending (acc_jobs js) h choose

/-- **C130 (jobs stop).** Whatever has happened so far, the jobs can be run until they
stop. -/
theorem C130_stops (W : World) (S : FitSteps) (fuel : ℕ) (X : List RealArray) (clust : ℕ)
    (oneWorker : Bool) (c : Config) :
    ∃ sched c', c.follow W S fuel X clust oneWorker sched = some c' ∧ c'.Stopped := by
  by_contra hno
  push Not at hno
  -- a choice for every configuration that can go on
  have hstep : ∀ c' : Config, ¬ c'.Stopped → ∃ ch c'', c'.next W S fuel X clust oneWorker ch = some c'' :=
    fun c' => C37_progress W S fuel X clust oneWorker c'
  classical
  let pick : Config → Choice := fun c' => if hc : ¬ c'.Stopped then (hstep c' hc).choose else .dispatch
  let run : ℕ → Config := fun k => Nat.rec c (fun _ c' => (c'.next W S fuel X clust oneWorker (pick c')).getD c') k
  have hrun : ∀ k, c.follow W S fuel X clust oneWorker ((List.range k).map fun i => pick (run i)) = some (run k) := by
    intro k
    induction k with
    | zero => rfl
    | succ k ih =>
      rw [List.range_succ, List.map_append, follow_append, ih]
      have hns := hno _ _ ih
      obtain ⟨c'', hc''⟩ := (hstep (run k) hns).choose_spec
      have hp : pick (run k) = (hstep (run k) hns).choose := dif_pos hns
      have hnext : (run k).next W S fuel X clust oneWorker (pick (run k)) = some c'' := by rw [hp]; exact hc''
      have hsucc : run (k + 1) = ((run k).next W S fuel X clust oneWorker (pick (run k))).getD (run k) := rfl
      rw [hsucc, hnext]
      simp [Config.follow, hnext]
  obtain ⟨k, hk⟩ := C130_ends W S fuel X clust oneWorker c (fun i => pick (run i))
  rw [hrun k] at hk
  cases hk

/-! ### A clustering that refuses charts of two points -/

/-- `exWorld`, with a `fit` that raises an exception on two points, and another one on
three. -/
def failWorld : World where
  others := exWorld.others
  fit := fun _ a X => if X.length = 2 then (a, .error .valueError)
    else if X.length = 3 then (a, .error .typeError)
    else (a.set "labels_" (.labels (X.mapIdx fun i _ => (i : ℤ) % 2)), .ok ())
  apply := exWorld.apply
  setOrder := id

/-- Its steps. -/
def failSteps : FitSteps := fun cls X => if X.length = 2 then .done (.error .valueError)
  else if X.length = 3 then .done (.error .typeError) else exSteps cls X

theorem failWorld_contract : Contract failWorld where
  fit_public := fun _ _ X => by
    simp only [failWorld]
    split
    · exact SamePublic.refl _
    · split
      · exact SamePublic.refl _
      · exact samePublic_set _ private_labels _
  fit_nodup := fun _ _ X h => by
    simp only [failWorld]
    split
    · exact h
    · split
      · exact h
      · exact PyDict.nodup_keys_set h _ _
  apply_public := exWorld_contract.apply_public
  apply_nodup := exWorld_contract.apply_nodup
  fit_result := fun _ _ _ X _ => by
    simp only [failWorld]
    split
    · rfl
    · split <;> rfl
  fit_labels := fun _ _ _ X _ h => by
    simp only [failWorld] at h ⊢
    split at h
    · cases h
    · split at h
      · cases h
      · rename_i h2 h3
        rw [if_neg h2, if_neg h3, if_neg h2, if_neg h3]
        rw [PyDict.get?_set, PyDict.get?_set, if_pos rfl, if_pos rfl]

theorem failSteps_implements : Implements failWorld failSteps := fun cls X => by
  by_cases h2 : X.length = 2
  · refine ⟨by simp only [failSteps, h2, if_pos]; exact trivial, fun a => ?_⟩
    simp only [failSteps, failWorld, h2, if_pos]
    rfl
  · by_cases h3 : X.length = 3
    · refine ⟨by simp only [failSteps, if_neg h2, if_pos h3]; exact trivial, fun a => ?_⟩
      simp only [failSteps, failWorld, if_neg h2, if_pos h3]
      rfl
    · refine ⟨by simp only [failSteps, if_neg h2, if_neg h3]; exact (exSteps_implements cls X).1, fun a => ?_⟩
      simp only [failSteps, failWorld, if_neg h2, if_neg h3]
      rfl

/-- The charts: one point, two points, three points. -/
def failCharts : List (List ℕ) := [[0], [1, 2], [0, 1, 2]]

/-- All jobs are dispatched; the last one fails before the others have begun. -/
def failSched : List Choice := [.dispatch, .dispatch, .dispatch, .run 2]

/-- Then the others end. -/
def failRest : List Choice := steps 0 4 ++ steps 1 1

/-- The hypotheses are met while two jobs still run and the third one has raised its
exception: it is the one that the clustering raises on the third chart. -/
example : ∃ c, (Config.start exObjects failCharts).follow failWorld failSteps 3 exPoints 1 false
      failSched = some c ∧
    c.results = ([([0], none), ([1, 2], none), ([0, 1, 2], some (.error .typeError))], []) ∧
    (∀ j ∈ c.jobs, ∀ r, j.thread = .done r → r = OutcomeOn failWorld exObjects 3 exPoints 1 j.ids) ∧
    OutcomeOn failWorld exObjects 3 exPoints 1 [0, 1, 2] = .error .typeError := by
  obtain ⟨c, hc⟩ := Option.isSome_iff_exists.mp (show ((Config.start exObjects failCharts).follow
      failWorld failSteps 3 exPoints 1 false failSched).isSome = true by decide +kernel)
  have hres : ((Config.start exObjects failCharts).follow failWorld failSteps 3 exPoints 1 false
      failSched).map Config.results = some ([([0], none), ([1, 2], none), ([0, 1, 2], some (.error .typeError))], []) := by
    decide +kernel
  rw [hc, Option.map_some, Option.some.injEq] at hres
  exact ⟨c, hc, hres, (C130_each_job failWorld_contract failSteps_implements (le_refl 3)
    exObjects_good (clust := 1) (o := exKM) rfl exKM_init
    (.other (o := exKM) rfl (by decide) (by decide)) (exObjects_ready (by decide)) exPoints hc).2,
    by decide +kernel⟩

/-- The hypotheses are met when all jobs have stopped, the first chart with labels, the
others with two different exceptions. -/
example : ∃ c, (Config.start exObjects failCharts).follow failWorld failSteps 3 exPoints 1 false
      (failSched ++ failRest) = some c ∧ c.Stopped ∧
    c.results = ([([0], some (.ok [0])), ([1, 2], some (.error .valueError)),
      ([0, 1, 2], some (.error .typeError))], []) ∧ ∀ out, c.labels exPoints ≠ .ok out := by
  obtain ⟨c, hc⟩ := Option.isSome_iff_exists.mp (show ((Config.start exObjects failCharts).follow
      failWorld failSteps 3 exPoints 1 false (failSched ++ failRest)).isSome = true by decide +kernel)
  have hres : ((Config.start exObjects failCharts).follow failWorld failSteps 3 exPoints 1 false
      (failSched ++ failRest)).map Config.results = some ([([0], some (.ok [0])),
        ([1, 2], some (.error .valueError)), ([0, 1, 2], some (.error .typeError))], []) := by
    decide +kernel
  rw [hc, Option.map_some, Option.some.injEq] at hres
  have hst := stopped_of_results (l := [([0], .ok [0]), ([1, 2], .error .valueError),
    ([0, 1, 2], .error .typeError)]) hres
  exact ⟨c, hc, hst, hres, (C130_fails failWorld_contract failSteps_implements (le_refl 3)
    exObjects_good (clust := 1) (o := exKM) rfl exKM_init
    (.other (o := exKM) rfl (by decide) (by decide)) (exObjects_ready (by decide)) exPoints hc hst
    ⟨[1, 2], by decide, .valueError, by decide +kernel⟩).2⟩

/-- The clustering of `exWorld` raises an exception on no chart. -/
example : ∀ ids ∈ failCharts, ∃ l, OutcomeOn exWorld exObjects 3 exPoints 1 ids = .ok l := by
  intro ids hids
  simp only [failCharts, List.mem_cons, List.not_mem_nil, or_false] at hids
  rcases hids with rfl | rfl | rfl
  · exact ⟨[0], by decide +kernel⟩
  · exact ⟨[0, 1], by decide +kernel⟩
  · exact ⟨[0, 1, 0], by decide +kernel⟩

end Verif

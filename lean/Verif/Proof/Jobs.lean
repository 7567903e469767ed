import Verif.Spec.Jobs
import Verif.Proof.LearnFit

set_option autoImplicit false

namespace Verif

/-! ### Undisturbed threads -/

theorem Thread.run_bind {α β : Type} (t : Thread α) (f : α → Thread β) (h : Heap) :
    (t >>= f).run h = match t.run h with
      | (.ok a, h') => (f a).run h'
      | (.error e, h') => (.error e, h') := by
  show (Thread.bind f t).run h = _
  induction t generalizing h with
  | done r => cases r <;> rfl
  | step upd next ih => exact ih h (upd h)

theorem Thread.run_atom {α : Type} (x : Eff α) (h : Heap) : (Thread.atom x).run h = x h := rfl

theorem Thread.run_pure {α : Type} (a : α) (h : Heap) :
    (pure a : Thread α).run h = (.ok a, h) := rfl

theorem Thread.run_tryValueError (handler body : Thread Unit) (h : Heap) :
    (Thread.tryValueError handler body).run h = Verif.tryValueError body.run handler.run h := by
  induction body generalizing h with
  | done r =>
    cases r with
    | ok a => rfl
    | error e => cases e <;> rfl
  | step upd next ih => exact ih h (upd h)

theorem Local.run_on (r : ℕ) (l : Local) : ∀ (h : Heap) (o : Obj), h[r]? = some o →
    (l.on r).run h = ((l.run o.attrs).2, h.set r ⟨o.cls, (l.run o.attrs).1⟩) := by
  induction l with
  | done x =>
    intro h o eo
    simp only [Local.on, Thread.run, Local.run]
    rw [show (⟨o.cls, o.attrs⟩ : Obj) = o from rfl]
    congr 1
    symm
    apply List.ext_getElem?
    intro i
    rw [List.getElem?_set]
    split
    · subst_vars
      rw [eo]
      simp [lt_of_getElem? eo]
    · rfl
  | step upd next ih =>
    intro h o eo
    simp only [Local.on, Thread.run, Local.run, modifyObj, eo]
    have e1 := List.getElem?_set_self (a := (⟨o.cls, upd o.attrs⟩ : Obj)) (lt_of_getElem? eo)
    rw [ih o.attrs _ _ e1, List.set_set]

theorem run_failSafeThread {f : ℕ → List RealArray → Thread Unit} {g : ℕ → List RealArray → Eff Unit}
    {X : List RealArray} (hfg : ∀ r h, (f r X).run h = g r X h) (r : ℕ) (h : Heap) :
    (failSafeThread f r X).run h = failSafeFit g r X h := by
  have htry : ∀ h, (do
      let c ← Thread.atom (readAttr r "_clustering")
      let t ← Thread.atom (asObj c)
      f t X
      let lbls ← Thread.atom (readAttr t "labels_")
      Thread.atom (writeAttr r "labels_" lbls) : Thread Unit).run h = failSafeTry g r X h := by
    intro h
    simp only [failSafeTry, Thread.run_bind, run_bind, Thread.run_atom, hfg]
    rfl
  have htry' := funext htry
  simp only [failSafeThread, failSafeFit, Thread.run_bind, run_bind, Thread.run_atom,
    Thread.run_tryValueError, htry']
  rfl

theorem Thread.run_done {α : Type} (r : Py α) (h : Heap) : (Thread.done r).run h = (r, h) := rfl

theorem run_jobsThread (W : World) (fuel : ℕ) {f : ℕ → List RealArray → Thread Unit}
    {g : ℕ → List RealArray → Eff Unit} (hfg : ∀ r X h, (f r X).run h = g r X h)
    (X : List RealArray) (clust : ℕ) : ∀ (charts : List (List ℕ)) (h : Heap),
    (jobsThread W fuel f X clust charts).run h = runJobsE W fuel g X clust charts h := by
  intro charts
  induction charts with
  | nil => intro h; rfl
  | cons ids charts ih =>
    intro h
    simp only [jobsThread, runJobsE, Thread.run_bind, run_bind, Thread.run_atom, Thread.run_done,
      run_lift, hfg, ih, Thread.run_pure, run_pure]
    rfl

theorem mapperLabelsE_bind (W : World) (fuel : ℕ) (fit : ℕ → List RealArray → Eff Unit)
    (X y : List RealArray) (cover clust : ℕ) {α : Type} (f : List (List ℤ) → Eff α) :
    mapperLabelsE W fuel fit X y cover clust >>= f = (do
      let charts ← applyCover W cover y
      let runs ← runJobsE W fuel fit X clust charts
      let itm ← Eff.lift (labelCharts runs 0 (X.map fun _ => []))
      f itm) := by
  funext h
  simp only [mapperLabelsE, run_bind]
  rcases applyCover W cover y h with ⟨_ | charts, h1⟩
  · rfl
  · simp only
    rcases runJobsE W fuel fit X clust charts h1 with ⟨_ | runs, h2⟩ <;> rfl

theorem run_mapperClusteringThread (W : World) (fuel : ℕ) {f : ℕ → List RealArray → Thread Unit}
    {g : ℕ → List RealArray → Eff Unit} (hfg : ∀ r X h, (f r X).run h = g r X h) (r : ℕ)
    (X : Input) (h : Heap) :
    (mapperClusteringThread W fuel f r X).run h = mapperClusteringFitWith W fuel g r X none h := by
  unfold mapperClusteringThread mapperClusteringFitWith
  simp only [mapperLabelsE_bind]
  simp only [Thread.run_bind,
    run_bind, Thread.run_atom, Thread.run_done, run_lift, run_jobsThread W fuel hfg, Option.getD]
  rfl

theorem run_fitThread {W : World} {S : FitSteps} (hS : Implements W S) (fuel : ℕ) :
    ∀ depth r X h, (fitThread W S fuel depth r X).run h = fitObj W fuel depth r X h := by
  have hworld : ∀ r X h o, h[r]? = some o → ((S o.cls X).on r).run h = worldFit W r X h := by
    intro r X h o eo
    rw [Local.run_on r _ h o eo, worldFit, run_bind, run_readObj eo, (hS o.cls X).2]
    simp only
    rw [run_bind, run_writeAttrs eo]
    rfl
  have hread : ∀ r h, readObj r h = match h[r]? with
      | some o => (.ok o, h)
      | none => (.error .attributeError, h) := by
    intro r h
    simp only [readObj, deref]
    cases h[r]? <;> rfl
  intro depth
  induction depth with
  | zero =>
    intro r X h
    unfold fitThread fitObj
    rw [Thread.run_bind, run_bind, Thread.run_atom, hread]
    cases eo : h[r]? with
    | none => rfl
    | some o =>
      simp only
      split
      · rfl
      · split
        · rfl
        · split
          · rfl
          · exact hworld r X h o eo
  | succ depth ih =>
    intro r X h
    unfold fitThread fitObj
    rw [Thread.run_bind, run_bind, Thread.run_atom, hread]
    cases eo : h[r]? with
    | none => rfl
    | some o =>
      simp only
      split
      · exact run_failSafeThread (fun r h => ih r X h) r h
      · split
        · exact run_mapperClusteringThread W fuel ih r _ h
        · split
          · rfl
          · exact hworld r X h o eo

/-! ### One worker -/

/-- Finishing the jobs one after the other. -/
def finishJobs : List Job → Eff (List (List ℕ × List ℤ))
  | [] => pure []
  | j :: js => do
    let lbls ← j.thread.run
    let rest ← finishJobs js
    return (j.ids, lbls) :: rest

/-- What is left to do, one job after the other. -/
def Config.meaning (W : World) (fuel : ℕ) (X : List RealArray) (clust : ℕ) (c : Config) :
    Py (List (List ℕ × List ℤ)) × Heap :=
  (do
    let a ← finishJobs c.jobs
    let b ← runJobsE W fuel (fitObj W fuel fuel) X clust c.pending
    return a ++ b : Eff _) c.heap

theorem finishJobs_append (js js' : List Job) (h : Heap) :
    finishJobs (js ++ js') h = (do
      let a ← finishJobs js
      let b ← finishJobs js'
      return a ++ b : Eff _) h := by
  induction js generalizing h with
  | nil =>
    simp only [List.nil_append, run_bind, finishJobs, run_pure]
    cases hf : finishJobs js' h with
    | mk res h' => cases res <;> rfl
  | cons j js ih =>
    simp only [List.cons_append, finishJobs, run_bind, ih]
    cases hj : j.thread.run h with
    | mk res h1 =>
      cases res with
      | error e => rfl
      | ok l =>
        simp only
        cases hf : finishJobs js h1 with
        | mk res2 h2 =>
          cases res2 with
          | error e => rfl
          | ok a =>
            simp only [run_pure]
            cases hf' : finishJobs js' h2 with
            | mk res3 h3 => cases res3 <;> rfl

theorem finishJobs_done {js : List Job} (hd : ∀ j ∈ js, ∃ r, j.thread = .done r) (h : Heap) :
    finishJobs js h = (collectJobs js, h) := by
  induction js with
  | nil => rfl
  | cons j js ih =>
    obtain ⟨r, hr⟩ := hd j List.mem_cons_self
    obtain ⟨ids, t⟩ := j
    simp only at hr
    subst hr
    rw [finishJobs, run_bind, collectJobs]
    simp only [Thread.run]
    cases r with
    | error e => rfl
    | ok l =>
      simp only [ok_bind]
      rw [run_bind, ih (fun j hj => hd j (List.mem_cons_of_mem _ hj))]
      cases collectJobs js <;> rfl

theorem succeeded_iff {j : Job} : j.succeeded = true ↔ ∃ l, j.thread = .done (.ok l) := by
  unfold Job.succeeded
  split
  · rename_i l e
    simp [e]
  · rename_i hne
    simp only [Bool.false_eq_true, false_iff]
    rintro ⟨l, e⟩
    exact hne l e

theorem collectJobs_succeeded {js : List Job} (hs : ∀ j ∈ js, j.succeeded = true) :
    ∃ a, collectJobs js = .ok a := by
  induction js with
  | nil => exact ⟨_, rfl⟩
  | cons j js ih =>
    obtain ⟨l, hl⟩ := succeeded_iff.mp (hs j List.mem_cons_self)
    obtain ⟨a, ha⟩ := ih (fun j hj => hs j (List.mem_cons_of_mem _ hj))
    obtain ⟨ids, t⟩ := j
    simp only at hl
    subst hl
    exact ⟨(ids, l) :: a, by rw [collectJobs, ha]; rfl⟩

/-- With one worker, at most the last job is unfinished. -/
def OneRunning (c : Config) : Prop :=
  ∃ js last, (c.jobs = js ∨ c.jobs = js ++ [last]) ∧ ∀ j ∈ js, j.succeeded = true

theorem dispatch_meaning {W : World} {S : FitSteps} (hS : Implements W S) (fuel : ℕ)
    (X : List RealArray) (clust : ℕ) (ids : List ℕ) (rest : List (List ℕ)) (h : Heap) :
    (do
      let b ← finishJobs [(dispatchJob W S fuel X clust ids h).1]
      let c ← runJobsE W fuel (fitObj W fuel fuel) X clust rest
      return b ++ c : Eff _) (dispatchJob W S fuel X clust ids h).2 =
      runJobsE W fuel (fitObj W fuel fuel) X clust (ids :: rest) h := by
  rw [runJobsE, run_bind, run_bind, run_lift]
  unfold dispatchJob
  cases hg : gather X ids with
  | error e => rfl
  | ok xs =>
    simp only
    rw [run_bind]
    cases hc : cloneE W fuel clust h with
    | mk res h1 =>
      cases res with
      | error e => rfl
      | ok c =>
        simp only
        rw [finishJobs, run_bind]
        simp only [jobThread, Thread.run_bind, run_fitThread hS, Thread.run_atom]
        rw [run_bind]
        cases hf : fitObj W fuel fuel c xs h1 with
        | mk res2 h2 =>
          cases res2 with
          | error e => rfl
          | ok u =>
            simp only
            rw [run_bind]
            cases hr : readAttr c "labels_" h2 with
            | mk res3 h3 =>
              cases res3 with
              | error e => rfl
              | ok v =>
                simp only
                rw [run_bind]
                cases hl : asLabels v h3 with
                | mk res4 h4 =>
                  cases res4 with
                  | error e => rfl
                  | ok l =>
                    simp only [finishJobs, run_bind, run_pure]
                    cases hj : runJobsE W fuel (fitObj W fuel fuel) X clust rest h4 with
                    | mk res5 h5 => cases res5 <;> rfl

theorem eff_assoc (x y z : Eff (List (List ℕ × List ℤ))) (h : Heap) :
    (do
      let a ← (do
        let a ← x
        let b ← y
        return a ++ b : Eff _)
      let c ← z
      return a ++ c : Eff (List (List ℕ × List ℤ))) h = (do
      let a ← x
      let d ← (do
        let b ← y
        let c ← z
        return b ++ c : Eff _)
      return a ++ d : Eff _) h := by
  simp only [run_bind]
  cases x h with
  | mk r1 h1 =>
    cases r1 with
    | error e => rfl
    | ok a =>
      simp only
      cases y h1 with
      | mk r2 h2 =>
        cases r2 with
        | error e => rfl
        | ok b =>
          simp only [run_pure]
          cases z h2 with
          | mk r3 h3 =>
            cases r3 with
            | error e => rfl
            | ok c => simp only [run_pure, List.append_assoc]

theorem meaning_next {W : World} {S : FitSteps} (hS : Implements W S) {fuel : ℕ}
    {X : List RealArray} {clust : ℕ} {c c' : Config} {ch : Choice} (hone : OneRunning c)
    (hn : c.next W S fuel X clust true ch = some c') :
    OneRunning c' ∧ c'.meaning W fuel X clust = c.meaning W fuel X clust := by
  obtain ⟨h, pending, jobs⟩ := c
  cases ch with
  | dispatch =>
    simp only [Config.next] at hn
    cases pending with
    | nil => cases hn
    | cons ids rest =>
      simp only at hn
      split at hn
      · cases hn
      · rename_i hall
        cases hn
        simp only [Bool.true_and, Bool.not_eq_true', Bool.not_eq_false, List.all_eq_true] at hall
        refine ⟨⟨jobs, _, Or.inr rfl, hall⟩, ?_⟩
        have hd : ∀ j ∈ jobs, ∃ r, j.thread = .done r := fun j hj => by
          obtain ⟨l, hl⟩ := succeeded_iff.mp (hall j hj)
          exact ⟨_, hl⟩
        simp only [Config.meaning]
        have h1 : ∀ h' : Heap, (do
            let a ← finishJobs (jobs ++ [(dispatchJob W S fuel X clust ids h).1])
            let b ← runJobsE W fuel (fitObj W fuel fuel) X clust rest
            return a ++ b : Eff _) h' = (do
            let a ← (do
              let a ← finishJobs jobs
              let b ← finishJobs [(dispatchJob W S fuel X clust ids h).1]
              return a ++ b : Eff _)
            let b ← runJobsE W fuel (fitObj W fuel fuel) X clust rest
            return a ++ b : Eff _) h' := by
          intro h'
          rw [run_bind, run_bind, finishJobs_append]
        rw [h1, eff_assoc, run_bind, run_bind, finishJobs_done hd, finishJobs_done hd]
        obtain ⟨a, ha⟩ := collectJobs_succeeded hall
        rw [ha]
        simp only
        have h2 := dispatch_meaning hS fuel X clust ids rest h
        rw [run_bind, h2, run_bind (runJobsE W fuel (fitObj W fuel fuel) X clust (ids :: rest))]
  | run i =>
    simp only [Config.next] at hn
    split at hn
    · rename_i ids upd next e
      cases hn
      obtain ⟨js, last, hj, hs⟩ := hone
      simp only at hj
      have hnotin : ∀ k : ℕ, js[k]? ≠ some (⟨ids, .step upd next⟩ : Job) := by
        intro k hk
        obtain ⟨l, hl⟩ := succeeded_iff.mp (hs _ (List.mem_of_getElem? hk))
        cases hl
      rcases hj with rfl | rfl
      · exact absurd e (hnotin i)
      · have hi : i = js.length := by
          rcases Nat.lt_or_ge i js.length with h1 | h1
          · rw [List.getElem?_append_left h1] at e
            exact absurd e (hnotin i)
          · have := (List.getElem?_eq_some_iff.mp e).1
            simp at this
            omega
        subst hi
        rw [List.getElem?_append_right (le_refl _)] at e
        simp at e
        subst e
        simp only [List.set_append_right _ _ (le_refl _), Nat.sub_self, List.set_cons_zero]
        refine ⟨⟨js, _, Or.inr rfl, hs⟩, ?_⟩
        have hd : ∀ j ∈ js, ∃ r, j.thread = .done r := fun j hj => by
          obtain ⟨l, hl⟩ := succeeded_iff.mp (hs j hj)
          exact ⟨_, hl⟩
        simp only [Config.meaning, run_bind, finishJobs_append, finishJobs_done hd]
        simp only [finishJobs, run_bind, Thread.run]
        obtain ⟨a, ha⟩ := collectJobs_succeeded hs
        rw [ha]
        rfl
    · cases hn

theorem meaning_follow {W : World} {S : FitSteps} (hS : Implements W S) {fuel : ℕ}
    {X : List RealArray} {clust : ℕ} : ∀ (sched : List Choice) {c c' : Config}, OneRunning c →
    c.follow W S fuel X clust true sched = some c' →
    c'.meaning W fuel X clust = c.meaning W fuel X clust := by
  intro sched
  induction sched with
  | nil => intro c c' _ h; cases h; rfl
  | cons ch rest ih =>
    intro c c' hone h
    rw [Config.follow, Option.bind_eq_some_iff] at h
    obtain ⟨c1, h1, h2⟩ := h
    obtain ⟨hone1, hm⟩ := meaning_next hS hone h1
    rw [ih hone1 h2, hm]

end Verif

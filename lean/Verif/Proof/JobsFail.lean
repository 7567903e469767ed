import Verif.Proof.JobsOwn
import Verif.Spec.JobsFail

/-!
# Jobs end
-/

set_option autoImplicit false

namespace Verif

/-- One of the jobs takes a step, on some heap. -/
def FewerJobSteps (js' js : List Job) : Prop :=
  ∃ i ids upd next h, js[i]? = some ⟨ids, .step upd next⟩ ∧ js' = js.set i ⟨ids, next h⟩

theorem acc_job_cons : ∀ (t : Thread (List ℤ)) (ids : List ℕ) (js : List Job), Acc FewerJobSteps js →
    Acc FewerJobSteps (⟨ids, t⟩ :: js) := by
  intro t
  induction t with
  | done r =>
    intro ids js ha
    induction ha with
    | intro js ha ih =>
      refine .intro _ ?_
      rintro _ ⟨i, ids, upd, next, h, e, rfl⟩
      cases i with
      | zero => simp at e
      | succ i => exact ih _ ⟨i, ids, upd, next, h, by simpa using e, rfl⟩
  | step upd0 next0 ih0 =>
    intro ids js ha
    induction ha with
    | intro js ha ih =>
      refine .intro _ ?_
      rintro _ ⟨i, ids, upd, next, h, e, rfl⟩
      cases i with
      | zero =>
        simp only [List.getElem?_cons_zero, Option.some.injEq, Job.mk.injEq, Thread.step.injEq] at e
        obtain ⟨rfl, rfl, rfl⟩ := e
        exact ih0 h ids js (.intro _ ha)
      | succ i => exact ih _ ⟨i, ids, upd, next, h, by simpa using e, rfl⟩

theorem acc_jobs : ∀ js : List Job, Acc FewerJobSteps js
  | [] => .intro _ (by rintro _ ⟨i, _, _, _, _, e, _⟩; simp at e)
  | ⟨ids, t⟩ :: js => acc_job_cons t ids js (acc_jobs js)

theorem jobs_end (W : World) (S : FitSteps) (fuel : ℕ) (X : List RealArray) (clust : ℕ) (b : Bool) :
    ∀ (pending : List (List ℕ)) {js : List Job} (_ : Acc FewerJobSteps js) (h : Heap) (f : ℕ → Choice),
    ∃ k, Config.follow W S fuel X clust b ((List.range k).map f) ⟨h, pending, js⟩ = none := by
  intro pending
  induction pending with
  | nil =>
    intro js ha
    induction ha with
    | intro js _ ih =>
      intro h f
      cases hn : Config.next W S fuel X clust b ⟨h, [], js⟩ (f 0) with
      | none => exact ⟨1, by simp [Config.follow, hn]⟩
      | some c =>
        cases hf : f 0 with
        | dispatch => rw [hf] at hn; simp [Config.next] at hn
        | run i =>
          have hn' := hn
          rw [hf] at hn'
          simp only [Config.next] at hn'
          split at hn'
          · rename_i ids upd next e
            cases hn'
            obtain ⟨k, hk⟩ := ih _ ⟨i, ids, upd, next, h, e, rfl⟩ (upd h) (fun i => f (i + 1))
            refine ⟨k + 1, ?_⟩
            rw [List.range_succ_eq_map, List.map_cons, List.map_map, Config.follow, hn]
            exact hk
          · cases hn'
  | cons ids0 rest ihp =>
    intro js ha
    induction ha with
    | intro js _ ih =>
      intro h f
      cases hn : Config.next W S fuel X clust b ⟨h, ids0 :: rest, js⟩ (f 0) with
      | none => exact ⟨1, by simp [Config.follow, hn]⟩
      | some c =>
        cases hf : f 0 with
        | dispatch =>
          have hn' := hn
          rw [hf] at hn'
          simp only [Config.next] at hn'
          split at hn'
          · cases hn'
          · cases hn'
            obtain ⟨k, hk⟩ := ihp (acc_jobs (js ++ [(dispatchJob W S fuel X clust ids0 h).1]))
              (dispatchJob W S fuel X clust ids0 h).2 (fun i => f (i + 1))
            refine ⟨k + 1, ?_⟩
            rw [List.range_succ_eq_map, List.map_cons, List.map_map, Config.follow, hn]
            exact hk
        | run i =>
          have hn' := hn
          rw [hf] at hn'
          simp only [Config.next] at hn'
          split at hn'
          · rename_i ids upd next e
            cases hn'
            obtain ⟨k, hk⟩ := ih _ ⟨i, ids, upd, next, h, e, rfl⟩ (upd h) (fun i => f (i + 1))
            refine ⟨k + 1, ?_⟩
            rw [List.range_succ_eq_map, List.map_cons, List.map_map, Config.follow, hn]
            exact hk
          · cases hn'

/-- The jobs reached by following a schedule one choice further. -/
theorem follow_append {W : World} {S : FitSteps} {fuel : ℕ} {X : List RealArray} {clust : ℕ} {b : Bool} :
    ∀ (s s' : List Choice) (c : Config), Config.follow W S fuel X clust b (s ++ s') c =
      (Config.follow W S fuel X clust b s c).bind (Config.follow W S fuel X clust b s') := by
  intro s
  induction s with
  | nil => intro s' c; rfl
  | cons ch s ih =>
    intro s' c
    rw [List.cons_append, Config.follow, Config.follow]
    cases c.next W S fuel X clust b ch with
    | none => rfl
    | some c1 => exact ih s' c1

end Verif

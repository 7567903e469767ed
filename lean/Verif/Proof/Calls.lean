import Verif.Model.Calls
import Verif.Proof.Cover
import Mathlib.Data.Nat.Log

set_option autoImplicit false
set_option linter.unusedSectionVars false

namespace Verif

variable {T R α β : Type}

namespace Calls

@[simp] theorem lift_eq (r : Py α) : (liftM r : Calls T R α) = .done r := rfl

@[simp] theorem lift_eq' (r : Py α) :
    (MonadLiftT.monadLift r : Calls T R α) = .done r := rfl

@[simp] theorem done_answer (d : T → T → R) (r : Py α) : (Calls.done r).answer d = r := rfl

@[simp] theorem pure_answer (d : T → T → R) (a : α) :
    (pure a : Calls T R α).answer d = .ok a := rfl

@[simp] theorem metric_answer (d : T → T → R) (x y : T) :
    (metric x y).answer d = .ok (d x y) := rfl

@[simp] theorem done_trace (d : T → T → R) (r : Py α) : (Calls.done r).trace d = [] := rfl

@[simp] theorem pure_trace (d : T → T → R) (a : α) :
    (pure a : Calls T R α).trace d = [] := rfl

@[simp] theorem metric_trace (d : T → T → R) (x y : T) :
    (metric x y : Calls T R R).trace d = [(x, y)] := rfl

@[simp] theorem answer_bind (d : T → T → R) (p : Calls T R α) (f : α → Calls T R β) :
    (p >>= f).answer d = p.answer d >>= fun a => (f a).answer d := by
  induction p with
  | done r => cases r <;> rfl
  | call x y k ih => exact ih (d x y)

theorem trace_bind (d : T → T → R) (p : Calls T R α) (f : α → Calls T R β) :
    (p >>= f).trace d = p.trace d ++
      (match p.answer d with
        | .ok a => (f a).trace d
        | .error _ => []) := by
  induction p with
  | done r => cases r <;> rfl
  | call x y k ih =>
    exact congrArg ((x, y) :: ·) (ih (d x y))

theorem trace_bind_ok {d : T → T → R} {p : Calls T R α} {a : α} (h : p.answer d = .ok a)
    (f : α → Calls T R β) : (p >>= f).trace d = p.trace d ++ (f a).trace d := by
  rw [trace_bind, h]

theorem trace_bind_error {d : T → T → R} {p : Calls T R α} {e : PyErr}
    (h : p.answer d = .error e) (f : α → Calls T R β) : (p >>= f).trace d = p.trace d := by
  rw [trace_bind, h, List.append_nil]

theorem trace_bind_quiet {d : T → T → R} {f : α → Calls T R β} (h : ∀ a, (f a).trace d = [])
    (p : Calls T R α) : (p >>= f).trace d = p.trace d := by
  rw [trace_bind]
  cases p.answer d with
  | error e => simp
  | ok a => simp [h]

@[simp] theorem trace_done_bind (d : T → T → R) (a : α) (f : α → Calls T R β) :
    ((Calls.done (.ok a) : Calls T R α) >>= f).trace d = (f a).trace d := rfl

@[simp] theorem trace_error_bind (d : T → T → R) (e : PyErr) (f : α → Calls T R β) :
    ((Calls.done (.error e) : Calls T R α) >>= f).trace d = [] := rfl

@[simp] theorem trace_metric_bind (d : T → T → R) (x y : T) (f : R → Calls T R β) :
    (metric x y >>= f).trace d = (x, y) :: (f (d x y)).trace d := rfl

theorem pull_answer {S : Type} (f : T → S) (d : S → S → R) (p : Calls T R α) :
    (p.pull f).answer d = p.answer (pullback f d) := by
  induction p with
  | done r => rfl
  | call x y k ih => exact ih _

theorem pull_trace {S : Type} (f : T → S) (d : S → S → R) (p : Calls T R α) :
    (p.pull f).trace d = (p.trace (pullback f d)).map fun c => (f c.1, f c.2) := by
  induction p with
  | done r => rfl
  | call x y k ih => exact congrArg ((f x, f y) :: ·) (ih _)

end Calls

open Calls

/-! ## The results are those of the other model -/

section build
variable [LT R] [DecidableLT R] [Zero R]

theorem answer_furthestLoopC (d : T → T → R) (a : VPArray T R) (x : T) :
    ∀ cnt j f r, (furthestLoopC a x cnt j f r).answer d = furthestLoop d a x cnt j f r := by
  intro cnt
  induction cnt with
  | zero => intros; rfl
  | succ cnt ih =>
    intro j f r
    simp only [furthestLoopC, furthestLoop, answer_bind, lift_eq, done_answer, metric_answer,
      ok_bind]
    congr 1; funext y
    split <;> exact ih _ _ _

theorem answer_furthestC (d : T → T → R) (a : VPArray T R) (s e i : ℕ) :
    (furthestC a s e i).answer d = furthest d a s e i := by
  simp only [furthestC, furthest, answer_bind, lift_eq, done_answer, answer_furthestLoopC]

theorem answer_pivotC (d : T → T → R) (ρ : ℕ → ℕ) (pv : String) (s e : ℕ)
    (st : BuildState T R) : (pivotC ρ pv s e st).answer d = pivot d ρ pv s e st := by
  unfold pivotC pivot
  split
  · rfl
  split
  · unfold pivotingFurthestC pivotingFurthest
    split
    · rfl
    · simp only [answer_bind, answer_furthestC]
      congr 1; funext i; congr 1; funext j
      split
      · simp only [answer_bind, lift_eq, done_answer]; rfl
      · rfl
  · rfl

theorem answer_updateLoopC (d : T → T → R) (v : T) (flag : Option Bool) :
    ∀ cnt i a, (updateLoopC v flag cnt i a).answer d = updateLoop d v flag cnt i a := by
  intro cnt
  induction cnt with
  | zero => intros; rfl
  | succ cnt ih =>
    intro i a
    simp only [updateLoopC, updateLoop, answer_bind, lift_eq, done_answer, metric_answer,
      ok_bind, ih]

theorem answer_updateC (d : T → T → R) (ρ : ℕ → ℕ) (pv : String) (s e : ℕ)
    (st : BuildState T R) : (updateC ρ pv s e st).answer d = update d ρ pv s e st := by
  simp only [updateC, update, answer_bind, lift_eq, done_answer, answer_pivotC,
    answer_updateLoopC]
  rfl

theorem answer_flatBuildLoopC (d : T → T → R) (ρ : ℕ → ℕ) (p : VPParams R) :
    ∀ fuel stack st,
      (flatBuildLoopC ρ p fuel stack st).answer d = flatBuildLoop d ρ p fuel stack st := by
  intro fuel
  induction fuel with
  | zero => intros; rfl
  | succ fuel ih =>
    intro stack st
    cases stack with
    | nil => rfl
    | cons se stack =>
      obtain ⟨s, e⟩ := se
      simp only [flatBuildLoopC, flatBuildLoop, answer_bind, lift_eq, done_answer,
        answer_updateC]
      congr 1; funext st1; congr 1; funext a1; congr 1; funext r
      split <;> simp only [answer_bind, done_answer, ih]

theorem answer_flatBuildC (d : T → T → R) (ρ : ℕ → ℕ) (p : VPParams R) (X : List T) :
    (flatBuildC ρ p X).answer d = flatBuild d ρ p X := by
  unfold flatBuildC flatBuild
  simp only
  split
  · simp only [answer_bind, answer_flatBuildLoopC]; rfl
  · rfl

end build

section
variable [LE R] [LT R] [DecidableLE R] [DecidableLT R] [Zero R]

theorem answer_hierBuildRecC (d : T → T → R) (ρ : ℕ → ℕ) (p : VPParams R) :
    ∀ fuel s e st,
      (hierBuildRecC ρ p fuel s e st).answer d = hierBuildRec d ρ p fuel s e st := by
  intro fuel
  induction fuel with
  | zero => intros; rfl
  | succ fuel ih =>
    intro s e st
    unfold hierBuildRecC hierBuildRec
    split
    · rfl
    · simp only [answer_bind, lift_eq, done_answer, answer_updateC]
      congr 1; funext st1; congr 1; funext v; congr 1; funext a1; congr 1; funext r
      congr 1; funext a2
      split
      · rfl
      · simp only [answer_bind, ih]; rfl

theorem answer_hierBuildC (d : T → T → R) (ρ : ℕ → ℕ) (p : VPParams R) (X : List T) :
    (hierBuildC ρ p X).answer d = hierBuild d ρ p X := by
  unfold hierBuildC hierBuild
  simp only
  split
  · simp only [answer_bind, answer_hierBuildRecC]; rfl
  · rfl

end

section search
variable [LE R] [LT R] [DecidableLE R] [DecidableLT R] [Zero R] [Neg R] [Sub R]

theorem answer_ballLeafC (d : T → T → R) (q : T) (eps : R) (inc : Bool) (xs : List T) :
    (ballLeafC q eps inc xs).answer d = .ok (xs.filter fun x => insideBall eps inc (d q x)) := by
  induction xs with
  | nil => rfl
  | cons x xs ih =>
    simp only [ballLeafC, answer_bind, metric_answer, ok_bind, ih, pure_answer, List.filter_cons]

theorem answer_flatBallLoopC (d : T → T → R) (a : VPArray T R) (q : T) (eps : R) (inc : Bool) :
    ∀ fuel stack acc, (flatBallLoopC a q eps inc fuel stack acc).answer d =
      flatBallLoop d a q eps inc fuel stack acc := by
  intro fuel
  induction fuel with
  | zero => intros; rfl
  | succ fuel ih =>
    intro stack acc
    cases stack with
    | nil => rfl
    | cons se stack =>
      obtain ⟨s, e⟩ := se
      simp only [flatBallLoopC, flatBallLoop, answer_bind, lift_eq, done_answer]
      congr 1; funext r; congr 1; funext v; congr 1; funext b
      split
      · simp only [answer_bind, done_answer, answer_ballLeafC, ok_bind, ih]
      · simp only [answer_bind, metric_answer, ok_bind, ih]

theorem answer_flatBallSearchC (d : T → T → R) (a : VPArray T R) (q : T) (eps : R)
    (inc : Bool) : (flatBallSearchC a q eps inc).answer d = flatBallSearch d a q eps inc :=
  answer_flatBallLoopC d a q eps inc _ _ _

theorem knnProcessDist_eq (d : T → T → R) (q : T) (k : ℕ) (st : KnnState T R) (x : T) :
    knnProcessDist k st (d q x) x = knnProcess d q k st x := rfl

theorem answer_knnProcessC (d : T → T → R) (q : T) (k : ℕ) (st : KnnState T R) (x : T) :
    (knnProcessC q k st x).answer d = knnProcess d q k st x := by
  simp only [knnProcessC, answer_bind, metric_answer, ok_bind, lift_eq, done_answer,
    knnProcessDist_eq]

theorem answer_knnProcessAllC (d : T → T → R) (q : T) (k : ℕ) (xs : List T) :
    ∀ st, (knnProcessAllC q k xs st).answer d = knnProcessAll d q k xs st := by
  induction xs with
  | nil => intro st; rfl
  | cons x xs ih =>
    intro st
    simp only [knnProcessAllC, knnProcessAll, answer_bind, answer_knnProcessC, ih]

theorem answer_flatKnnLoopC (d : T → T → R) (a : VPArray T R) (q : T) (k : ℕ) :
    ∀ fuel stack st, (flatKnnLoopC a q k fuel stack st).answer d =
      flatKnnLoop d a q k fuel stack st := by
  intro fuel
  induction fuel with
  | zero => intros; rfl
  | succ fuel ih =>
    intro stack st
    cases stack with
    | nil => rfl
    | cons se stack =>
      obtain ⟨s, e, thr, act⟩ := se
      simp only [flatKnnLoopC, flatKnnLoop, answer_bind, lift_eq, done_answer]
      congr 1; funext r; congr 1; funext v; congr 1; funext b
      split
      · simp only [answer_bind, done_answer, answer_knnProcessAllC, ih]
      · cases act with
        | pre => simp only [answer_bind, answer_knnProcessC, ih]
        | post =>
          simp only
          split <;> exact ih _ _

theorem answer_flatKnnSearchC (d : T → T → R) (a : VPArray T R) (q : T) (k : ℕ) :
    (flatKnnSearchC a q k).answer d = flatKnnSearch d a q k := by
  simp only [flatKnnSearchC, flatKnnSearch, answer_bind, answer_flatKnnLoopC, done_answer]

theorem answer_hierBallRecC (d : T → T → R) (a : VPArray T R) (q : T) (eps : R) (inc : Bool)
    (t : VPNode T R) : ∀ acc,
      (hierBallRecC a q eps inc t acc).answer d = hierBallRec d a q eps inc t acc := by
  induction t with
  | leaf s e =>
    intro acc
    simp only [hierBallRecC, hierBallRec, answer_bind, lift_eq, done_answer, answer_ballLeafC,
      ok_bind]
    rfl
  | node r v l h ihl ihh =>
    intro acc
    simp only [hierBallRecC, hierBallRec, answer_bind, metric_answer, ok_bind]
    by_cases h1 : d v q ≤ r
    · simp only [h1, if_true, answer_bind, ihl]
      congr 1; funext o
      split
      · exact ihh _
      · rfl
    · simp only [h1, if_false, answer_bind, ihh]
      congr 1; funext o
      split
      · exact ihl _
      · rfl

theorem answer_hierBallSearchC (d : T → T → R) (t : VPNode T R) (a : VPArray T R) (q : T)
    (eps : R) (inc : Bool) :
    (hierBallSearchC t a q eps inc).answer d = hierBallSearch d t a q eps inc :=
  answer_hierBallRecC d a q eps inc t []

theorem answer_hierKnnLeafC (d : T → T → R) (q : T) (k : ℕ) (xs : List T) :
    ∀ h, (hierKnnLeafC q k xs h).answer d = hierKnnLeaf d q k xs h := by
  induction xs with
  | nil => intro h; rfl
  | cons x xs ih =>
    intro h
    simp only [hierKnnLeafC, hierKnnLeaf, answer_bind, metric_answer, ok_bind, lift_eq,
      done_answer, ih]

theorem answer_hierKnnRecC (d : T → T → R) (a : VPArray T R) (q : T) (k : ℕ)
    (t : VPNode T R) : ∀ h, (hierKnnRecC a q k t h).answer d = hierKnnRec d a q k t h := by
  induction t with
  | leaf s e =>
    intro h
    simp only [hierKnnRecC, hierKnnRec, answer_bind, lift_eq, done_answer, answer_hierKnnLeafC]
  | node r v l h ihl ihh =>
    intro acc
    simp only [hierKnnRecC, hierKnnRec, answer_bind, metric_answer, ok_bind, lift_eq,
      done_answer]
    congr 1; funext h1
    by_cases hc : d v q ≤ r
    · simp only [hc, if_true, answer_bind, ihl, done_answer]
      congr 1; funext h2; congr 1; funext r2
      split
      · exact ihh _
      · rfl
    · simp only [hc, if_false, answer_bind, ihh, done_answer]
      congr 1; funext h2; congr 1; funext r2
      split
      · exact ihl _
      · rfl

theorem answer_hierKnnSearchC (d : T → T → R) (t : VPNode T R) (a : VPArray T R) (q : T)
    (k : ℕ) : (hierKnnSearchC t a q k).answer d = hierKnnSearch d t a q k := by
  simp only [hierKnnSearchC, hierKnnSearch, answer_bind, answer_hierKnnRecC, done_answer]

theorem answer_build (d : T → T → R) (X : List T) (kind : String) (p : VPParams R)
    (ρ : ℕ → ℕ) : VPTree.build X d kind p ρ =
      (VPTreeC.build X kind p ρ).answer d >>= fun t => .ok (t.withMetric d) := by
  unfold VPTree.build VPTreeC.build
  split
  · rw [answer_bind, answer_flatBuildC]
    cases flatBuild d ρ p X <;> rfl
  split
  · rw [answer_bind, answer_hierBuildC]
    cases hierBuild d ρ p X <;> rfl
  · rfl

theorem answer_ballSearch (d : T → T → R) (t : VPTreeC T R) (q : T) (eps : R) (inc : Bool) :
    (t.ballSearch q eps inc).answer d = (t.withMetric d).ballSearch q eps inc := by
  cases t with
  | flat a => exact answer_flatBallSearchC d a q eps inc
  | hier t a => exact answer_hierBallSearchC d t a q eps inc

theorem answer_knnSearch (d : T → T → R) (t : VPTreeC T R) (q : T) (k : ℕ) :
    (t.knnSearch q k).answer d = (t.withMetric d).knnSearch q k := by
  cases t with
  | flat a => exact answer_flatKnnSearchC d a q k
  | hier t a => exact answer_hierKnnSearchC d t a q k

theorem answer_proximityLoopC {F : Type} (d : T → T → R) (sC : T → Calls T R (List ℕ))
    (s : F → T → Py (List ℕ)) (f : F) (h : ∀ x, (sC x).answer d = s f x) (X : List T) :
    ∀ i cov, (proximityLoopC sC i X cov).answer d = proximityLoop s f i X cov := by
  induction X with
  | nil => intros; rfl
  | cons x X ih =>
    intro i cov
    unfold proximityLoopC proximityLoop
    split
    · exact ih _ _
    · simp only [answer_bind, h, ih]
      rfl

variable [DecidableEq R]

theorem answer_ballApplyC (P : BallParams T R) (ρ : ℕ → ℕ) (X : List T) (o) :
    (ballApplyC P ρ X).answer P.metric = BallCover.apply ⟨P, o⟩ ρ X := by
  unfold ballApplyC BallCover.apply proximityNet BallCover.fit ballFitC
  simp only [answer_bind, pull_answer, answer_build]
  cases h : (VPTreeC.build (enumerate X) P.kind
    ⟨P.leafCapacity, numOr P.leafRadius P.radius, P.pivoting⟩ ρ).answer (pullback snd P.metric)
  · rfl
  · rename_i t
    simp only [ok_bind, pure_eq_ok]
    apply answer_proximityLoopC
    intro x
    simp only [ballSearchC, BallCover.search, answer_bind, pull_answer, answer_ballSearch]
    rfl

theorem answer_knnApplyC (P : KnnParams T R) (ρ : ℕ → ℕ) (X : List T) (o) :
    (knnApplyC P ρ X).answer P.metric = KnnCover.apply ⟨P, o⟩ ρ X := by
  unfold knnApplyC KnnCover.apply proximityNet KnnCover.fit knnFitC
  simp only [answer_bind, pull_answer, answer_build]
  cases h : (VPTreeC.build (enumerate X) P.kind
    ⟨numOr P.leafCapacity P.neighbors, P.leafRadius, P.pivoting⟩ ρ).answer
      (pullback snd P.metric)
  · rfl
  · rename_i t
    simp only [ok_bind, pure_eq_ok]
    apply answer_proximityLoopC
    intro x
    simp only [knnSearchC, KnnCover.search, answer_bind, pull_answer, answer_knnSearch]
    rfl

end search

end Verif

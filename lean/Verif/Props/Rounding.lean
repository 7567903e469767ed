import Verif.Proof.Rounding
import Verif.Props.Nan
import Verif.Props.Core
import Verif.Spec.CoverParams
import Mathlib.Algebra.Order.Group.Int
import Mathlib.Tactic.Abel
import Mathlib.Tactic.Ring

/-!
# C73, C74: searches with rounded distances

`Rounded`, `Computes`, `MetricUpTo`, `AnswerBetween` and `KnnAnswerUpTo` are in
`Verif.Spec.Rounding`.
-/

set_option autoImplicit false
set_option linter.unusedSectionVars false

namespace Verif

section
variable {T R K : Type} [LinearOrder R] [Zero R] [Neg R] [Sub R]
  [AddCommGroup K] [LinearOrder K] [IsOrderedAddMonoid K] {val : R → K}

/-- **C73 (balls).** Let distances be machine numbers that satisfy the triangle inequality up
to `δ`. The search succeeds; it returns only entries whose computed distance is in the ball,
and all those which are in the ball by a margin of `δ`. -/
theorem C73_ball (hv : Rounded val) {δ : K} (hδ : 0 ≤ δ) {d : T → T → R}
    (hd : MetricUpTo val δ d) (X : List T) (hX : X ≠ []) (kind : String) (hk : IsKind kind)
    (p : VPParams R) (hp : 1 ≤ p.leafCapacity) (ρ : ℕ → ℕ) :
    ∃ t, VPTree.build X d kind p ρ = .ok t ∧
      ∀ (q : T) (eps : R) (inclusive : Bool), ∃ out, t.ballSearch q eps inclusive = .ok out ∧
        AnswerBetween (WellInBall (fun a b => val (d a b)) q (val eps) inclusive δ)
          (InBall d q eps inclusive) X out := by
  obtain ⟨t, h1, h2⟩ := vptree_keeps hd.symm X kind hk p hp ρ
  refine ⟨t, h1, fun q eps inc => ?_⟩
  obtain ⟨out, h3, h4⟩ := h2 hX q eps inc
  exact ⟨out, h3, h4 _ (keeps_rounded hv hδ hd X q eps inc)⟩

/-- **C73 (balls, true distances).** Let the distance `D` be computed with an error of at most
`u`. The search returns every entry whose true distance is in the ball by a margin of `4 u`,
and only entries whose true distance exceeds the radius by at most `u`. -/
theorem C73_ball_true (hv : Rounded val) {u : K} {D : T → T → K} (hD : PseudoMetric D)
    {d : T → T → R} (hd : Computes val u D d) (X : List T) (hX : X ≠ []) (kind : String)
    (hk : IsKind kind) (p : VPParams R) (hp : 1 ≤ p.leafCapacity) (ρ : ℕ → ℕ) :
    ∃ t, VPTree.build X d kind p ρ = .ok t ∧
      ∀ (q : T) (eps : R) (inclusive : Bool), ∃ out, t.ballSearch q eps inclusive = .ok out ∧
        AnswerBetween (WellInBall D q (val eps) inclusive (4 • u))
          (InBall D q (val eps + u) inclusive) X out := by
  cases X with
  | nil => exact absurd rfl hX
  | cons x₀ X =>
  have hu := hd.nonneg x₀
  obtain ⟨t, h1, h2⟩ := C73_ball hv (add_nonneg (add_nonneg hu hu) hu) (hd.metricUpTo hD) (x₀ :: X)
    hX kind hk p hp ρ
  refine ⟨t, h1, fun q eps inc => ?_⟩
  obtain ⟨out, h3, h4, h5⟩ := h2 q eps inc
  refine ⟨out, h3, (filter_subperm ?_ _).trans h4, h5.trans (filter_subperm ?_ _)⟩
  · intro x hx
    have hx := of_decide_eq_true hx
    apply decide_eq_true
    have hle : val (d q x) + (u + u + u) ≤ D q x + 4 • u := by
      have := (abs_le.mp (hd.error q x)).2
      rw [sub_le_iff_le_add'] at this
      refine (add_le_add_left this _).trans (le_of_eq ?_)
      abel
    unfold WellInBall InBall at hx ⊢
    split at hx
    · rename_i h; rw [if_pos h]; exact hle.trans hx
    · rename_i h; rw [if_neg h]; exact lt_of_le_of_lt hle hx
  · intro x hx
    have hx := of_decide_eq_true hx
    apply decide_eq_true
    have hle : D q x ≤ val (d q x) + u := by
      have := (abs_le.mp (hd.error q x)).1
      rwa [neg_le_sub_iff_le_add] at this
    unfold InBall at hx ⊢
    split at hx
    · rename_i h; rw [if_pos h]
      exact hle.trans (by gcongr; exact (hv.le _ _).mpr hx)
    · rename_i h; rw [if_neg h]
      exact lt_of_le_of_lt hle (by gcongr; exact hv.lt.mpr hx)

/-- **C73 (neighbours).** Let moreover differences be rounded by at most `η`. The
nearest-neighbour search succeeds; no returned entry is farther than an entry left out by more
than `δ + η`, and for the hierarchical tree by more than `δ`. -/
theorem C73_knn (hv : Rounded val) {δ η : K} (hδ : 0 ≤ δ) (hη : RoundedBy val η) {d : T → T → R}
    (hd : MetricUpTo val δ d) (X : List T) (hX : X ≠ []) (kind : String) (hk : IsKind kind)
    (p : VPParams R) (hp : 1 ≤ p.leafCapacity) (ρ : ℕ → ℕ) :
    ∃ t, VPTree.build X d kind p ρ = .ok t ∧
      ∀ (q : T) (k : ℕ), ∃ out, t.knnSearch q k = .ok out ∧
        KnnAnswerUpTo (fun a b => val (d a b)) q k (δ + η) X out ∧
        (kind = "hierarchical" → KnnAnswerUpTo (fun a b => val (d a b)) q k δ X out) := by
  rcases hk with rfl | rfl
  · obtain ⟨a, e1, wf, hdata, ht⟩ := flatBuild_ok d ρ p hp X
    refine ⟨.flat d a, by simp [VPTree.build, e1], ?_⟩
    intro q k
    obtain ⟨out, e2, h2⟩ := flatKnnSearch_upTo wf (by rw [hdata]; exact ht hX) q
      ((skips_rounded hv hδ hη hd q).two _) k
    rw [hdata] at h2
    exact ⟨out, e2, h2, fun h => absurd h (by decide)⟩
  · obtain ⟨t, a, e1, wf, hdata, _, hperm, _, hgood⟩ := hierBuild_ok d ρ p hp X
    refine ⟨.hier d t a, by simp [VPTree.build, e1], ?_⟩
    intro q k
    obtain ⟨hp', e2, h2⟩ := hierKnnRec_upTo hd.symm wf q ((skipsH_rounded hv hδ hd q).two _) k t
      hgood [] MaxHeap.init (KInv.nil _ _ _)
    rw [List.nil_append] at h2
    obtain ⟨out, e3, hl, left, h3, h4⟩ := knnItems_ok (h2.perm hperm)
    have h0 : 0 ≤ η := (abs_nonneg _).trans (hη 0 0)
    refine ⟨out, by simp [VPTree.knnSearch, hierKnnSearch, e2, e3], ⟨hl, left, h3, ?_⟩,
      fun _ => ⟨hl, left, h3, h4⟩⟩
    intro x hx y hy
    refine (h4 x hx y hy).trans ?_
    rw [← add_assoc]
    exact le_add_of_nonneg_right h0

/-- **C73 (neighbours, true distances).** Let the distance `D` be computed with an error of at most
`u`. No returned entry is truly farther than an entry left out by more than `5 u + η`. -/
theorem C73_knn_true (hv : Rounded val) {u η : K} (hη : RoundedBy val η) {D : T → T → K}
    (hD : PseudoMetric D) {d : T → T → R} (hd : Computes val u D d) (X : List T) (hX : X ≠ [])
    (kind : String) (hk : IsKind kind) (p : VPParams R) (hp : 1 ≤ p.leafCapacity) (ρ : ℕ → ℕ) :
    ∃ t, VPTree.build X d kind p ρ = .ok t ∧
      ∀ (q : T) (k : ℕ), ∃ out, t.knnSearch q k = .ok out ∧
        KnnAnswerUpTo D q k (5 • u + η) X out ∧
        (kind = "hierarchical" → KnnAnswerUpTo D q k (5 • u) X out) := by
  cases X with
  | nil => exact absurd rfl hX
  | cons x₀ X =>
  have hu := hd.nonneg x₀
  obtain ⟨t, h1, h2⟩ := C73_knn hv (add_nonneg (add_nonneg hu hu) hu) hη (hd.metricUpTo hD)
    (x₀ :: X) hX kind hk p hp ρ
  have key : ∀ (q : T) (k : ℕ) (δ : K) (out : List T),
      KnnAnswerUpTo (fun a b => val (d a b)) q k δ (x₀ :: X) out →
      KnnAnswerUpTo D q k (u + δ + u) (x₀ :: X) out := by
    rintro q k δ out ⟨h3, left, h4, h5⟩
    refine ⟨h3, left, h4, fun x hx y hy => ?_⟩
    have a1 := (abs_le.mp (hd.error q x)).1
    rw [neg_le_sub_iff_le_add] at a1
    have a2 := (abs_le.mp (hd.error q y)).2
    rw [sub_le_iff_le_add'] at a2
    have a3 : val (d q x) ≤ D q y + u + δ := (h5 x hx y hy).trans (add_le_add_left a2 δ)
    refine a1.trans ((add_le_add_left a3 u).trans (le_of_eq ?_))
    abel
  refine ⟨t, h1, fun q k => ?_⟩
  obtain ⟨out, h3, h4, h5⟩ := h2 q k
  have e1 : u + (u + u + u + η) + u = 5 • u + η := by abel
  have e2 : u + (u + u + u) + u = 5 • u := by abel
  exact ⟨out, h3, e1 ▸ key q k _ out h4, fun h => e2 ▸ key q k _ out (h5 h)⟩

end

/-! ### Non-vacuity: machine numbers with a coarser grid for large values -/

/-- Integers below 16 in absolute value, and even integers. -/
structure Coarse where
  val : ℤ
  grid : val % 2 = 0 ∨ (-16 < val ∧ val < 16)

theorem Coarse.ext' : Function.Injective Coarse.val := by
  rintro ⟨x, _⟩ ⟨y, _⟩ h
  cases h
  rfl

instance : LinearOrder Coarse := LinearOrder.lift' Coarse.val Coarse.ext'
instance : Zero Coarse := ⟨⟨0, .inl rfl⟩⟩
instance : Neg Coarse := ⟨fun x => ⟨-x.val, by have := x.grid; omega⟩⟩

/-- Rounding downwards to the grid. -/
def roundDown (n : ℤ) : ℤ := if n % 2 = 0 ∨ (-16 < n ∧ n < 16) then n else n - 1

def Coarse.round (n : ℤ) : Coarse := ⟨roundDown n, by unfold roundDown; split <;> omega⟩

instance : Sub Coarse := ⟨fun x y => Coarse.round (x.val - y.val)⟩

theorem roundDown_error (n : ℤ) : |roundDown n - n| ≤ 1 := by
  unfold roundDown
  rw [abs_le]
  split <;> constructor <;> omega

theorem coarse_rounded : Rounded Coarse.val where
  le := fun _ _ => Iff.rfl
  zero := rfl
  neg := fun _ => rfl
  sub_le := fun x y z h => by
    show roundDown (x.val - y.val) ≤ z.val
    unfold roundDown
    split <;> omega
  le_sub := fun x y z h => by
    show z.val ≤ roundDown (x.val - y.val)
    unfold roundDown
    have := z.grid
    split <;> omega

theorem coarse_by : RoundedBy Coarse.val 1 := fun x y => roundDown_error (x.val - y.val)

/-- The distance of two integers, rounded. -/
def coarseDist (x y : ℤ) : Coarse := Coarse.round |x - y|

theorem coarse_computes : Computes Coarse.val 1 absDist coarseDist where
  symm := fun x y => by unfold coarseDist; rw [abs_sub_comm]
  error := fun x y => roundDown_error |x - y|

/-- Ten points of the line. -/
def coarseData : List ℤ := [0, 34, 66, 100, 134, 10, 42, 80, 202, 34]

/-- The neighbours of `51` at distance at most `22`, by a margin of 4: `34` twice and `66`
are at distance 17 and 15, and nothing at distance above 23 is returned. -/
example : ∃ t, VPTree.build coarseData coarseDist "flat" ⟨1, 0, "disabled"⟩ (fun n => n) = .ok t ∧
    ∃ out, t.ballSearch 51 ⟨22, by decide⟩ true = .ok out ∧
      [34, 66, 42, 34].Subperm out ∧ out.Subperm [34, 66, 42, 34] := by
  obtain ⟨t, h1, h2⟩ := C73_ball_true coarse_rounded absDist_pseudo coarse_computes coarseData
    (by simp [coarseData]) "flat" (.inl rfl) ⟨1, 0, "disabled"⟩ (le_refl _) (fun n => n)
  obtain ⟨out, h3, h4, h5⟩ := h2 51 ⟨22, by decide⟩ true
  exact ⟨t, h1, out, h3, h4, h5⟩

/-- Non-vacuity for neighbours. -/
example : ∃ t, VPTree.build coarseData coarseDist "flat" ⟨1, 0, "disabled"⟩ (fun n => n) = .ok t ∧
    ∃ out, t.knnSearch 51 3 = .ok out ∧
      KnnAnswerUpTo (fun a b => (coarseDist a b).val) 51 3 (1 + 1 + 1 + 1) coarseData out := by
  obtain ⟨t, h1, h2⟩ := C73_knn coarse_rounded (by decide) coarse_by
    (coarse_computes.metricUpTo absDist_pseudo) coarseData (by simp [coarseData]) "flat"
    (.inl rfl) ⟨1, 0, "disabled"⟩ (le_refl _) (fun n => n)
  obtain ⟨out, h3, h4, _⟩ := h2 51 3
  exact ⟨t, h1, out, h3, h4⟩

example : ∃ t, VPTree.build coarseData coarseDist "flat" ⟨1, 0, "disabled"⟩ (fun n => n) = .ok t ∧
    ∃ out, t.knnSearch 51 3 = .ok out ∧ KnnAnswerUpTo absDist 51 3 (5 • 1 + 1) coarseData out := by
  obtain ⟨t, h1, h2⟩ := C73_knn_true coarse_rounded coarse_by absDist_pseudo coarse_computes coarseData
    (by simp [coarseData]) "flat" (.inl rfl) ⟨1, 0, "disabled"⟩ (le_refl _) (fun n => n)
  obtain ⟨out, h3, h4, _⟩ := h2 51 3
  exact ⟨t, h1, out, h3, h4⟩

/-- **C73 (the margin is needed).** With rounded distances a ball search may miss an entry
whose distance, both true and computed, is in the ball: the point `66` is at distance 15 of
`51`. -/
theorem C73_violation :
    66 ∈ coarseData ∧ absDist 51 66 = 15 ∧ (coarseDist 51 66).val = 15 ∧
    ∀ kind, IsKind kind →
      (VPTree.build coarseData coarseDist kind ⟨1, 0, "disabled"⟩ (fun n => n) >>= fun t =>
        t.ballSearch 51 ⟨15, by decide⟩ true) = .ok [42] := by
  refine ⟨by decide, by decide, by decide, ?_⟩
  rintro kind (rfl | rfl) <;> rfl

/-! ### Covers -/

section
variable {T R K : Type} [LinearOrder R] [Zero R] [Neg R] [Sub R]

/-- **C74.** For every symmetric distance function with `d x x < radius`, whether or not it
satisfies the triangle inequality, and whether or not it is computed exactly, `BallCover.apply`
yields well-formed charts that cover every row, and each chart contains only rows whose
computed distance from some row is below the radius. -/
theorem C74_cover (hsub : ∀ r : R, r - r = 0) (c : BallCover T R)
    (hsy : ∀ x y, c.params.metric x y = c.params.metric y x) (hk : IsKind c.params.kind)
    (hp : 1 ≤ c.params.leafCapacity) (h0 : 0 ≤ c.params.radius) (ρ : ℕ → ℕ) (X : List T)
    (hself : ∀ x ∈ X, c.params.metric x x < c.params.radius) :
    ∃ out, c.apply ρ X = .ok out ∧ WellFormedCharts X.length out ∧ Covers X.length out ∧
      ∀ chart ∈ out, ∃ (i : ℕ) (xi : T), X[i]? = some xi ∧ i ∈ chart ∧
        ∀ j ∈ chart, ∃ z, X[j]? = some z ∧ c.params.metric xi z < c.params.radius := by
  exact C78_cover (Fin := fun _ => True)
    ⟨fun a b _ _ h => not_lt.mp h, fun a b _ _ h1 h2 => by rw [le_antisymm h1 h2]; exact hsub b⟩
    c hsy hk hp h0 ρ X (fun _ _ _ _ => trivial) hself

/-- **C74 (rounded distances).** If moreover the triangle inequality holds up to `δ`, a chart
contains every row that is within the radius of its centre by a margin of `δ`. -/
theorem C74_charts [AddCommGroup K] [LinearOrder K] [IsOrderedAddMonoid K] {val : R → K}
    (hv : Rounded val) {δ : K} (hδ : 0 ≤ δ) (c : BallCover T R)
    (hd : MetricUpTo val δ c.params.metric) (hk : IsKind c.params.kind)
    (hp : 1 ≤ c.params.leafCapacity) (ρ : ℕ → ℕ) (X : List T) (hX : X ≠ []) :
    ∃ c', c.fit ρ X = .ok c' ∧ ∀ x, ∃ out, c'.search x = .ok out ∧ out.Nodup ∧
      (∀ j ∈ out, ∃ z, X[j]? = some z ∧ c.params.metric x z < c.params.radius) ∧
      ∀ (j : ℕ) z, X[j]? = some z → val (c.params.metric x z) + δ < val c.params.radius →
        j ∈ out := by
  obtain ⟨c', h1, h2⟩ := ballFit_keeps c hd.symm hk hp ρ X
  refine ⟨c', h1, fun x => ?_⟩
  obtain ⟨out, h3, h4, h5, h6⟩ := h2 hX x
  refine ⟨out, h3, h4, h5, fun j z hz hlt => ?_⟩
  refine h6 _ (keeps_rounded hv hδ hd X x c.params.radius false) j z hz ?_
  apply decide_eq_true
  simpa [WellInBall, InBall] using hlt

end

/-- Squares of differences: symmetric, but not a metric. -/
def sqBall : BallCover ℤ ℤ := ⟨⟨5, fun x y => (x - y) * (x - y), "flat", 1, none, "disabled"⟩, none⟩

example : ∃ out, sqBall.apply (fun n => n) [0, 1, 2, 3, 4, 5, 6] = .ok out ∧ Covers 7 out := by
  obtain ⟨out, h1, _, h2, _⟩ := C74_cover (fun r : ℤ => sub_self r) sqBall
    (fun x y => by show (x - y) * (x - y) = (y - x) * (y - x); ring) (.inl rfl) (le_refl _)
    (by decide) (fun n => n) [0, 1, 2, 3, 4, 5, 6] (fun x _ => by simp [sqBall])
  exact ⟨out, h1, h2⟩

/-- A distance that is not symmetric. -/
def skewBall (kind : String) : BallCover ℤ ℤ :=
  ⟨⟨2, fun x y => if x ≤ y then y - x else 3 * (x - y), kind, 1, none, "disabled"⟩, none⟩

/-- **C74 (symmetry is needed).** With a metric that is not symmetric, `BallCover` may leave
a row out of every chart: here the third one. -/
theorem C74_violation :
    (∀ x, (skewBall "flat").params.metric x x < (skewBall "flat").params.radius) ∧
    (∀ x y z, (skewBall "flat").params.metric x z ≤
      (skewBall "flat").params.metric x y + (skewBall "flat").params.metric y z) ∧
    ∃ out, (skewBall "flat").apply (fun n => n) [0, 1, 2, 3, 4, 5, 6] = .ok out ∧
      ∀ chart ∈ out, 2 ∉ chart := by
  refine ⟨fun x => by simp [skewBall], fun x y z => ?_, [[0, 1], [3], [4, 5], [6]], rfl, by decide⟩
  simp only [skewBall]
  split <;> split <;> split <;> omega

/-- Non-vacuity for `C74_charts`: the machine numbers above. -/
def coarseBall : BallCover ℤ Coarse := ⟨⟨⟨22, by decide⟩, coarseDist, "flat", 1, none, "disabled"⟩, none⟩

example : ∃ c', coarseBall.fit (fun n => n) coarseData = .ok c' ∧
    ∃ out, c'.search 51 = .ok out ∧ 1 ∈ out := by
  obtain ⟨c', h1, h2⟩ := C74_charts coarse_rounded (by decide) coarseBall
    (coarse_computes.metricUpTo absDist_pseudo) (.inl rfl) (le_refl _) (fun n => n) coarseData
    (by simp [coarseData])
  obtain ⟨out, h3, _, _, h4⟩ := h2 51
  exact ⟨c', h1, out, h3, h4 1 34 rfl (by decide)⟩

end Verif

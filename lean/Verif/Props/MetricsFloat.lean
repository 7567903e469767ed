import Verif.Proof.SqrtFloat
import Verif.Props.Nan
import Verif.Props.Rounding
import Verif.Props.Metrics

/-!
# C85: distances computed in floating point
-/

set_option autoImplicit false

namespace Verif

section laws
variable {R : Type} [LT R] [Zero R] [Neg R] [Add R] [Sub R] [Mul R] [Div R]
  [DecidableLT R] [DecidableEq R] {L : Libm R} {Finite : R → Prop} {n : ℕ}

omit [DecidableLT R] [DecidableEq R] in
/-- **C85 (any order of addition).** However the compiler reorders the additions, a sum of
zeros is zero, the norm ignores signs, and the scalar product is symmetric. -/
theorem C85_any_order (h : FloatLaws L Finite) (S : ∀ n, SumTree n) (hS : L.Textbook S) :
    RoutineLaws L := routine_laws h hS

/-- **C85 (symmetry).** In floating point, on all vectors, infinite and NaN entries included,
`euclidean`, `manhattan`, `chebyshev`, `minkowski` and `cosine` are symmetric, to the last bit
(and `cosine(x, y)` raises if and only if `cosine(y, x)` does). -/
theorem C85_symmetric (h : FloatLaws L Finite) (hr : RoutineLaws L) :
    (∀ d : (Fin n → R) → (Fin n → R) → R, IsVectorMetric L d → ∀ x y, d x y = d y x) ∧
      ∀ x y : Fin n → R, floatCosine L x y = floatCosine L y x :=
  ⟨fun _ hd x y => vectorMetric_symm h hr hd x y, floatCosine_symm h hr⟩

/-- **C85 (distance of a vector from itself).** In floating point the distance of a vector
with finite entries from itself is exactly zero for `euclidean`, `manhattan`, `chebyshev` and
`minkowski` with `p > 0`. -/
theorem C85_self (h : FloatLaws L Finite) (hr : RoutineLaws L)
    (d : (Fin n → R) → (Fin n → R) → R) (hd : IsVectorMetric L d) (x : Fin n → R)
    (hx : ∀ i, Finite (x i)) : d x x = 0 := vectorMetric_self h hr hd hx

variable [LE R] [DecidableLE R] [StrictLT R]

/-- **C85 (cover).** `BallCover` with `euclidean`, `manhattan`, `chebyshev` or `minkowski`
computed in floating point covers every row of a dataset with finite entries whose distances do
not overflow; each chart contains only rows whose computed distance from one of them is below
the radius. The full statement includes `cosine`, for which it fails: see
`C85_cosine_violation`. -/
theorem C85_cover_partial (hF : FiniteNumbers Finite) (h : FloatLaws L Finite)
    (hr : RoutineLaws L) (c : BallCover (Fin n → R) R) (hd : IsVectorMetric L c.params.metric)
    (hk : IsKind c.params.kind) (hp : 1 ≤ c.params.leafCapacity) (h0 : 0 < c.params.radius)
    (h0' : 0 ≤ c.params.radius) (ρ : ℕ → ℕ) (X : List (Fin n → R))
    (hX : ∀ x ∈ X, ∀ i, Finite (x i))
    (hfin : ∀ x ∈ X, ∀ y ∈ X, Finite (c.params.metric x y)) :
    ∃ out, c.apply ρ X = .ok out ∧ WellFormedCharts X.length out ∧ Covers X.length out ∧
      ∀ chart ∈ out, ∃ (i : ℕ) (xi : Fin n → R), X[i]? = some xi ∧ i ∈ chart ∧
        ∀ j ∈ chart, ∃ z, X[j]? = some z ∧ c.params.metric xi z < c.params.radius :=
  C78_cover hF c (vectorMetric_symm h hr hd) hk hp h0' ρ X hfin (fun x hx => by
    rw [vectorMetric_self h hr hd (hX x hx)]; exact h0)

end laws

/-! ### Accuracy -/

section errors
variable {R : Type} [Machine R] {n : ℕ} {L : Libm R} {val : R → ℝ} {w : ℝ} {N : ℤ}

/-- **C85 (accuracy).** Let every operation have a relative error of at most `w`, and let the
sums be added up in any order in which an entry goes through at most `h` additions. Then the
computed Euclidean distance has a relative error of at most `(1 + w) ^ (h + 4) - 1`, the
Manhattan distance of at most `(1 + w) ^ (h + 1) - 1`, and the Chebyshev distance of at most
`w`. -/
theorem C85_accuracy (hm : MachineLaws val w N) (hr : RoundedRoutines L val w)
    (S : ∀ n, SumTree n) (hS : L.Textbook S) (hA : (S n).AddsAll) (h : ℕ) (hh : (S n).depth ≤ h)
    (x y : Fin n → R) :
    let x' := fun i => val (x i)
    let y' := fun i => val (y i)
    |val (floatEuclidean L x y) - euclideanFormula x' y'|
        ≤ ((1 + w) ^ (h + 4) - 1) * euclideanFormula x' y' ∧
      |val (floatManhattan L x y) - manhattanFormula x' y'|
        ≤ ((1 + w) ^ (h + 1) - 1) * manhattanFormula x' y' ∧
      ∀ D, IsMaxDiff x' y' D → |val (floatChebyshev L x y) - D| ≤ w * D := by
  have h0 := hm.w_nonneg
  have he : 0 ≤ euclideanFormula (fun i => val (x i)) (fun i => val (y i)) := Real.sqrt_nonneg _
  have hM : 0 ≤ manhattanFormula (fun i => val (x i)) (fun i => val (y i)) :=
    Finset.sum_nonneg (fun i _ => abs_nonneg _)
  refine ⟨?_, ?_, ?_⟩
  · exact ((near_euclidean hm hr hS hA x y).error h0 he).trans
      (mul_le_mul_of_nonneg_right (pow_bound_mono h0 (by omega)) he)
  · exact ((near_manhattan hm hr hS hA x y).error h0 hM).trans
      (mul_le_mul_of_nonneg_right (pow_bound_mono h0 (by omega)) hM)
  · intro D hD
    obtain ⟨h1, h2⟩ := near_chebyshev hm hr x y hD
    have := h2.error h0 h1
    rwa [pow_one, add_sub_cancel_left] at this

/-- **C85 (accuracy of `cosine`).** For vectors other than zero the computed cosine distance is
the square root of a number `r` that differs from the square of the exact distance by at most
`ε = 4 ((1 + w) ^ (5 h + 14) - 1)`. If `r` is not negative, the distance is exact up to
`√ε + w (2 + √ε)`: about `√w`, not `w`. -/
theorem C85_cosine_accuracy (hm : MachineLaws val w N) (hr : RoundedRoutines L val w)
    (S : ∀ n, SumTree n) (hS : L.Textbook S) (hA : (S n).AddsAll) (h : ℕ) (hh : (S n).depth ≤ h)
    (h1 : val L.one = 1) (h2 : val L.two = 2) (x y : Fin n → R) (hx : (fun i => val (x i)) ≠ 0)
    (hy : (fun i => val (y i)) ≠ 0) (ε : ℝ) (hε : ε = 4 * ((1 + w) ^ (5 * h + 14) - 1)) :
    ∃ r D, floatCosine L x y = .ok (L.sqrt r) ∧
      cosine (fun i => val (x i)) (fun i => val (y i)) = .ok D ∧ |val r - D ^ 2| ≤ ε ∧
      (0 ≤ val r → |val (L.sqrt r) - D| ≤ Real.sqrt ε + w * (2 + Real.sqrt ε)) := by
  have h0 := hm.w_nonneg
  obtain ⟨r, D, e1, e2, hD0, hD2, herr⟩ := approx_cosine hm hr hS hA h1 h2 x y hx hy
  have herr : |val r - D ^ 2| ≤ ε := by
    refine herr.trans ?_
    rw [hε]
    have := pow_bound_mono h0 (show 5 * (S n).depth + 14 ≤ 5 * h + 14 by omega)
    linarith
  refine ⟨r, D, e1, e2, herr, fun hr0 => ?_⟩
  have hε0 : 0 ≤ ε := (abs_nonneg _).trans herr
  have h3 : |Real.sqrt (val r) - D| ≤ Real.sqrt ε := by
    apply Real.le_sqrt_of_sq_le
    refine le_trans ?_ herr
    have h4 : val r - D ^ 2 = (Real.sqrt (val r) - D) * (Real.sqrt (val r) + D) := by
      nlinarith [Real.sq_sqrt hr0]
    rw [h4, abs_mul, sq]
    refine mul_le_mul_of_nonneg_left ?_ (abs_nonneg _)
    rw [abs_of_nonneg (add_nonneg (Real.sqrt_nonneg _) hD0), abs_le]
    constructor <;> linarith [Real.sqrt_nonneg (val r)]
  have h4 := hr.sqrt r hr0
  have h5 : Real.sqrt (val r) ≤ 2 + Real.sqrt ε := by linarith [(abs_le.mp h3).2]
  have h6 : |val (L.sqrt r) - D| ≤ |val (L.sqrt r) - Real.sqrt (val r)| + |Real.sqrt (val r) - D| := by
    have := abs_add_le (val (L.sqrt r) - Real.sqrt (val r)) (Real.sqrt (val r) - D)
    rwa [sub_add_sub_cancel] at this
  have h7 := mul_le_mul_of_nonneg_left h5 h0
  linarith

/-- A distance with relative error `κ`, on points whose exact distances are at most `M`. -/
theorem search_of_error {T : Type} (hm : MachineLaws val w N) {D : T → T → ℝ}
    (hD : PseudoMetric D) {d : T → T → R} (hsy : ∀ a b, d a b = d b a) {κ M : ℝ} (hκ : 0 ≤ κ)
    (herr : ∀ a b, |val (d a b) - D a b| ≤ κ * D a b) (hM : ∀ a b, D a b ≤ M) (X : List T)
    (hX : X ≠ []) (kind : String) (hk : IsKind kind) (p : VPParams R) (hp : 1 ≤ p.leafCapacity)
    (ρ : ℕ → ℕ) :
    ∃ t, VPTree.build X d kind p ρ = .ok t ∧
      ∀ (q : T) (eps : R) (inclusive : Bool), ∃ out, t.ballSearch q eps inclusive = .ok out ∧
        AnswerBetween (WellInBall D q (val eps) inclusive (4 • (κ * M)))
          (InBall D q (val eps + κ * M) inclusive) X out :=
  C73_ball_true hm.toRounded hD ⟨hsy, fun a b =>
    (herr a b).trans (mul_le_mul_of_nonneg_left (hM a b) hκ)⟩ X hX kind hk p hp ρ

/-- **C85 (search).** Points have coordinates `vec`, and their exact Euclidean distances are at
most `M`; put `u = ((1 + w) ^ (h + 4) - 1) M`. A ball search with the Euclidean distance
computed in floating point returns every entry whose exact distance is in the ball by a margin
of `4 u`, and only entries whose exact distance exceeds the radius by at most `u`. -/
theorem C85_search_euclidean {T : Type} (vec : T → Fin n → R) (hm : MachineLaws val w N)
    (hsq : ∀ x : R, -x * -x = x * x) (hr : RoundedRoutines L val w) (S : ∀ n, SumTree n)
    (hS : L.Textbook S) (hA : (S n).AddsAll) (h : ℕ) (hh : (S n).depth ≤ h) (D : T → T → ℝ)
    (hD : ∀ a b, D a b = euclideanFormula (fun i => val (vec a i)) (fun i => val (vec b i)))
    (M : ℝ) (hM : ∀ a b, D a b ≤ M) (u : ℝ) (hu : u = ((1 + w) ^ (h + 4) - 1) * M) (X : List T)
    (hX : X ≠ []) (kind : String) (hk : IsKind kind) (p : VPParams R) (hp : 1 ≤ p.leafCapacity)
    (ρ : ℕ → ℕ) :
    ∃ t, VPTree.build X (fun a b => floatEuclidean L (vec a) (vec b)) kind p ρ = .ok t ∧
      ∀ (q : T) (eps : R) (inclusive : Bool), ∃ out, t.ballSearch q eps inclusive = .ok out ∧
        AnswerBetween (WellInBall D q (val eps) inclusive (4 • u))
          (InBall D q (val eps + u) inclusive) X out := by
  have hps := (euclideanFormula_isMetric (n := n)).pseudo
  rw [hu]
  refine search_of_error hm ⟨fun a => ?_, fun a b => ?_, fun a b c => ?_⟩ ?_ ?_
    (fun a b => ?_) hM X hX kind hk p hp ρ
  · rw [hD]; exact hps.self _
  · rw [hD, hD]; exact hps.symm _ _
  · rw [hD, hD, hD]; exact hps.triangle _ _ _
  · intro a b
    unfold floatEuclidean
    rw [hS.nrm2, hS.nrm2]
    congr 2
    funext i
    rw [hm.sub_comm (vec b i) (vec a i), hsq]
  · have : 1 ≤ (1 + w) ^ (h + 4) := one_le_pow₀ (by linarith [hm.w_nonneg])
    linarith
  · rw [hD]
    exact (C85_accuracy hm hr S hS hA h hh (vec a) (vec b)).1

theorem abs_sub_comm_of (hm : MachineLaws val w N) (hr : RoundedRoutines L val w)
    (a b : R) : L.abs (a - b) = L.abs (b - a) := by
  have h : val (L.abs (a - b)) = val (L.abs (b - a)) := by
    rw [hr.abs, hr.abs, hm.sub_comm b a, hm.neg, abs_neg]
  exact le_antisymm ((hm.le _ _).mp h.le) ((hm.le _ _).mp h.ge)

/-- **C85 (search, Manhattan).** The same for the Manhattan distance, with
`u = ((1 + w) ^ (h + 1) - 1) M`. -/
theorem C85_search_manhattan {T : Type} (vec : T → Fin n → R) (hm : MachineLaws val w N)
    (hr : RoundedRoutines L val w) (S : ∀ n, SumTree n)
    (hS : L.Textbook S) (hA : (S n).AddsAll) (h : ℕ) (hh : (S n).depth ≤ h) (D : T → T → ℝ)
    (hD : ∀ a b, D a b = manhattanFormula (fun i => val (vec a i)) (fun i => val (vec b i)))
    (M : ℝ) (hM : ∀ a b, D a b ≤ M) (u : ℝ) (hu : u = ((1 + w) ^ (h + 1) - 1) * M) (X : List T)
    (hX : X ≠ []) (kind : String) (hk : IsKind kind) (p : VPParams R) (hp : 1 ≤ p.leafCapacity)
    (ρ : ℕ → ℕ) :
    ∃ t, VPTree.build X (fun a b => floatManhattan L (vec a) (vec b)) kind p ρ = .ok t ∧
      ∀ (q : T) (eps : R) (inclusive : Bool), ∃ out, t.ballSearch q eps inclusive = .ok out ∧
        AnswerBetween (WellInBall D q (val eps) inclusive (4 • u))
          (InBall D q (val eps + u) inclusive) X out := by
  have hps := (manhattanFormula_isMetric (n := n)).pseudo
  rw [hu]
  refine search_of_error hm ⟨fun a => ?_, fun a b => ?_, fun a b c => ?_⟩ ?_ ?_
    (fun a b => ?_) hM X hX kind hk p hp ρ
  · rw [hD]; exact hps.self _
  · rw [hD, hD]; exact hps.symm _ _
  · rw [hD, hD, hD]; exact hps.triangle _ _ _
  · intro a b
    unfold floatManhattan
    congr 1
    exact funext fun i => abs_sub_comm_of hm hr _ _
  · have : 1 ≤ (1 + w) ^ (h + 1) := one_le_pow₀ (by linarith [hm.w_nonneg])
    linarith
  · rw [hD]
    exact (C85_accuracy hm hr S hS hA h hh (vec a) (vec b)).2.1

/-- **C85 (search, Chebyshev).** The same for the Chebyshev distance, with `u = w M`. -/
theorem C85_search_chebyshev {T : Type} (vec : T → Fin n → R) (hm : MachineLaws val w N)
    (hr : RoundedRoutines L val w) (D : T → T → ℝ)
    (hD : ∀ a b, IsMaxDiff (fun i => val (vec a i)) (fun i => val (vec b i)) (D a b))
    (M : ℝ) (hM : ∀ a b, D a b ≤ M) (u : ℝ) (hu : u = w * M) (X : List T)
    (hX : X ≠ []) (kind : String) (hk : IsKind kind) (p : VPParams R) (hp : 1 ≤ p.leafCapacity)
    (ρ : ℕ → ℕ) :
    ∃ t, VPTree.build X (fun a b => floatChebyshev L (vec a) (vec b)) kind p ρ = .ok t ∧
      ∀ (q : T) (eps : R) (inclusive : Bool), ∃ out, t.ballSearch q eps inclusive = .ok out ∧
        AnswerBetween (WellInBall D q (val eps) inclusive (4 • u))
          (InBall D q (val eps + u) inclusive) X out := by
  have hps := (chebyshevDist_isMetric (n := n)).pseudo
  have hD' : ∀ a b, D a b = chebyshevDist (fun i => val (vec a i)) (fun i => val (vec b i)) :=
    fun a b => C47_max_unique _ _ _ _ (hD a b) (chebyshevDist_isMaxDiff _ _)
  rw [hu]
  refine search_of_error hm ⟨fun a => ?_, fun a b => ?_, fun a b c => ?_⟩ ?_ hm.w_nonneg
    (fun a b => ?_) hM X hX kind hk p hp ρ
  · rw [hD']; exact hps.self _
  · rw [hD', hD']; exact hps.symm _ _
  · rw [hD', hD', hD']; exact hps.triangle _ _ _
  · intro a b
    unfold floatChebyshev
    rw [show (fun i => L.abs (vec a i - vec b i)) = fun i => L.abs (vec b i - vec a i) from
      funext fun i => abs_sub_comm_of hm hr _ _]
  · obtain ⟨h1, h2⟩ := near_chebyshev hm hr (vec a) (vec b) (hD a b)
    have := h2.error hm.w_nonneg h1
    rwa [pow_one, add_sub_cancel_left] at this

end errors

/-! ### Double precision meets the hypotheses -/

/-- In double precision, vectors of dimension `n`, added up by the loop of the source: the
relative error of the Euclidean distance is at most `(1 + 2⁻⁵³) ^ (n + 4) - 1`. -/
example (n : ℕ) (x y : Fin n → Bin 52) :
    |((floatEuclidean (Bin.libm 52 SumTree.loop fun a _ => a) x y).1 : ℝ)
        - euclideanFormula (fun i => ((x i).1 : ℝ)) (fun i => ((y i).1 : ℝ))|
      ≤ ((1 + 1 / 2 ^ (52 + 1)) ^ (n + 4) - 1)
        * euclideanFormula (fun i => ((x i).1 : ℝ)) (fun i => ((y i).1 : ℝ)) :=
  (C85_accuracy (bin_laws_real 52 (by norm_num)) (Bin.routines 52 _ _) SumTree.loop
    (Bin.textbook 52 _ _) (SumTree.loop_addsAll n) n (SumTree.loop_depth n).le x y).1

/-- Double precision, vectors of dimension 3 other than zero: the computed radicand of the cosine
distance is within `4 ((1 + 2⁻⁵³) ^ 29 - 1)` of the exact one. -/
example (x y : Fin 3 → Bin 52) (hx : (x 0).1 ≠ 0) (hy : (y 0).1 ≠ 0) :
    ∃ r D, floatCosine (Bin.libm 52 SumTree.loop fun a _ => a) x y
        = .ok ((Bin.libm 52 SumTree.loop fun a _ => a).sqrt r) ∧
      cosine (fun i => ((x i).1 : ℝ)) (fun i => ((y i).1 : ℝ)) = .ok D ∧
      |(r.1 : ℝ) - D ^ 2| ≤ 4 * ((1 + 1 / 2 ^ (52 + 1)) ^ 29 - 1) := by
  have e1 : (((Bin.of 52 1).1 : ℚ) : ℝ) = 1 := by
    have := Bin.val_of_int (b := 52) 1 (by norm_num)
    push_cast at this
    rw [this]; simp
  have e2 : (((Bin.of 52 2).1 : ℚ) : ℝ) = 2 := by
    have := Bin.val_of_int (b := 52) 2 (by norm_num)
    push_cast at this
    rw [this]; simp
  obtain ⟨r, D, h1, h2, h3, _⟩ := C85_cosine_accuracy (bin_laws_real 52 (by norm_num))
    (Bin.routines 52 SumTree.loop fun a _ => a) SumTree.loop
    (Bin.textbook 52 _ _) (SumTree.loop_addsAll 3) 3 (SumTree.loop_depth 3).le e1 e2 x y
    (fun h => hx (by simpa using congrFun h 0)) (fun h => hy (by simpa using congrFun h 0)) _ rfl
  exact ⟨r, D, h1, h2, h3⟩

/-- Three points of the plane in double precision, searched for neighbours. -/
def floatPoints : Fin 3 → Fin 2 → Bin 52 := fun a i => Bin.of 52 ((a.1 + 2 * i.1 : ℕ) : ℚ)

example : ∃ t, VPTree.build [0, 1, 2]
    (fun a b => floatEuclidean (Bin.libm 52 SumTree.loop fun a _ => a) (floatPoints a)
      (floatPoints b)) "hierarchical" ⟨1, Bin.of 52 0, "disabled"⟩ (fun n => n) = .ok t := by
  obtain ⟨M, hM⟩ : ∃ M, ∀ a b : Fin 3,
      euclideanFormula (fun i => (((floatPoints a i).1 : ℚ) : ℝ))
        (fun i => (((floatPoints b i).1 : ℚ) : ℝ)) ≤ M := by
    refine ⟨∑ a : Fin 3, ∑ b : Fin 3, euclideanFormula
      (fun i => (((floatPoints a i).1 : ℚ) : ℝ)) (fun i => (((floatPoints b i).1 : ℚ) : ℝ)), ?_⟩
    intro a b
    refine le_trans ?_ (Finset.single_le_sum (fun a _ => Finset.sum_nonneg
      (fun b _ => Real.sqrt_nonneg _)) (Finset.mem_univ a))
    exact Finset.single_le_sum (f := fun b => euclideanFormula
      (fun i => (((floatPoints a i).1 : ℚ) : ℝ)) (fun i => (((floatPoints b i).1 : ℚ) : ℝ)))
      (fun b _ => Real.sqrt_nonneg _) (Finset.mem_univ b)
  obtain ⟨t, h, _⟩ := C85_search_euclidean floatPoints (bin_laws_real 52 (by norm_num))
    (fun x => Subtype.ext (by
      have h1 : (-x).1 = -x.1 := (bin_laws 52 (by norm_num)).neg x
      show roundTo 52 ((-x).1 * (-x).1) = roundTo 52 (x.1 * x.1)
      rw [h1, neg_mul_neg]))
    (Bin.routines 52 _ _) SumTree.loop (Bin.textbook 52 _ _) (SumTree.loop_addsAll 2) 2
    (SumTree.loop_depth 2).le _ (fun _ _ => rfl) M hM _ rfl [0, 1, 2] (by simp) "hierarchical"
    (Or.inr rfl) ⟨1, Bin.of 52 0, "disabled"⟩ (by decide) (fun n => n)
  exact ⟨t, h⟩

/-- A power function on doubles, correct at zero. -/
def f64pow : F64 → F64 → F64 := fun a _ => a

/-- Rows `[0, 0], [1, 2], [2, 4], [1, 2]` of doubles. -/
def floatRows : List (Fin 2 → F64) :=
  [fun _ => F64.of 0, fun i => F64.of (i.1 + 1), fun i => F64.of (2 * i.1 + 2),
    fun i => F64.of (i.1 + 1)]

/-- Double precision with NaN: the rows are covered by balls of the Euclidean distance. -/
example (ρ : ℕ → ℕ) (c : BallCover (Fin 2 → F64) F64)
    (hc : c.params = ⟨F64.of (5 / 2), floatEuclidean (F64.libm f64pow), "flat", 1, none, "disabled"⟩) :
    ∃ out, c.apply ρ floatRows = .ok out ∧ Covers 4 out := by
  have hl := F64.laws f64pow (fun _ _ => rfl)
  obtain ⟨out, h1, _, h2, _⟩ := C85_cover_partial F64.finiteNumbers hl
    (C85_any_order hl _ (F64.textbook f64pow)) c (by rw [hc]; exact .euclidean)
    (by rw [hc]; exact Or.inl rfl) (by rw [hc]) (by rw [hc]; decide +kernel)
    (by rw [hc]; decide +kernel) ρ floatRows (by
      have h : ∀ x ∈ floatRows, ∀ i, x i ≠ .nan := by decide +kernel
      exact fun x hx i => (F64.finite_iff _).mpr (h x hx i)) (by
      have h : ∀ x ∈ floatRows, ∀ y ∈ floatRows, floatEuclidean (F64.libm f64pow) x y ≠ .nan := by
        decide +kernel
      rw [hc]
      exact fun x hx y hy => (F64.finite_iff _).mpr (h x hx y hy))
  exact ⟨out, h1, h2⟩

/-! ### Cosine -/

/-- The vector `[1.0, 1.0, ..., 1.0]`. -/
def onesF64 (n : ℕ) : Fin n → F64 := fun _ => F64.of 1

/-- **C85 (violation by `cosine`).** In double precision the cosine distance of `[1, 1, 1]` from
itself is NaN (the computed similarity is `1.0000000000000002`), so `BallCover` with this
distance covers no row of a dataset of such vectors, whatever the radius; and the distance of
`[1, 1]` from itself is positive, above `10⁻⁸`. The exact distances are zero (`C49_pseudometric`). -/
theorem C85_cosine_violation (pow : F64 → F64 → F64) :
    floatCosine (F64.libm pow) (onesF64 3) (onesF64 3) = .ok .nan ∧
    (∃ r, floatCosine (F64.libm pow) (onesF64 2) (onesF64 2) = .ok r ∧ F64.of (1 / 10 ^ 8) < r) ∧
    ∀ (c : BallCover (Fin 3 → F64) F64) (ρ : ℕ → ℕ) (X : List (Fin 3 → F64)),
      (∀ x y r, floatCosine (F64.libm pow) x y = .ok r → c.params.metric x y = r) →
      (∀ x y, c.params.metric x y = c.params.metric y x) →
      IsKind c.params.kind → 1 ≤ c.params.leafCapacity → (∀ x ∈ X, x = onesF64 3) →
      c.apply ρ X = .ok [] := by
  have h1 : floatCosine (F64.libm pow) (onesF64 3) (onesF64 3) = .ok .nan := by
    show floatCosine (F64.libm f64pow) (onesF64 3) (onesF64 3) = .ok .nan
    decide +kernel
  refine ⟨h1, ?_, ?_⟩
  · exact ⟨F64.of (6369051672525773 / 2 ^ 78), by
      show floatCosine (F64.libm f64pow) (onesF64 2) (onesF64 2) = _
      decide +kernel, by decide +kernel⟩
  · intro c ρ X hc hsy hk hp hX
    obtain ⟨out, e, hw, hch⟩ := C78_apply c hsy hk hp ρ X
    rw [e]
    cases out with
    | nil => rfl
    | cons chart out =>
      exfalso
      obtain ⟨hne, _⟩ := hw chart (List.mem_cons_self ..)
      obtain ⟨xi, hxi, hall⟩ := hch chart (List.mem_cons_self ..)
      obtain ⟨j, hj⟩ := List.exists_mem_of_ne_nil _ hne
      obtain ⟨z, hz, hlt⟩ := hall j hj
      rw [hX xi hxi, hX z (List.mem_of_getElem? hz), hc _ _ _ h1] at hlt
      cases hlt

end Verif

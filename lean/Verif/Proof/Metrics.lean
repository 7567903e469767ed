import Verif.Model.Metrics
import Verif.Spec.Metrics
import Verif.Spec.Metric
import Verif.Proof.Cubical
import Mathlib.Analysis.MeanInequalities
import Mathlib.Tactic.Linarith
import Mathlib.Tactic.Ring
import Mathlib.Tactic.FieldSimp
import Mathlib.Tactic.Positivity

/-!
# Lemmas on the distances
-/

set_option autoImplicit false

namespace Verif

variable {n : ℕ}

theorem sum_rpow_eq_zero {p : ℝ} (hp : p ≠ 0) (v : Fin n → ℝ) (h : ∑ i, |v i| ^ p = 0) :
    v = 0 := by
  have := (Finset.sum_eq_zero_iff_of_nonneg
    (fun i _ => Real.rpow_nonneg (abs_nonneg (v i)) p)).mp h
  funext i
  have hi := this i (Finset.mem_univ i)
  rw [Real.rpow_eq_zero (abs_nonneg _) hp] at hi
  simpa using hi

theorem minkowskiFormula_isMetric {p : ℝ} (hp : 1 ≤ p) :
    IsMetric (minkowskiFormula p : (Fin n → ℝ) → _ → ℝ) := by
  have hp0 : p ≠ 0 := by linarith
  refine ⟨?_, ?_, ?_, ?_⟩
  · intro x y
    simp only [minkowskiFormula, abs_sub_comm]
  · intro x
    simp [minkowskiFormula, Real.zero_rpow hp0, hp0]
  · intro x y hxy
    refine lt_of_le_of_ne (Real.rpow_nonneg (Finset.sum_nonneg
      (fun i _ => Real.rpow_nonneg (abs_nonneg _) _)) _) ?_
    intro h
    have h2 := (Real.rpow_eq_zero (Finset.sum_nonneg
      (fun i _ => Real.rpow_nonneg (abs_nonneg _) _)) (by positivity)).mp h.symm
    have h3 := sum_rpow_eq_zero hp0 (fun i => x i - y i) h2
    apply hxy
    funext i
    have := congrFun h3 i
    simpa [sub_eq_zero] using this
  · intro x y z
    have := Real.Lp_add_le (Finset.univ : Finset (Fin n)) (fun i => x i - y i)
      (fun i => y i - z i) hp
    simpa [minkowskiFormula] using this

theorem euclideanFormula_eq (x y : Fin n → ℝ) :
    euclideanFormula x y = minkowskiFormula 2 x y := by
  simp only [euclideanFormula, minkowskiFormula, Real.sqrt_eq_rpow]
  congr 1
  apply Finset.sum_congr rfl
  intro i _
  rw [show (2 : ℝ) = ((2 : ℕ) : ℝ) by norm_num, Real.rpow_natCast, sq_abs]

theorem manhattanFormula_eq (x y : Fin n → ℝ) :
    manhattanFormula x y = minkowskiFormula 1 x y := by
  simp [manhattanFormula, minkowskiFormula]

theorem euclideanFormula_isMetric : IsMetric (euclideanFormula : (Fin n → ℝ) → _ → ℝ) := by
  have h := minkowskiFormula_isMetric (n := n) (p := 2) (by norm_num)
  have e : (euclideanFormula : (Fin n → ℝ) → _ → ℝ) = minkowskiFormula 2 := by
    funext x y; exact euclideanFormula_eq x y
  rw [e]; exact h

theorem manhattanFormula_isMetric : IsMetric (manhattanFormula : (Fin n → ℝ) → _ → ℝ) := by
  have h := minkowskiFormula_isMetric (n := n) (p := 1) le_rfl
  have e : (manhattanFormula : (Fin n → ℝ) → _ → ℝ) = minkowskiFormula 1 := by
    funext x y; exact manhattanFormula_eq x y
  rw [e]; exact h

theorem npNorm2_sub (x y : RVec n) : npNorm2 (x - y) = euclideanFormula x y := by
  simp only [npNorm2, euclideanFormula, Pi.sub_apply, sq]

theorem npNorm2_eq (x : RVec n) : npNorm2 x = length2 x := by
  simp only [npNorm2, length2, sq]

theorem npNorm_pos {p : ℝ} (hp : 0 < p) (x y : RVec n) :
    npNorm (.real p) (x - y) = minkowskiFormula p x y := by
  simp only [npNorm, minkowskiFormula, Pi.sub_apply]
  rw [if_neg hp.ne', if_neg (fun h => absurd h.1 hp.le.not_gt)]

theorem npNorm_posInf (x y : RVec n) : npNorm .posInf (x - y) = chebyshevDist x y := rfl

theorem foldl_max_mem {R : Type} [LinearOrder R] (l : List R) (a : R) :
    l.foldl max a = a ∨ l.foldl max a ∈ l := by
  induction l generalizing a with
  | nil => simp
  | cons b l ih =>
    rw [List.foldl_cons]
    rcases ih (max a b) with h | h
    · rcases max_choice a b with h2 | h2
      · exact Or.inl (h.trans h2)
      · exact Or.inr (by rw [h, h2]; simp)
    · exact Or.inr (List.mem_cons_of_mem _ h)

theorem chebyshevDist_isMaxDiff (x y : Fin n → ℝ) : IsMaxDiff x y (chebyshevDist x y) := by
  have h := (chebyshevDist_le x y _).mp le_rfl
  refine ⟨h.2, ?_⟩
  rcases foldl_max_mem (List.ofFn (fun i => |x i - y i|)) 0 with h2 | h2
  · rcases Nat.eq_zero_or_pos n with hn | hn
    · exact Or.inl ⟨hn, h2⟩
    · right
      refine ⟨⟨0, hn⟩, le_antisymm ?_ (h.2 _)⟩
      rw [show chebyshevDist x y = 0 from h2]
      exact abs_nonneg _
  · obtain ⟨i, hi⟩ := (List.mem_ofFn' _ _).mp h2
    exact Or.inr ⟨i, hi.symm⟩

theorem chebyshevDist_isMetric : IsMetric (chebyshevDist : (Fin n → ℝ) → _ → ℝ) := by
  have hp := chebyshevDist_pseudo (R := ℝ) (m := n)
  refine ⟨hp.symm, hp.self, ?_, hp.triangle⟩
  intro x y hxy
  have h := (chebyshevDist_le x y _).mp le_rfl
  refine lt_of_le_of_ne h.1 ?_
  intro h0
  apply hxy
  funext i
  have := h.2 i
  rw [← h0] at this
  have := abs_eq_zero.mp (le_antisymm this (abs_nonneg _))
  linarith

theorem IsMetric.pseudo {V : Type} {d : V → V → ℝ} (h : IsMetric d) : PseudoMetric d :=
  ⟨h.self, h.symm, h.triangle⟩

/-! ### Cosine -/

theorem length2_eq_zero (x : Fin n → ℝ) : length2 x = 0 ↔ x = 0 := by
  constructor
  · intro h
    have h0 : euclideanFormula x 0 = 0 := by
      simpa [euclideanFormula, length2] using h
    by_contra hne
    exact absurd h0 (euclideanFormula_isMetric.pos x 0 hne).ne'
  · rintro rfl
    simp [length2]

theorem length2_pos {x : Fin n → ℝ} (h : x ≠ 0) : 0 < length2 x :=
  lt_of_le_of_ne (Real.sqrt_nonneg _) (fun h0 => h ((length2_eq_zero x).mp h0.symm))

theorem length2_sq (x : Fin n → ℝ) : length2 x ^ 2 = ∑ i, x i ^ 2 :=
  Real.sq_sqrt (Finset.sum_nonneg (fun i _ => sq_nonneg (x i)))

/-- The vector of length one in the direction of `x`. -/
noncomputable def unit (x : Fin n → ℝ) : Fin n → ℝ := fun i => x i / length2 x

theorem sum_unit_sq {x : Fin n → ℝ} (h : x ≠ 0) : ∑ i, unit x i ^ 2 = 1 := by
  have hx := length2_pos h
  simp only [unit, div_pow]
  rw [← Finset.sum_div, ← length2_sq]
  exact div_self (pow_pos hx 2).ne'

theorem cosine_eq {x y : RVec n} (hx : x ≠ 0) (hy : y ≠ 0) :
    cosine x y = .ok (euclideanFormula (unit x) (unit y)) := by
  have hx' := length2_pos hx
  have hy' := length2_pos hy
  simp only [cosine, npNorm2_eq]
  rw [if_neg (mul_pos hx' hy').ne']
  congr 2
  have h1 : ∑ i, unit x i * unit y i = npDot x y / (length2 x * length2 y) := by
    rw [npDot, Finset.sum_div]
    apply Finset.sum_congr rfl
    intro i _
    simp only [unit]
    rw [div_mul_div_comm]
  rw [← h1]
  have h2 : ∑ i, (unit x i - unit y i) ^ 2
      = ∑ i, unit x i ^ 2 + ∑ i, unit y i ^ 2 - 2 * ∑ i, unit x i * unit y i := by
    rw [Finset.mul_sum, ← Finset.sum_add_distrib, ← Finset.sum_sub_distrib]
    apply Finset.sum_congr rfl
    intro i _
    ring
  rw [h2, sum_unit_sq hx, sum_unit_sq hy]
  ring

theorem cosine_error {x y : RVec n} (h : x = 0 ∨ y = 0) :
    cosine x y = .error .zeroDivisionError := by
  simp only [cosine, npNorm2_eq]
  rw [if_pos]
  rcases h with h | h
  · rw [(length2_eq_zero x).mpr h, zero_mul]
  · rw [(length2_eq_zero y).mpr h, mul_zero]

theorem length2_smul {c : ℝ} (hc : 0 < c) (x : Fin n → ℝ) :
    length2 (fun i => c * x i) = c * length2 x := by
  simp only [length2, mul_pow]
  rw [← Finset.mul_sum, Real.sqrt_mul (sq_nonneg c), Real.sqrt_sq hc.le]

theorem unit_eq_iff {x y : Fin n → ℝ} (hx : x ≠ 0) (hy : y ≠ 0) :
    unit x = unit y ↔ SameDirection x y := by
  have hx' := length2_pos hx
  have hy' := length2_pos hy
  constructor
  · intro h
    refine ⟨length2 y / length2 x, div_pos hy' hx', ?_⟩
    intro i
    have := congrFun h i
    simp only [unit] at this
    field_simp at this ⊢
    linarith
  · rintro ⟨c, hc, h⟩
    have : y = fun i => c * x i := funext h
    funext i
    simp only [unit]
    rw [this, length2_smul hc]
    field_simp

end Verif

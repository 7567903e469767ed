import Verif.Model.Binary
import Verif.Spec.Isometry

/-!
# Multiplication by a positive number, and by a power of two with rounding
-/

set_option autoImplicit false

namespace Verif

theorem unitChange_mul {R : Type} [Ring R] [LinearOrder R] [IsStrictOrderedRing R] {s : R}
    (hs : 0 < s) : UnitChange (fun x : R => s * x) where
  inj _ _ h := mul_left_cancel₀ hs.ne' h
  le _ _ := mul_le_mul_iff_right₀ hs
  lt _ _ := mul_lt_mul_iff_right₀ hs
  zero := mul_zero s
  neg _ := mul_neg _ _
  sub _ _ := mul_sub _ _ _

theorem roundTo_mul_pow (b : ℕ) (k : ℤ) (q : ℚ) : roundTo b (2 ^ k * q) = 2 ^ k * roundTo b q := by
  rcases eq_or_ne q 0 with rfl | hq
  · simp [roundTo_zero]
  have hp : (0 : ℚ) < 2 ^ k := by positivity
  have hl : Int.log 2 |2 ^ k * q| = k + Int.log 2 |q| := by
    have hpos : 0 < |q| := abs_pos.mpr hq
    have h1 := Int.zpow_log_le_self (R := ℚ) (b := 2) (by norm_num) hpos
    have h2 := Int.lt_zpow_succ_log_self (R := ℚ) (b := 2) (by norm_num) |q|
    push_cast at h1 h2
    apply log_eq
    · rw [abs_mul, abs_of_pos hp, zpow_add₀ (by norm_num)]
      exact mul_le_mul_of_nonneg_left h1 hp.le
    · rw [abs_mul, abs_of_pos hp, add_assoc, zpow_add₀ (by norm_num)]
      exact mul_lt_mul_of_pos_left h2 hp
  have hu : ulp b (2 ^ k * q) = 2 ^ k * ulp b q := by
    unfold ulp
    rw [hl, add_sub_assoc, zpow_add₀ (by norm_num)]
  unfold roundTo
  rw [hu, mul_div_mul_left _ _ hp.ne']
  ring

/-- The product with a power of two. -/
def Bin.shift {b : ℕ} (k : ℤ) (x : Bin b) : Bin b :=
  ⟨2 ^ k * x.1, by rw [roundTo_mul_pow, x.2]⟩

theorem unitChange_shift (b : ℕ) (k : ℤ) : UnitChange (Bin.shift k : Bin b → Bin b) := by
  have hp : (0 : ℚ) < 2 ^ k := by positivity
  refine ⟨?_, ?_, ?_, ?_, ?_, ?_⟩
  · intro x y h
    apply Subtype.ext
    exact mul_left_cancel₀ hp.ne' (congrArg Subtype.val h)
  · intro x y
    exact mul_le_mul_iff_right₀ hp
  · intro x y
    exact mul_lt_mul_iff_right₀ hp
  · apply Subtype.ext
    show 2 ^ k * roundTo b 0 = roundTo b 0
    rw [roundTo_zero, mul_zero]
  · intro x
    apply Subtype.ext
    show 2 ^ k * roundTo b (-x.1) = roundTo b (-(2 ^ k * x.1))
    rw [← roundTo_mul_pow, mul_neg]
  · intro x y
    apply Subtype.ext
    show 2 ^ k * roundTo b (x.1 - y.1) = roundTo b (2 ^ k * x.1 - 2 ^ k * y.1)
    rw [← roundTo_mul_pow, mul_sub]

theorem foldl_max_shift {b : ℕ} (k : ℤ) (l : List (Bin b)) (a : Bin b) :
    (l.map (Bin.shift k)).foldl max (Bin.shift k a) = Bin.shift k (l.foldl max a) := by
  have hmax : ∀ x y : Bin b, max (Bin.shift k x) (Bin.shift k y) = Bin.shift k (max x y) := by
    intro x y
    rcases le_total x y with h | h
    · rw [max_eq_right h, max_eq_right (((unitChange_shift b k).le x y).mpr h)]
    · rw [max_eq_left h, max_eq_left (((unitChange_shift b k).le y x).mpr h)]
  induction l generalizing a with
  | nil => rfl
  | cons x l ih => rw [List.map_cons, List.foldl_cons, List.foldl_cons, hmax, ih]

theorem pyAbs_shift {b : ℕ} (k : ℤ) (x : Bin b) : pyAbs (Bin.shift k x) = Bin.shift k (pyAbs x) := by
  have h := unitChange_shift b k
  unfold pyAbs
  have h0 : Bin.shift k x < 0 ↔ x < 0 := by
    conv_lhs => rw [← h.zero]
    exact h.lt x 0
  by_cases hx : x < 0
  · rw [if_pos hx, if_pos (h0.mpr hx), h.neg]
  · rw [if_neg hx, if_neg (fun h' => hx (h0.mp h'))]

theorem chebyshev_shift {b m : ℕ} (k : ℤ) (x y : Fin m → Bin b) :
    machChebyshev (fun i => Bin.shift k (x i)) (fun i => Bin.shift k (y i)) =
      Bin.shift k (machChebyshev x y) := by
  have h := unitChange_shift b k
  unfold machChebyshev
  rw [← foldl_max_shift, h.zero, List.map_ofFn]
  congr 2
  funext i
  rw [Function.comp_apply, ← pyAbs_shift, h.sub]

end Verif

import Verif.Model.CubicalFloat
import Mathlib.Data.Rat.Floor
import Mathlib.Data.Int.Log
import Mathlib.Algebra.Order.Field.Power
import Mathlib.Tactic.Linarith
import Mathlib.Tactic.Positivity
import Mathlib.Tactic.FieldSimp
import Mathlib.Tactic.Ring
import Mathlib.Tactic.NormNum

/-!
# Binary floating-point numbers

IEEE 754 binary numbers with `b + 1` significant bits (`b = 52` for Python floats and
`np.float64`), rounded to nearest with ties to even. Simplification: exponents are not bounded,
so that nothing overflows or underflows; there are no infinities, no NaN, and one zero.
-/

set_option autoImplicit false

namespace Verif

/-- The nearest integer, the even one in case of a tie (IEEE 754 `roundTiesToEven`). -/
def roundEven (x : ℚ) : ℤ :=
  if x - ⌊x⌋ < 1 / 2 then ⌊x⌋
  else if 1 / 2 < x - ⌊x⌋ then ⌊x⌋ + 1
  else if ⌊x⌋ % 2 = 0 then ⌊x⌋ else ⌊x⌋ + 1

/-- The distance of the numbers with `b + 1` bits around `q`. -/
def ulp (b : ℕ) (q : ℚ) : ℚ := 2 ^ (Int.log 2 |q| - b)

/-- `q` rounded to `b + 1` bits. -/
def roundTo (b : ℕ) (q : ℚ) : ℚ := roundEven (q / ulp b q) * ulp b q

theorem ulp_pos (b : ℕ) (q : ℚ) : 0 < ulp b q := by unfold ulp; positivity

theorem roundEven_floor (x : ℚ) : (⌊x⌋ : ℤ) ≤ roundEven x ∧ roundEven x ≤ ⌊x⌋ + 1 := by
  unfold roundEven
  split_ifs <;> constructor <;> omega

theorem roundEven_err (x : ℚ) : |(roundEven x : ℚ) - x| ≤ 1 / 2 := by
  have h1 := Int.floor_le x
  have h2 := Int.lt_floor_add_one x
  unfold roundEven
  rw [abs_le]
  split_ifs <;> push_cast <;> constructor <;> linarith

theorem roundEven_int (k : ℤ) : roundEven (k : ℚ) = k := by
  unfold roundEven; simp

theorem roundEven_mono {x y : ℚ} (h : x ≤ y) : roundEven x ≤ roundEven y := by
  rcases (Int.floor_le_floor h).lt_or_eq with hf | hf
  · exact ((roundEven_floor x).2.trans (by omega)).trans (roundEven_floor y).1
  · unfold roundEven
    rw [hf]
    split_ifs <;> first | omega | (exfalso; linarith)

theorem roundEven_neg (x : ℚ) : roundEven (-x) = -roundEven x := by
  rcases eq_or_ne (⌊x⌋ : ℚ) x with h | h
  · rw [← h, ← Int.cast_neg, roundEven_int, roundEven_int]
  · have hc : ⌊-x⌋ = -⌊x⌋ - 1 := by
      rw [Int.floor_eq_iff]
      have h1 := lt_of_le_of_ne (Int.floor_le x) h
      have h2 := Int.lt_floor_add_one x
      push_cast
      constructor <;> linarith
    unfold roundEven
    rw [hc]
    push_cast
    split_ifs <;> first | omega | (exfalso; linarith)

theorem roundTo_neg (b : ℕ) (q : ℚ) : roundTo b (-q) = -roundTo b q := by
  unfold roundTo ulp
  rw [abs_neg, neg_div, roundEven_neg]
  push_cast
  ring

theorem roundTo_err (b : ℕ) (q : ℚ) : |roundTo b q - q| ≤ ulp b q / 2 := by
  have h := roundEven_err (q / ulp b q)
  have hu := ulp_pos b q
  unfold roundTo
  have : (roundEven (q / ulp b q) : ℚ) * ulp b q - q = ((roundEven (q / ulp b q) : ℚ) - q / ulp b q) * ulp b q := by
    field_simp
  rw [this, abs_mul, abs_of_pos hu]
  nlinarith

theorem ulp_le (b : ℕ) {q : ℚ} (hq : q ≠ 0) : 2 ^ b * ulp b q ≤ |q| ∧ |q| < 2 ^ (b + 1) * ulp b q := by
  have hpos : 0 < |q| := abs_pos.mpr hq
  have h1 := Int.zpow_log_le_self (R := ℚ) (b := 2) (by norm_num) hpos
  have h2 := Int.lt_zpow_succ_log_self (R := ℚ) (b := 2) (by norm_num) |q|
  have key : ∀ k : ℕ, (2 : ℚ) ^ k * ulp b q = 2 ^ (Int.log 2 |q| - b + k) := by
    intro k
    unfold ulp
    rw [← zpow_natCast, ← zpow_add₀ (by norm_num)]
    congr 1
    ring
  rw [key, key]
  push_cast at h1 h2 ⊢
  constructor
  · rw [sub_add_cancel]; exact h1
  · rw [show Int.log 2 |q| - (b : ℤ) + (b + 1) = Int.log 2 |q| + 1 by ring]; exact h2

theorem roundTo_zero (b : ℕ) : roundTo b 0 = 0 := by
  unfold roundTo
  simp [roundEven]

theorem roundTo_rel (b : ℕ) (q : ℚ) : |roundTo b q - q| ≤ 1 / 2 ^ (b + 1) * |q| := by
  rcases eq_or_ne q 0 with rfl | hq
  · simp [roundTo_zero]
  · refine (roundTo_err b q).trans ?_
    have h := (ulp_le b hq).1
    rw [pow_succ, div_mul_eq_mul_div, one_mul, le_div_iff₀ (by positivity)]
    linarith

/-- Multiples of the distance of numbers with few bits are not rounded. -/
theorem roundTo_of_mul {b : ℕ} {q : ℚ} (k : ℤ) (h : q = k * ulp b q) : roundTo b q = q := by
  unfold roundTo
  have : q / ulp b q = k := by
    rw [div_eq_iff (ulp_pos b q).ne']; exact h
  rw [this, roundEven_int]
  exact h.symm

theorem log_eq {q : ℚ} {e : ℤ} (h1 : (2 : ℚ) ^ e ≤ |q|) (h2 : |q| < 2 ^ (e + 1)) : Int.log 2 |q| = e := by
  have hpos : 0 < |q| := lt_of_lt_of_le (by positivity) h1
  apply le_antisymm
  · have := (Int.lt_zpow_iff_log_lt (R := ℚ) (b := 2) (by norm_num) (x := e + 1) hpos).mp (by push_cast; exact h2)
    omega
  · exact (Int.zpow_le_iff_le_log (R := ℚ) (b := 2) (by norm_num) (x := e) hpos).mp (by push_cast; exact h1)

/-- A number `k * 2^e` with `|k| ≤ 2^(b+1)` is not rounded. -/
theorem roundTo_exact {b : ℕ} (k : ℤ) (e : ℤ) (hk : |k| ≤ 2 ^ (b + 1)) :
    roundTo b (k * 2 ^ e) = k * 2 ^ e := by
  rcases eq_or_ne k 0 with rfl | hk0
  · simp [roundTo_zero]
  rcases hk.lt_or_eq with hlt | heq
  · -- the distance of numbers divides `2^e`
    have hq : (k : ℚ) * 2 ^ e ≠ 0 := by positivity
    have hle : Int.log 2 |(k : ℚ) * 2 ^ e| - b ≤ e := by
      have : Int.log 2 |(k : ℚ) * 2 ^ e| < b + 1 + e := by
        refine (Int.lt_zpow_iff_log_lt (R := ℚ) (b := 2) (by norm_num) (abs_pos.mpr hq)).mp ?_
        rw [abs_mul, abs_of_pos (by positivity : (0 : ℚ) < 2 ^ e)]
        push_cast
        rw [zpow_add₀ (by norm_num)]
        gcongr
        have : ((|k| : ℤ) : ℚ) < ((2 ^ (b + 1) : ℤ) : ℚ) := by exact_mod_cast hlt
        push_cast at this
        exact_mod_cast this
      omega
    obtain ⟨d, hd⟩ : ∃ d : ℕ, e = Int.log 2 |(k : ℚ) * 2 ^ e| - b + d := ⟨(e - (Int.log 2 |(k : ℚ) * 2 ^ e| - b)).toNat, by omega⟩
    apply roundTo_of_mul (k * 2 ^ d)
    unfold ulp
    push_cast
    rw [mul_assoc, ← zpow_natCast, ← zpow_add₀ (by norm_num)]
    congr 2
    omega
  · have hq : |(k : ℚ) * 2 ^ e| = 2 ^ (b + 1 + e) := by
      have hk' : |(k : ℚ)| = 2 ^ (b + 1) := by
        have : ((|k| : ℤ) : ℚ) = ((2 ^ (b + 1) : ℤ) : ℚ) := by rw [heq]
        push_cast at this
        exact this
      rw [abs_mul, abs_of_pos (by positivity : (0 : ℚ) < 2 ^ e), zpow_add₀ (by norm_num), hk']
      norm_cast
    have hl : Int.log 2 |(k : ℚ) * 2 ^ e| = b + 1 + e := by
      apply log_eq
      · rw [hq]
      · rw [hq]; exact zpow_lt_zpow_right₀ (by norm_num) (by omega)
    obtain ⟨s, hs⟩ : ∃ s : ℤ, k = s * 2 := by
      rcases abs_eq (by positivity) |>.mp heq with h | h
      · exact ⟨2 ^ b, by rw [h, pow_succ]⟩
      · exact ⟨-2 ^ b, by rw [h, pow_succ]; ring⟩
    apply roundTo_of_mul s
    unfold ulp
    rw [hl, show ((b : ℤ) + 1 + e - b) = 1 + e by ring, zpow_add₀ (by norm_num)]
    rw [hs]
    push_cast
    ring

theorem roundTo_form (b : ℕ) (q : ℚ) : ∃ k e : ℤ, |k| ≤ 2 ^ (b + 1) ∧ roundTo b q = k * 2 ^ e := by
  refine ⟨roundEven (q / ulp b q), Int.log 2 |q| - b, ?_, rfl⟩
  rcases eq_or_ne q 0 with rfl | hq
  · simp [roundEven]
  have hu := ulp_pos b q
  have h : |q / ulp b q| ≤ ((2 ^ (b + 1) : ℤ) : ℚ) := by
    rw [abs_div, abs_of_pos hu, div_le_iff₀ hu]
    push_cast
    exact (ulp_le b hq).2.le
  rw [abs_le] at h ⊢
  constructor
  · have := roundEven_mono h.1
    rwa [← Int.cast_neg, roundEven_int] at this
  · have := roundEven_mono h.2
    rwa [roundEven_int] at this

theorem roundTo_idem (b : ℕ) (q : ℚ) : roundTo b (roundTo b q) = roundTo b q := by
  obtain ⟨k, e, h1, h2⟩ := roundTo_form b q
  rw [h2, roundTo_exact k e h1]

theorem roundTo_mono_pos (b : ℕ) {q r : ℚ} (hq : 0 < q) (h : q ≤ r) :
    roundTo b q ≤ roundTo b r := by
  have hr : 0 < r := hq.trans_le h
  have hlog : Int.log 2 |q| ≤ Int.log 2 |r| := by
    rw [abs_of_pos hq, abs_of_pos hr]
    exact Int.log_mono_right hq h
  have hu := ulp_pos b q
  have hu' := ulp_pos b r
  rcases hlog.lt_or_eq with hlt | heq
  · have hq2 : (roundEven (q / ulp b q) : ℚ) ≤ 2 ^ (b + 1) := by
      have : roundEven (q / ulp b q) ≤ 2 ^ (b + 1) := by
        rw [← roundEven_int (2 ^ (b + 1))]
        apply roundEven_mono
        rw [div_le_iff₀ hu]
        have := (ulp_le b hq.ne').2
        rw [abs_of_pos hq] at this
        push_cast
        exact this.le
      exact_mod_cast this
    have hr2 : (2 : ℚ) ^ b ≤ roundEven (r / ulp b r) := by
      have : 2 ^ b ≤ roundEven (r / ulp b r) := by
        rw [← roundEven_int (2 ^ b)]
        apply roundEven_mono
        rw [le_div_iff₀ hu']
        have := (ulp_le b hr.ne').1
        rw [abs_of_pos hr] at this
        push_cast
        exact this
      exact_mod_cast this
    have hul : 2 * ulp b q ≤ ulp b r := by
      unfold ulp
      rw [← zpow_one_add₀ (by norm_num)]
      exact zpow_le_zpow_right₀ (by norm_num) (by omega)
    calc roundTo b q ≤ 2 ^ (b + 1) * ulp b q := by unfold roundTo; gcongr
      _ = 2 ^ b * (2 * ulp b q) := by rw [pow_succ]; ring
      _ ≤ 2 ^ b * ulp b r := by gcongr
      _ ≤ roundTo b r := by unfold roundTo; gcongr
  · have hul : ulp b q = ulp b r := by unfold ulp; rw [heq]
    unfold roundTo
    rw [hul]
    have : roundEven (q / ulp b r) ≤ roundEven (r / ulp b r) := roundEven_mono (by gcongr)
    have : (roundEven (q / ulp b r) : ℚ) ≤ roundEven (r / ulp b r) := by exact_mod_cast this
    gcongr

theorem roundTo_nonneg (b : ℕ) {q : ℚ} (hq : 0 ≤ q) : 0 ≤ roundTo b q := by
  have hu := ulp_pos b q
  have : (0 : ℤ) ≤ roundEven (q / ulp b q) := by
    rw [← roundEven_int 0]
    apply roundEven_mono
    push_cast
    positivity
  have : (0 : ℚ) ≤ roundEven (q / ulp b q) := by exact_mod_cast this
  unfold roundTo
  positivity

theorem roundTo_mono (b : ℕ) {q r : ℚ} (h : q ≤ r) : roundTo b q ≤ roundTo b r := by
  rcases lt_or_ge 0 q with hq | hq
  · exact roundTo_mono_pos b hq h
  · have h1 : roundTo b q ≤ 0 := by
      have := roundTo_nonneg b (neg_nonneg.mpr hq)
      rw [roundTo_neg] at this
      linarith
    rcases lt_or_ge r 0 with hr | hr
    · have := roundTo_mono_pos b (neg_pos.mpr hr) (neg_le_neg h)
      rw [roundTo_neg, roundTo_neg] at this
      linarith
    · exact h1.trans (roundTo_nonneg b hr)

/-- IEEE 754 binary numbers with `b + 1` bits. -/
def Bin (b : ℕ) : Type := { q : ℚ // roundTo b q = q }

namespace Bin
variable {b : ℕ}

/-- The rounded value of an exact result. -/
def of (b : ℕ) (q : ℚ) : Bin b := ⟨roundTo b q, roundTo_idem b q⟩

instance : LinearOrder (Bin b) := inferInstanceAs (LinearOrder { q : ℚ // roundTo b q = q })

/-- Every operation rounds its exact result. -/
instance : Machine (Bin b) where
  zero := of b 0
  neg x := of b (-x.1)
  add x y := of b (x.1 + y.1)
  sub x y := of b (x.1 - y.1)
  mul x y := of b (x.1 * y.1)
  div x y := of b (x.1 / y.1)
  ofInt k := of b k
  floor x := ⌊x.1⌋
  half := of b (1 / 2)
  eps := of b (1 / 2 ^ 52)

end Bin

end Verif

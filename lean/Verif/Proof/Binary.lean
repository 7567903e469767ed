import Verif.Model.Binary
import Verif.Proof.CubicalFloat

/-!
# IEEE 754 numbers without overflow and underflow are machine numbers
-/

set_option autoImplicit false

namespace Verif

theorem Bin.val_of_int {b : ℕ} (k : ℤ) (hk : |k| ≤ 2 ^ (b + 1)) : (Bin.of b k).1 = k := by
  have := roundTo_exact (b := b) k 0 hk
  simpa [Bin.of] using this

theorem Bin.val_of_pow {b : ℕ} (e : ℤ) : (Bin.of b (2 ^ e)).1 = 2 ^ e := by
  have := roundTo_exact (b := b) 1 e (by rw [abs_one]; exact one_le_pow₀ (by norm_num))
  simpa [Bin.of] using this

theorem bin_laws (b : ℕ) (hb : 5 ≤ b) :
    MachineLaws (fun x : Bin b => x.1) (1 / 2 ^ (b + 1)) (2 ^ (b + 1)) where
  le := fun _ _ => Iff.rfl
  zero := roundTo_zero b
  neg := fun x => by show roundTo b (-x.1) = -x.1; rw [roundTo_neg, x.2]
  sub_le := fun x y z h => by
    show roundTo b (x.1 - y.1) ≤ z.1
    rw [← z.2]
    exact roundTo_mono b h
  le_sub := fun x y z h => by
    show z.1 ≤ roundTo b (x.1 - y.1)
    rw [← z.2]
    exact roundTo_mono b h
  w_nonneg := by positivity
  w_small := by
    apply one_div_le_one_div_of_le (by norm_num)
    calc (64 : ℚ) = 2 ^ (5 + 1) := by norm_num
      _ ≤ 2 ^ (b + 1) := pow_le_pow_right₀ (by norm_num) (by omega)
  sub_comm := fun x y => by
    apply Subtype.ext
    show roundTo b (y.1 - x.1) = roundTo b (-(roundTo b (x.1 - y.1)))
    rw [roundTo_neg, roundTo_idem, ← roundTo_neg, neg_sub]
  add_err := fun x y => roundTo_rel b _
  sub_err := fun x y => roundTo_rel b _
  mul_err := fun x y => roundTo_rel b _
  div_err := fun x y _ => roundTo_rel b _
  two_le := by
    calc (2 : ℤ) = 2 ^ 1 := by norm_num
      _ ≤ 2 ^ (b + 1) := pow_le_pow_right₀ (by norm_num) (by omega)
  ofInt := fun k hk => Bin.val_of_int k hk
  floor := fun x => ⟨Int.floor_le _, Int.lt_floor_add_one _⟩
  half := by
    have := Bin.val_of_pow (b := b) (-1)
    rw [show (2 : ℚ) ^ (-1 : ℤ) = 1 / 2 by norm_num] at this
    exact this
  eps := by
    have := Bin.val_of_pow (b := b) (-52)
    rw [show (2 : ℚ) ^ (-52 : ℤ) = 1 / 2 ^ 52 by norm_num] at this
    show 0 ≤ (Bin.of b (1 / 2 ^ 52)).1 ∧ (Bin.of b (1 / 2 ^ 52)).1 ≤ 1
    rw [this]
    norm_num

end Verif

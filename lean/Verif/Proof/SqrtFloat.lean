import Verif.Proof.MetricsFloat

/-!
# The square root of binary numbers is rounded to nearest; double precision meets the laws
-/

set_option autoImplicit false

namespace Verif

theorem isqrtAux_spec (n : ℕ) : ∀ (k a : ℕ), a * a ≤ n → n < (a + 2 ^ k) * (a + 2 ^ k) →
    isqrtAux n k a * isqrtAux n k a ≤ n ∧ n < (isqrtAux n k a + 1) * (isqrtAux n k a + 1)
  | 0, a, h1, h2 => ⟨h1, by simpa [isqrtAux] using h2⟩
  | k + 1, a, h1, h2 => by
    unfold isqrtAux
    split_ifs with h
    · refine isqrtAux_spec n k _ h ?_
      rw [add_assoc, ← two_mul, ← pow_succ']
      exact h2
    · exact isqrtAux_spec n k a h1 (not_le.mp h)

theorem sqrtTo_form (b : ℕ) (q : ℚ) (hq : 0 < q) :
    ∃ (m : ℕ) (f : ℤ), m ≤ 2 ^ (b + 1) ∧ sqrtTo b q = m * 2 ^ (f - b) ∧
      (2 : ℝ) ^ f ≤ Real.sqrt q ∧ |((sqrtTo b q : ℚ) : ℝ) - Real.sqrt q| ≤ 2 ^ (f - b) / 2 := by
  obtain ⟨f, hf⟩ : ∃ f, f = Int.log 2 q / 2 := ⟨_, rfl⟩
  have hu : (0 : ℚ) < 2 ^ (f - b) := by positivity
  obtain ⟨u, hue⟩ : ∃ u : ℚ, u = 2 ^ (f - b) := ⟨_, rfl⟩
  obtain ⟨t, ht⟩ : ∃ t : ℚ, t = q / (u * u) := ⟨_, rfl⟩
  rw [← hue] at hu
  have hlo : (2 : ℚ) ^ (2 * f) ≤ q := by
    refine le_trans (zpow_le_zpow_right₀ (by norm_num) (by omega)) (Int.zpow_log_le_self
      (b := 2) (by norm_num) hq)
  have hhi : q < (2 : ℚ) ^ (2 * f + 2) :=
    lt_of_lt_of_le (Int.lt_zpow_succ_log_self (b := 2) (by norm_num) q)
      (zpow_le_zpow_right₀ (by norm_num) (by omega))
  have huu : u * u = 2 ^ (2 * f) / (2 ^ b * 2 ^ b) := by
    rw [hue, zpow_sub₀ (by norm_num), zpow_natCast, two_mul, zpow_add₀ (by norm_num)]
    field_simp
  have ht0 : 0 < t := by rw [ht]; positivity
  have hthi : t < (2 ^ (b + 1)) * (2 ^ (b + 1)) := by
    rw [ht, div_lt_iff₀ (by positivity), huu]
    refine lt_of_lt_of_eq hhi ?_
    rw [zpow_add₀ (by norm_num), pow_succ]
    field_simp
  obtain ⟨s, hs⟩ : ∃ s, s = isqrtAux ⌊t⌋₊ (b + 1) 0 := ⟨_, rfl⟩
  have hsp := isqrtAux_spec ⌊t⌋₊ (b + 1) 0 (by simp) (by
    rw [Nat.floor_lt ht0.le]
    push_cast
    simpa using hthi)
  rw [← hs] at hsp
  have hs1 : (s : ℚ) * s ≤ t := le_trans (by exact_mod_cast hsp.1) (Nat.floor_le ht0.le)
  have hs2 : t < ((s : ℚ) + 1) * (s + 1) := by
    refine lt_of_lt_of_le (Nat.lt_floor_add_one t) ?_
    exact_mod_cast hsp.2
  have hsb : s + 1 ≤ 2 ^ (b + 1) := by
    by_contra hc
    have hc : 2 ^ (b + 1) ≤ s := by omega
    have : (2 ^ (b + 1) : ℚ) ≤ s := by exact_mod_cast hc
    have h2 : (2 ^ (b + 1) : ℚ) * 2 ^ (b + 1) ≤ s * s := mul_le_mul this this (by positivity)
      (by positivity)
    linarith
  have hval : sqrtTo b q = if t ≤ (s + 1 / 2) * (s + 1 / 2) then s * u else (s + 1) * u := by
    unfold sqrtTo
    rw [if_neg hq.ne']
    simp only
    rw [← hf, ← hue, ← ht, ← hs]
  -- real numbers
  have hur : (0 : ℝ) < (u : ℝ) := by exact_mod_cast hu
  have hqt : Real.sqrt (q : ℝ) = Real.sqrt (t : ℝ) * u := by
    have : (q : ℝ) = (t : ℝ) * ((u : ℝ) * u) := by
      rw [ht]; push_cast; field_simp
    rw [this, Real.sqrt_mul (by exact_mod_cast ht0.le), Real.sqrt_mul_self hur.le]
  have hu2 : (u : ℝ) = 2 ^ (f - b) := by rw [hue]; push_cast; rfl
  have hr1 : (s : ℝ) ≤ Real.sqrt t := by
    apply Real.le_sqrt_of_sq_le
    rw [sq]; exact_mod_cast hs1
  have hr2 : Real.sqrt t ≤ (s : ℝ) + 1 := by
    rw [Real.sqrt_le_left (by positivity), sq]
    exact_mod_cast hs2.le
  have hroot : (2 : ℝ) ^ f ≤ Real.sqrt q := by
    apply Real.le_sqrt_of_sq_le
    rw [← zpow_natCast, ← zpow_mul, mul_comm]
    have h6 : (((2 : ℚ) ^ (2 * f) : ℚ) : ℝ) ≤ (q : ℝ) := by exact_mod_cast hlo
    push_cast at h6
    exact h6
  by_cases hc : t ≤ ((s : ℚ) + 1 / 2) * (s + 1 / 2)
  · rw [if_pos hc] at hval
    refine ⟨s, f, by omega, by rw [hval, hue], hroot, ?_⟩
    have h3 : Real.sqrt t ≤ (s : ℝ) + 1 / 2 := by
      rw [Real.sqrt_le_left (by positivity), sq]
      have h6 : (t : ℝ) ≤ ((((s : ℚ) + 1 / 2) * (s + 1 / 2) : ℚ) : ℝ) := by exact_mod_cast hc
      push_cast at h6
      exact h6
    rw [hval, hqt, ← hu2]
    push_cast
    rw [abs_le]
    constructor <;> nlinarith
  · rw [if_neg hc] at hval
    refine ⟨s + 1, f, hsb, by rw [hval, hue]; push_cast; rfl, hroot, ?_⟩
    have h3 : (s : ℝ) + 1 / 2 ≤ Real.sqrt t := by
      apply Real.le_sqrt_of_sq_le
      rw [sq]
      have := (not_le.mp hc).le
      have h5 : (((s : ℚ) + 1 / 2) * (s + 1 / 2) : ℚ) ≤ t := this
      have h6 : ((((s : ℚ) + 1 / 2) * (s + 1 / 2) : ℚ) : ℝ) ≤ (t : ℝ) := by exact_mod_cast h5
      push_cast at h6
      exact h6
    rw [hval, hqt, ← hu2]
    push_cast
    rw [abs_le]
    constructor <;> nlinarith

theorem sqrtTo_zero (b : ℕ) : sqrtTo b 0 = 0 := by simp [sqrtTo]

/-- The computed square root is a number with `b + 1` bits. -/
theorem sqrtTo_repr (b : ℕ) {q : ℚ} (hq : 0 ≤ q) : roundTo b (sqrtTo b q) = sqrtTo b q := by
  rcases hq.eq_or_lt with rfl | hq
  · rw [sqrtTo_zero, roundTo_zero]
  · obtain ⟨m, f, h1, h2, _⟩ := sqrtTo_form b q hq
    rw [h2]
    have := roundTo_exact (b := b) (m : ℤ) (f - b) (by
      rw [abs_of_nonneg (by positivity)]; exact_mod_cast h1)
    simpa using this

/-- The relative error of the square root is at most `2 ^ -(b + 1)`. -/
theorem sqrtTo_rel (b : ℕ) {q : ℚ} (hq : 0 ≤ q) :
    |((sqrtTo b q : ℚ) : ℝ) - Real.sqrt q| ≤ 1 / 2 ^ (b + 1) * Real.sqrt q := by
  rcases hq.eq_or_lt with rfl | hq
  · rw [sqrtTo_zero]; simp
  · obtain ⟨m, f, _, _, h3, h4⟩ := sqrtTo_form b q hq
    refine h4.trans ?_
    calc (2 : ℝ) ^ (f - b) / 2 = 1 / 2 ^ (b + 1) * 2 ^ f := by
          rw [zpow_sub₀ (by norm_num), zpow_natCast, pow_succ]
          field_simp
      _ ≤ _ := mul_le_mul_of_nonneg_left h3 (by positivity)

/-! ### Laws with real values -/

theorem MachineLaws.cast {R : Type} [Machine R] {val : R → ℚ} {w : ℚ} {N : ℤ}
    (h : MachineLaws val w N) : MachineLaws (fun x => (val x : ℝ)) (w : ℝ) N where
  le := fun x y => by rw [Rat.cast_le]; exact h.le x y
  zero := by rw [h.zero]; simp
  neg := fun x => by rw [h.neg]; simp
  sub_le := fun x y z hz => h.sub_le x y z (by exact_mod_cast hz)
  le_sub := fun x y z hz => h.le_sub x y z (by exact_mod_cast hz)
  w_nonneg := by exact_mod_cast h.w_nonneg
  w_small := by
    have := h.w_small
    have h2 : (w : ℝ) ≤ ((1 / 64 : ℚ) : ℝ) := by exact_mod_cast this
    simpa using h2
  sub_comm := h.sub_comm
  add_err := fun x y => by exact_mod_cast h.add_err x y
  sub_err := fun x y => by exact_mod_cast h.sub_err x y
  mul_err := fun x y => by exact_mod_cast h.mul_err x y
  div_err := fun x y hy => by exact_mod_cast h.div_err x y (by exact_mod_cast hy)
  two_le := h.two_le
  ofInt := fun k hk => by rw [h.ofInt k hk]; simp
  floor := fun x => by
    have := h.floor x
    exact ⟨by exact_mod_cast this.1, by exact_mod_cast this.2⟩
  half := by rw [h.half]; simp
  eps := ⟨by exact_mod_cast h.eps.1, by exact_mod_cast h.eps.2⟩

/-- The library routines on binary numbers, adding up in the order `S`; `pow` is a parameter. -/
def Bin.libm (b : ℕ) (S : ∀ n, SumTree n) (pow : Bin b → Bin b → Bin b) : Libm (Bin b) where
  abs := fun a => Bin.of b |a.1|
  sqrt := fun a => Bin.of b (sqrtTo b a.1)
  pow := pow
  isInf := fun _ => false
  one := Bin.of b 1
  two := Bin.of b 2
  sum := fun {n} v => (S n).eval v
  nrm2 := fun {n} v => Bin.of b (sqrtTo b ((S n).eval (fun i => v i * v i)).1)
  dot := fun {n} x y => (S n).eval (fun i => x i * y i)

theorem Bin.textbook (b : ℕ) (S : ∀ n, SumTree n) (pow : Bin b → Bin b → Bin b) :
    (Bin.libm b S pow).Textbook S := ⟨fun _ => rfl, fun _ => rfl, fun _ _ => rfl⟩

theorem roundTo_abs {b : ℕ} {q : ℚ} (h : roundTo b q = q) : roundTo b |q| = |q| := by
  rcases abs_choice q with hc | hc <;> rw [hc]
  · exact h
  · rw [roundTo_neg, h]

theorem Bin.routines (b : ℕ) (S : ∀ n, SumTree n) (pow : Bin b → Bin b → Bin b) :
    RoundedRoutines (Bin.libm b S pow) (fun x => ((x.1 : ℚ) : ℝ)) (1 / 2 ^ (b + 1)) where
  abs := fun x => by
    show ((roundTo b |x.1| : ℚ) : ℝ) = |((x.1 : ℚ) : ℝ)|
    rw [roundTo_abs x.2]
    exact_mod_cast rfl
  sqrt := fun x hx => by
    have hx : (0 : ℚ) ≤ x.1 := by exact_mod_cast hx
    show |((roundTo b (sqrtTo b x.1) : ℚ) : ℝ) - _| ≤ _
    rw [sqrtTo_repr b hx]
    exact sqrtTo_rel b hx

theorem bin_laws_real (b : ℕ) (hb : 5 ≤ b) :
    MachineLaws (fun x : Bin b => ((x.1 : ℚ) : ℝ)) (1 / 2 ^ (b + 1)) (2 ^ (b + 1)) := by
  have := (bin_laws b hb).cast
  push_cast at this
  exact this

/-! ### Double precision with NaN -/

namespace F64

/-- The numbers other than NaN. -/
def Finite (x : F64) : Prop := ∃ a, x = .fin a

theorem finite_iff (x : F64) : Finite x ↔ x ≠ .nan := by
  cases x with
  | nan => exact ⟨fun ⟨a, h⟩ => (by cases h), fun h => absurd rfl h⟩
  | fin a => exact ⟨fun _ h => (by cases h), fun _ => ⟨a, rfl⟩⟩

instance : StrictLT F64 where
  irrefl := fun a h => by
    cases a with
    | nan => cases h
    | fin a => exact lt_irrefl a h
  trans := fun a b c h1 h2 => by
    cases a <;> cases b <;> cases c <;> first | (cases h1) | (cases h2) | skip
    exact lt_trans (α := Bin 52) h1 h2

theorem finiteNumbers : FiniteNumbers Finite where
  total := by
    rintro _ _ ⟨a, rfl⟩ ⟨b, rfl⟩ h
    exact (not_lt (α := Bin 52)).mp h
  sub_eq := by
    rintro _ _ ⟨a, rfl⟩ ⟨b, rfl⟩ h1 h2
    have h := le_antisymm (α := Bin 52) h1 h2
    subst h
    show F64.fin (Bin.of 52 (a.1 - a.1)) = F64.fin (Bin.of 52 0)
    rw [sub_self]

theorem roundTo_pos (b : ℕ) {q : ℚ} (hq : 0 < q) : 0 < roundTo b q := by
  have h := abs_le.mp (roundTo_rel b q)
  rw [abs_of_pos hq] at h
  have h2 : (1 : ℚ) / 2 ^ (b + 1) ≤ 1 / 2 := by
    apply one_div_le_one_div_of_le (by norm_num)
    calc (2 : ℚ) = 2 ^ 1 := by norm_num
      _ ≤ 2 ^ (b + 1) := pow_le_pow_right₀ (by norm_num) (by omega)
  nlinarith [h.1]

theorem of_ext {p q : ℚ} (h : p = q) : F64.fin (Bin.of 52 p) = F64.fin (Bin.of 52 q) := by rw [h]

theorem zero_val : ((0 : Bin 52)).1 = 0 := roundTo_zero 52

theorem neg_val (a : Bin 52) : (-a).1 = -a.1 := (bin_laws 52 (by norm_num)).neg a

theorem laws (pow : F64 → F64 → F64) (hpow : ∀ p, 0 < p → pow 0 p = 0) :
    FloatLaws (libm pow) Finite where
  sub_swap := fun x y => by
    cases x <;> cases y <;> try rfl
    rename_i a b
    show F64.fin (b - a) = F64.fin (-(a - b))
    rw [(bin_laws 52 (by norm_num)).sub_comm a b]
  sub_self := by
    rintro _ ⟨a, rfl⟩
    exact of_ext (sub_self a.1)
  neg_mul_neg := fun x => by
    cases x with
    | nan => rfl
    | fin a =>
      show F64.fin (Bin.of 52 ((-a).1 * (-a).1)) = F64.fin (Bin.of 52 (a.1 * a.1))
      rw [neg_val]
      exact of_ext (by ring)
  neg_eq_zero := fun x => by
    cases x with
    | nan => exact Iff.rfl
    | fin a =>
      have h1 := neg_val a
      have h3 : ∀ c : Bin 52, F64.fin c = 0 ↔ c.1 = 0 := by
        intro c
        constructor
        · intro h
          have h : c = 0 := by injection h
          rw [h, zero_val]
        · intro h
          exact congrArg F64.fin (Subtype.ext (h.trans zero_val.symm))
      show F64.fin (-a) = 0 ↔ F64.fin a = 0
      rw [h3, h3, h1, neg_eq_zero]
  mul_comm := fun x y => by
    cases x <;> cases y <;> try rfl
    rename_i a b
    exact of_ext (mul_comm a.1 b.1)
  zero_add_zero := of_ext (by rw [zero_val, add_zero])
  zero_mul_zero := of_ext (by rw [zero_val, mul_zero])
  abs_neg := fun x => by
    cases x with
    | nan => rfl
    | fin a =>
      have h1 := neg_val a
      exact of_ext (by rw [h1, abs_neg])
  abs_zero := of_ext (by rw [zero_val, abs_zero])
  sqrt_zero := by
    show (if ((0 : Bin 52)).1 < 0 then F64.nan else F64.fin (Bin.of 52 (sqrtTo 52 (0 : Bin 52).1))) = 0
    rw [if_neg (by rw [zero_val]; exact lt_irrefl _)]
    exact of_ext (by rw [zero_val, sqrtTo_zero])
  pow_zero := hpow
  not_pos_zero := StrictLT.irrefl 0
  one_div_pos := fun p hp _ => by
    cases p with
    | nan => cases hp
    | fin a =>
      have ha : (0 : Bin 52) < a := hp
      have ha' : 0 < a.1 := by
        have h : (0 : Bin 52).1 < a.1 := ha
        rwa [zero_val] at h
      have hne : F64.fin a ≠ 0 := by
        intro h
        have h : a = 0 := by injection h
        exact lt_irrefl _ (h ▸ ha)
      show (0 : F64) < (if F64.fin a = 0 then F64.nan else F64.fin (Bin.of 52 ((Bin.of 52 1).1 / a.1)))
      rw [if_neg hne]
      show (0 : Bin 52).1 < roundTo 52 (roundTo 52 1 / a.1)
      rw [zero_val]
      exact roundTo_pos 52 (div_pos (roundTo_pos 52 one_pos) ha')

theorem textbook (pow : F64 → F64 → F64) : (libm pow).Textbook SumTree.loop :=
  ⟨fun _ => rfl, fun _ => rfl, fun _ _ => rfl⟩

end F64

end Verif

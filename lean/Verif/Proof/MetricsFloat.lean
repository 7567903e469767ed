import Verif.Spec.MetricsFloat
import Verif.Proof.Metrics
import Verif.Proof.SumTree
import Verif.Proof.Binary

/-!
# Lemmas about the distances in floating point
-/

set_option autoImplicit false
set_option linter.unusedSectionVars false

namespace Verif

section laws
variable {R : Type} [LT R] [Zero R] [Neg R] [Add R] [Sub R] [Mul R] [Div R] {n : ℕ}
variable {L : Libm R} {Finite : R → Prop}

theorem SumTree.eval_zero (h : (0 : R) + 0 = 0) (t : SumTree n) : t.eval (fun _ => (0 : R)) = 0 := by
  induction t with
  | zero => rfl
  | leaf i => rfl
  | node l r hl hr => rw [SumTree.eval, hl, hr, h]

theorem routine_laws (h : FloatLaws L Finite) {S : ∀ n, SumTree n} (hS : L.Textbook S) :
    RoutineLaws L where
  sum_zero n := by rw [hS.sum, SumTree.eval_zero h.zero_add_zero]
  nrm2_neg v := by simp only [hS.nrm2, h.neg_mul_neg]
  nrm2_zero n := by
    rw [hS.nrm2]
    simp only [h.zero_mul_zero]
    rw [SumTree.eval_zero h.zero_add_zero, h.sqrt_zero]
  dot_comm x y := by
    rw [hS.dot, hS.dot]
    congr 1
    funext i
    exact h.mul_comm _ _

variable [DecidableLT R] [DecidableEq R]

theorem sub_swap_fun (h : FloatLaws L Finite) (x y : Fin n → R) :
    (fun i => y i - x i) = fun i => -(x i - y i) := funext fun i => h.sub_swap _ _

theorem floatEuclidean_symm (h : FloatLaws L Finite) (hr : RoutineLaws L) (x y : Fin n → R) :
    floatEuclidean L x y = floatEuclidean L y x := by
  unfold floatEuclidean
  rw [sub_swap_fun h x y, hr.nrm2_neg]

theorem abs_sub_symm (h : FloatLaws L Finite) (x y : R) : L.abs (x - y) = L.abs (y - x) := by
  rw [h.sub_swap x y, h.abs_neg]

theorem floatManhattan_symm (h : FloatLaws L Finite) (x y : Fin n → R) :
    floatManhattan L x y = floatManhattan L y x := by
  unfold floatManhattan
  congr 1
  exact funext fun i => abs_sub_symm h _ _

theorem floatChebyshev_symm (h : FloatLaws L Finite) (x y : Fin n → R) :
    floatChebyshev L x y = floatChebyshev L y x := by
  unfold floatChebyshev
  rw [show (fun i => L.abs (x i - y i)) = fun i => L.abs (y i - x i) from
    funext fun i => abs_sub_symm h _ _]

theorem floatNormP_symm (h : FloatLaws L Finite) (p : R) (x y : Fin n → R) :
    floatNormP L p (fun i => x i - y i) = floatNormP L p (fun i => y i - x i) := by
  unfold floatNormP
  rw [sub_swap_fun h x y]
  simp only [h.abs_neg, h.neg_eq_zero]

theorem floatMinkowski_symm (h : FloatLaws L Finite) (hr : RoutineLaws L) (p : R)
    (x y : Fin n → R) : floatMinkowski L p x y = floatMinkowski L p y x := by
  unfold floatMinkowski
  rw [floatManhattan_symm h x y, floatEuclidean_symm h hr x y, floatChebyshev_symm h x y,
    floatNormP_symm h p x y]

theorem floatCosine_symm (h : FloatLaws L Finite) (hr : RoutineLaws L) (x y : Fin n → R) :
    floatCosine L x y = floatCosine L y x := by
  unfold floatCosine
  simp only
  rw [hr.dot_comm x y, h.mul_comm (L.nrm2 x) (L.nrm2 y)]

theorem sub_self_fun (h : FloatLaws L Finite) {x : Fin n → R} (hx : ∀ i, Finite (x i)) :
    (fun i => x i - x i) = fun _ => (0 : R) := funext fun i => h.sub_self _ (hx i)

theorem foldl_zeros (l : List R) (hl : ∀ v ∈ l, v = 0) :
    l.foldl (fun ret v => if ret < v then v else ret) (0 : R) = 0 := by
  induction l with
  | nil => rfl
  | cons a l ih =>
    rw [List.foldl_cons, hl a (by simp), ite_self]
    exact ih (fun v hv => hl v (List.mem_cons_of_mem _ hv))

theorem floatChebyshev_self (h : FloatLaws L Finite) {x : Fin n → R} (hx : ∀ i, Finite (x i)) :
    floatChebyshev L x x = 0 := by
  unfold floatChebyshev
  have hz : ∀ v ∈ List.ofFn (fun i => L.abs (x i - x i)), v = 0 := by
    intro v hv
    obtain ⟨i, rfl⟩ := (List.mem_ofFn' _ _).mp hv
    show L.abs (x i - x i) = 0
    rw [h.sub_self _ (hx i), h.abs_zero]
  split
  · rfl
  · rename_i a l hl
    rw [hl] at hz
    rw [hz a (by simp)]
    exact foldl_zeros l (fun v hv => hz v (List.mem_cons_of_mem _ hv))

theorem vectorMetric_symm (h : FloatLaws L Finite) (hr : RoutineLaws L)
    {d : (Fin n → R) → (Fin n → R) → R} (hd : IsVectorMetric L d) (x y : Fin n → R) :
    d x y = d y x := by
  cases hd with
  | euclidean => exact floatEuclidean_symm h hr x y
  | manhattan => exact floatManhattan_symm h x y
  | chebyshev => exact floatChebyshev_symm h x y
  | minkowski p hp => exact floatMinkowski_symm h hr p x y

theorem floatEuclidean_self (h : FloatLaws L Finite) (hr : RoutineLaws L) {x : Fin n → R}
    (hx : ∀ i, Finite (x i)) : floatEuclidean L x x = 0 := by
  unfold floatEuclidean
  rw [sub_self_fun h hx, hr.nrm2_zero]

theorem floatManhattan_self (h : FloatLaws L Finite) (hr : RoutineLaws L) {x : Fin n → R}
    (hx : ∀ i, Finite (x i)) : floatManhattan L x x = 0 := by
  unfold floatManhattan
  rw [show (fun i => L.abs (x i - x i)) = fun _ => (0 : R) from
    funext fun i => by rw [h.sub_self _ (hx i), h.abs_zero], hr.sum_zero]

theorem vectorMetric_self (h : FloatLaws L Finite) (hr : RoutineLaws L)
    {d : (Fin n → R) → (Fin n → R) → R} (hd : IsVectorMetric L d) {x : Fin n → R}
    (hx : ∀ i, Finite (x i)) : d x x = 0 := by
  cases hd with
  | euclidean => exact floatEuclidean_self h hr hx
  | manhattan => exact floatManhattan_self h hr hx
  | chebyshev => exact floatChebyshev_self h hx
  | minkowski p hp =>
    unfold floatMinkowski
    split_ifs with h1 h2 h3
    · exact floatManhattan_self h hr hx
    · exact floatEuclidean_self h hr hx
    · exact floatChebyshev_self h hx
    · unfold floatNormP
      rw [if_neg (fun e => h.not_pos_zero (by rw [e] at hp; exact hp)), sub_self_fun h hx]
      simp only [h.abs_zero, h.pow_zero p hp]
      rw [hr.sum_zero, h.pow_zero _ (h.one_div_pos p hp (by simpa using h3))]

end laws

/-! ### Rounding errors -/

section errors
variable {R : Type} [Machine R] {n : ℕ} {L : Libm R} {val : R → ℝ} {w : ℝ} {N : ℤ}

/-- `y` is `x ≥ 0` up to `k` relative errors of size `w`. -/
def Near (w : ℝ) (k : ℕ) (x y : ℝ) : Prop := (1 - w) ^ k * x ≤ y ∧ y ≤ (1 + w) ^ k * x

theorem Near.mono (h0 : 0 ≤ w) (h1 : w ≤ 1) {k m : ℕ} (hkm : k ≤ m) {x y : ℝ} (hx : 0 ≤ x)
    (h : Near w k x y) : Near w m x y := by
  refine ⟨le_trans (mul_le_mul_of_nonneg_right ?_ hx) h.1,
    h.2.trans (mul_le_mul_of_nonneg_right ?_ hx)⟩
  · exact pow_le_pow_of_le_one (by linarith) (by linarith) hkm
  · exact pow_le_pow_right₀ (by linarith) hkm

theorem Near.nonneg (h1 : w ≤ 1) {k : ℕ} {x y : ℝ} (hx : 0 ≤ x) (h : Near w k x y) : 0 ≤ y :=
  (mul_nonneg (pow_nonneg (by linarith) k) hx).trans h.1

theorem Near.step (h0 : 0 ≤ w) (h1 : w ≤ 1) {k : ℕ} {x y z : ℝ} (hx : 0 ≤ x) (h : Near w k x y)
    (hz : |z - y| ≤ w * |y|) : Near w (k + 1) x z := by
  have hy := h.nonneg h1 hx
  rw [abs_of_nonneg hy, abs_le] at hz
  constructor
  · have : (1 - w) * ((1 - w) ^ k * x) ≤ (1 - w) * y :=
      mul_le_mul_of_nonneg_left h.1 (by linarith)
    rw [pow_succ]
    nlinarith [hz.1]
  · have : (1 + w) * y ≤ (1 + w) * ((1 + w) ^ k * x) :=
      mul_le_mul_of_nonneg_left h.2 (by linarith)
    rw [pow_succ]
    nlinarith [hz.2]

theorem Near.add {k : ℕ} {x y x' y' : ℝ} (h : Near w k x y) (h' : Near w k x' y') :
    Near w k (x + x') (y + y') := by
  constructor
  · rw [mul_add]; exact add_le_add h.1 h'.1
  · rw [mul_add]; exact add_le_add h.2 h'.2

theorem Near.mul (h0 : 0 ≤ w) (h1 : w ≤ 1) {k m : ℕ} {x y x' y' : ℝ} (hx : 0 ≤ x) (hx' : 0 ≤ x')
    (h : Near w k x y) (h' : Near w m x' y') : Near w (k + m) (x * x') (y * y') := by
  constructor
  · rw [pow_add, mul_mul_mul_comm]
    exact mul_le_mul h.1 h'.1 (mul_nonneg (pow_nonneg (by linarith) _) hx') (h.nonneg h1 hx)
  · rw [pow_add, mul_mul_mul_comm]
    exact mul_le_mul h.2 h'.2 (h'.nonneg h1 hx') (mul_nonneg (pow_nonneg (by linarith) _) hx)

theorem Near.sqrt (h0 : 0 ≤ w) (h1 : w ≤ 1) {k : ℕ} {x y : ℝ} (hx : 0 ≤ x) (h : Near w k x y) :
    Near w k (Real.sqrt x) (Real.sqrt y) := by
  have hm0 : 0 ≤ (1 - w) ^ k := pow_nonneg (by linarith) k
  have hm1 : (1 - w) ^ k ≤ 1 := pow_le_one₀ (by linarith) (by linarith)
  have hp1 : 1 ≤ (1 + w) ^ k := one_le_pow₀ (by linarith)
  constructor
  · calc (1 - w) ^ k * Real.sqrt x
        ≤ Real.sqrt ((1 - w) ^ k) * Real.sqrt x := by
          refine mul_le_mul_of_nonneg_right ?_ (Real.sqrt_nonneg _)
          apply Real.le_sqrt_of_sq_le
          nlinarith
      _ = Real.sqrt ((1 - w) ^ k * x) := (Real.sqrt_mul hm0 x).symm
      _ ≤ Real.sqrt y := Real.sqrt_le_sqrt h.1
  · calc Real.sqrt y ≤ Real.sqrt ((1 + w) ^ k * x) := Real.sqrt_le_sqrt h.2
      _ = Real.sqrt ((1 + w) ^ k) * Real.sqrt x := Real.sqrt_mul (by linarith) x
      _ ≤ (1 + w) ^ k * Real.sqrt x := by
          refine mul_le_mul_of_nonneg_right ?_ (Real.sqrt_nonneg _)
          rw [Real.sqrt_le_left (by linarith)]
          nlinarith

/-- From factors to a bound of the relative error. -/
theorem Near.error (h0 : 0 ≤ w) {k : ℕ} {x y : ℝ} (hx : 0 ≤ x) (h : Near w k x y) :
    |y - x| ≤ ((1 + w) ^ k - 1) * x := by
  have hb : 1 - (1 - w) ^ k ≤ (1 + w) ^ k - 1 := by
    have h2 : ∀ k : ℕ, (2 : ℝ) ≤ (1 + w) ^ k + (1 - w) ^ k := by
      intro k
      -- binomial: the odd terms cancel
      rw [add_pow, sub_eq_add_neg, add_pow, ← Finset.sum_add_distrib]
      have h3 : ∀ m ∈ Finset.range (k + 1),
          (0 : ℝ) ≤ 1 ^ m * w ^ (k - m) * (k.choose m) + 1 ^ m * (-w) ^ (k - m) * (k.choose m) := by
        intro m _
        rcases Nat.even_or_odd (k - m) with he | ho
        · rw [he.neg_pow]; positivity
        · rw [ho.neg_pow]; simp
      have h4 := Finset.single_le_sum h3 (Finset.mem_range.mpr (Nat.lt_succ_self k))
      refine le_trans ?_ h4
      simp
      norm_num
    linarith [h2 k]
  rw [abs_le]
  constructor
  · have := h.1
    nlinarith
  · have := h.2
    nlinarith

theorem MachineLaws.near_abs_sub (h : MachineLaws val w N) (x y : R) :
    Near w 1 |val x - val y| |val (x - y)| := by
  have h1 := h.sub_err x y
  have h2 := abs_abs_sub_abs_le (val (x - y)) (val x - val y)
  have h3 := abs_le.mp (h2.trans h1)
  constructor <;> rw [pow_one] <;> linarith [h3.1, h3.2]

theorem SumTree.near (h : MachineLaws val w N) (v : Fin n → R) (f : Fin n → ℝ) (k : ℕ)
    (hf : ∀ i, 0 ≤ f i) (hv : ∀ i, Near w k (f i) (val (v i))) (t : SumTree n) :
    Near w (k + t.depth) (t.exact f) (val (t.eval v)) := by
  have h0 := h.w_nonneg
  have h1 : w ≤ 1 := h.w_small.trans (by norm_num)
  induction t with
  | zero =>
    show Near w k 0 (val 0)
    rw [h.zero]
    constructor <;> simp
  | leaf i => exact hv i
  | node l r hl hr =>
    have hl' := SumTree.exact_nonneg hf l
    have hr' := SumTree.exact_nonneg hf r
    have h2 := (hl.mono h0 h1 (m := k + max l.depth r.depth) (by omega) hl').add
      (hr.mono h0 h1 (m := k + max l.depth r.depth) (by omega) hr')
    exact h2.step h0 h1 (add_nonneg hl' hr') (h.add_err _ _)

theorem near_manhattan (h : MachineLaws val w N) (hr : RoundedRoutines L val w)
    {S : ∀ n, SumTree n} (hS : L.Textbook S) (hA : (S n).AddsAll) (x y : Fin n → R) :
    Near w (1 + (S n).depth) (manhattanFormula (fun i => val (x i)) (fun i => val (y i)))
      (val (floatManhattan L x y)) := by
  unfold floatManhattan manhattanFormula
  rw [hS.sum, ← SumTree.exact_sum _ hA]
  refine SumTree.near h _ _ 1 (fun i => abs_nonneg _) (fun i => ?_) _
  rw [hr.abs]
  exact h.near_abs_sub _ _

theorem near_euclidean (h : MachineLaws val w N) (hr : RoundedRoutines L val w)
    {S : ∀ n, SumTree n} (hS : L.Textbook S) (hA : (S n).AddsAll) (x y : Fin n → R) :
    Near w ((S n).depth + 4) (euclideanFormula (fun i => val (x i)) (fun i => val (y i)))
      (val (floatEuclidean L x y)) := by
  have h0 := h.w_nonneg
  have h1 : w ≤ 1 := h.w_small.trans (by norm_num)
  unfold floatEuclidean euclideanFormula
  rw [hS.nrm2, ← SumTree.exact_sum (fun i => (val (x i) - val (y i)) ^ 2) hA]
  have hf : ∀ i, (0 : ℝ) ≤ (val (x i) - val (y i)) ^ 2 := fun i => sq_nonneg _
  have h2 := SumTree.near h (fun i => (x i - y i) * (x i - y i)) _ 3 hf (fun i => by
    have h3 := (h.near_abs_sub (x i) (y i)).mul h0 h1 (abs_nonneg _) (abs_nonneg _)
      (h.near_abs_sub (x i) (y i))
    rw [abs_mul_abs_self, abs_mul_abs_self, ← sq] at h3
    exact h3.step h0 h1 (hf i) (h.mul_err _ _)) (S n)
  have h3 := SumTree.exact_nonneg hf (S n)
  have h4 := h2.nonneg h1 h3
  have h5 := (h2.sqrt h0 h1 h3).step h0 h1 (Real.sqrt_nonneg _)
    (z := val (L.sqrt ((S n).eval fun i => (x i - y i) * (x i - y i))))
    (by rw [abs_of_nonneg (Real.sqrt_nonneg _)]; exact hr.sqrt _ h4)
  rw [show (S n).depth + 4 = 3 + (S n).depth + 1 by omega]
  exact h5

theorem foldl_ifmax (l : List R) (a : R) :
    (l.foldl (fun ret v => if ret < v then v else ret) a ∈ a :: l) ∧
      ∀ v ∈ a :: l, v ≤ l.foldl (fun ret v => if ret < v then v else ret) a := by
  induction l generalizing a with
  | nil => simp
  | cons b l ih =>
    rw [List.foldl_cons]
    obtain ⟨h1, h2⟩ := ih (if a < b then b else a)
    have hm := h2 _ (List.mem_cons_self ..)
    constructor
    · rcases List.mem_cons.mp h1 with h | h
      · rw [h]
        split_ifs <;> simp
      · exact List.mem_cons_of_mem _ (List.mem_cons_of_mem _ h)
    · intro v hv
      rcases List.mem_cons.mp hv with rfl | hv
      · refine le_trans ?_ hm
        split_ifs with h
        · exact h.le
        · exact le_rfl
      · rcases List.mem_cons.mp hv with rfl | hv
        · refine le_trans ?_ hm
          split_ifs with h
          · exact le_rfl
          · exact not_lt.mp h
        · exact h2 v (List.mem_cons_of_mem _ hv)

theorem floatChebyshev_spec (x y : Fin n → R) :
    (n = 0 ∧ floatChebyshev L x y = 0) ∨
      (∃ i, floatChebyshev L x y = L.abs (x i - y i)) ∧
        ∀ i, L.abs (x i - y i) ≤ floatChebyshev L x y := by
  unfold floatChebyshev
  split
  · rename_i hl
    left
    refine ⟨?_, rfl⟩
    simpa using congrArg List.length hl
  · rename_i a l hl
    right
    obtain ⟨h1, h2⟩ := foldl_ifmax l a
    rw [← hl] at h1 h2
    obtain ⟨i, hi⟩ := (List.mem_ofFn' _ _).mp h1
    exact ⟨⟨i, hi.symm⟩, fun j => h2 _ ((List.mem_ofFn' _ _).mpr ⟨j, rfl⟩)⟩

theorem near_chebyshev (h : MachineLaws val w N) (hr : RoundedRoutines L val w) (x y : Fin n → R)
    {D : ℝ} (hD : IsMaxDiff (fun i => val (x i)) (fun i => val (y i)) D) :
    0 ≤ D ∧ Near w 1 D (val (floatChebyshev L x y)) := by
  have h0 := h.w_nonneg
  have h1 : w ≤ 1 := h.w_small.trans (by norm_num)
  rcases floatChebyshev_spec (L := L) x y with ⟨hn, hc⟩ | ⟨⟨i, hi⟩, hall⟩
  · rw [hc, h.zero]
    rcases hD.2 with ⟨_, rfl⟩ | ⟨i, _⟩
    · exact ⟨le_rfl, by constructor <;> simp⟩
    · subst hn; exact i.elim0
  · rcases hD.2 with ⟨hn, _⟩ | ⟨j, hj⟩
    · subst hn; exact i.elim0
    · refine ⟨hj ▸ abs_nonneg _, ?_, ?_⟩
      · have h3 := (h.near_abs_sub (x j) (y j)).1
        rw [← hj] at h3
        refine h3.trans ?_
        rw [← hr.abs]
        exact (h.le _ _).mpr (hall j)
      · rw [hi, hr.abs]
        refine (h.near_abs_sub (x i) (y i)).2.trans ?_
        exact mul_le_mul_of_nonneg_left (hD.1 i) (pow_nonneg (by linarith) 1)

theorem pow_bound_mono (h0 : 0 ≤ w) {k m : ℕ} (h : k ≤ m) :
    (1 + w) ^ k - 1 ≤ (1 + w) ^ m - 1 :=
  sub_le_sub_right (pow_le_pow_right₀ (by linarith) h) 1

/-! ### Errors relative to a scale, for the cosine distance -/

/-- `y` is `x`, up to `k` roundings of numbers of size at most `B`. -/
def Approx (w : ℝ) (k : ℕ) (B x y : ℝ) : Prop := |x| ≤ B ∧ |y - x| ≤ ((1 + w) ^ k - 1) * B

theorem Approx.abs_le {k : ℕ} {B x y : ℝ} (h : Approx w k B x y) : |y| ≤ (1 + w) ^ k * B := by
  have h1 : |y| ≤ |y - x| + |x| := by
    have := abs_add_le (y - x) x
    rwa [sub_add_cancel] at this
  have := h.1
  have := h.2
  linarith

theorem Approx.step (h0 : 0 ≤ w) {k : ℕ} {B x y z : ℝ} (h : Approx w k B x y)
    (hz : |z - y| ≤ w * |y|) : Approx w (k + 1) B x z := by
  refine ⟨h.1, ?_⟩
  have h1 := h.abs_le
  have h2 : |z - x| ≤ |z - y| + |y - x| := by
    have := abs_add_le (z - y) (y - x)
    rwa [sub_add_sub_cancel] at this
  have h3 : w * |y| ≤ w * ((1 + w) ^ k * B) := mul_le_mul_of_nonneg_left h1 h0
  have := h.2
  rw [pow_succ]
  nlinarith

theorem Approx.mono (h0 : 0 ≤ w) {k m : ℕ} (hkm : k ≤ m) {B x y : ℝ} (h : Approx w k B x y) :
    Approx w m B x y :=
  ⟨h.1, h.2.trans (mul_le_mul_of_nonneg_right
    (sub_le_sub_right (pow_le_pow_right₀ (by linarith) hkm) 1) ((abs_nonneg _).trans h.1))⟩

theorem Approx.add {k : ℕ} {B x y B' x' y' : ℝ} (h : Approx w k B x y)
    (h' : Approx w k B' x' y') : Approx w k (B + B') (x + x') (y + y') := by
  refine ⟨(abs_add_le _ _).trans (add_le_add h.1 h'.1), ?_⟩
  rw [add_sub_add_comm, mul_add]
  exact (abs_add_le _ _).trans (add_le_add h.2 h'.2)

theorem SumTree.approx (h : MachineLaws val w N) (v : Fin n → R) (f : Fin n → ℝ) (k : ℕ)
    (hv : ∀ i, Approx w k |f i| (f i) (val (v i))) (t : SumTree n) :
    Approx w (k + t.depth) (t.exact fun i => |f i|) (t.exact f) (val (t.eval v)) := by
  have h0 := h.w_nonneg
  induction t with
  | zero =>
    show Approx w k 0 0 (val 0)
    rw [h.zero]
    constructor <;> simp
  | leaf i => exact hv i
  | node l r hl hr =>
    have h2 := (hl.mono h0 (m := k + max l.depth r.depth) (by omega)).add
      (hr.mono h0 (m := k + max l.depth r.depth) (by omega))
    exact h2.step h0 (h.add_err _ _)

theorem inv_pow_le (h0 : 0 ≤ w) (h1 : w ≤ 1 / 64) (j : ℕ) :
    1 ≤ (1 + w) ^ (2 * j) * (1 - w) ^ j := by
  rw [pow_mul, ← mul_pow]
  apply one_le_pow₀
  nlinarith [mul_nonneg h0 h0]

theorem Approx.div (h0 : 0 ≤ w) (h1 : w ≤ 1 / 64) {k j : ℕ} {B x y P P' : ℝ}
    (h : Approx w k B x y) (hP : 0 < P) (hN : Near w j P P') :
    Approx w (k + 2 * j) (B / P) (x / P) (y / P') := by
  have hB : 0 ≤ B := (abs_nonneg _).trans h.1
  have hm : 0 < (1 - w) ^ j := pow_pos (by linarith) j
  have hP' : 0 < P' := lt_of_lt_of_le (mul_pos hm hP) hN.1
  refine ⟨by rw [abs_div, abs_of_pos hP]; exact div_le_div_of_nonneg_right h.1 hP.le, ?_⟩
  have hg : 1 ≤ (1 + w) ^ (2 * j) := one_le_pow₀ (by linarith)
  have hgj : (1 + w) ^ j ≤ (1 + w) ^ (2 * j) := pow_le_pow_right₀ (by linarith) (by omega)
  have hinv := inv_pow_le h0 h1 j
  -- the quotient of the denominators
  have hq1 : P / P' ≤ (1 + w) ^ (2 * j) := by
    rw [div_le_iff₀ hP']
    calc P ≤ ((1 + w) ^ (2 * j) * (1 - w) ^ j) * P := le_mul_of_one_le_left hP.le hinv
      _ = (1 + w) ^ (2 * j) * ((1 - w) ^ j * P) := by ring
      _ ≤ _ := mul_le_mul_of_nonneg_left hN.1 (by linarith)
  have hq0 : 0 < P / P' := div_pos hP hP'
  have hq2 : 2 - (1 + w) ^ (2 * j) ≤ P / P' := by
    have h2 : 1 / (1 + w) ^ (2 * j) ≤ P / P' := by
      rw [div_le_div_iff₀ (by linarith) hP', one_mul]
      calc P' ≤ (1 + w) ^ j * P := hN.2
        _ ≤ (1 + w) ^ (2 * j) * P := mul_le_mul_of_nonneg_right hgj hP.le
        _ = _ := mul_comm _ _
    refine le_trans ?_ h2
    rw [le_div_iff₀ (by linarith)]
    nlinarith [sq_nonneg ((1 + w) ^ (2 * j) - 1)]
  have hq : |P / P' - 1| ≤ (1 + w) ^ (2 * j) - 1 := by
    rw [_root_.abs_le]; constructor <;> linarith
  have e : y / P' - x / P = (y * (P / P' - 1) + (y - x)) / P := by
    field_simp
    ring
  rw [e, abs_div, abs_of_pos hP, ← mul_div_assoc]
  refine div_le_div_of_nonneg_right ?_ hP.le
  refine (abs_add_le _ _).trans ?_
  rw [abs_mul]
  have h3 := mul_le_mul h.abs_le hq (abs_nonneg _) (mul_nonneg (pow_nonneg (by linarith) k) hB)
  have h4 := h.2
  rw [pow_add]
  nlinarith

theorem Approx.scale {k : ℕ} {B B' x y : ℝ} (h0 : 0 ≤ w) (hB : B ≤ B') (h : Approx w k B x y) :
    Approx w k B' x y :=
  ⟨h.1.trans hB, h.2.trans (mul_le_mul_of_nonneg_left hB
    (by have : 1 ≤ (1 + w) ^ k := one_le_pow₀ (by linarith)
        linarith))⟩

theorem near_nrm2 (h : MachineLaws val w N) (hr : RoundedRoutines L val w)
    {S : ∀ n, SumTree n} (hS : L.Textbook S) (hA : (S n).AddsAll) (x : Fin n → R) :
    Near w ((S n).depth + 2) (length2 (fun i => val (x i))) (val (L.nrm2 x)) := by
  have h0 := h.w_nonneg
  have h1 : w ≤ 1 := h.w_small.trans (by norm_num)
  unfold length2
  rw [hS.nrm2, ← SumTree.exact_sum (fun i => val (x i) ^ 2) hA]
  have hf : ∀ i, (0 : ℝ) ≤ val (x i) ^ 2 := fun i => sq_nonneg _
  have h2 := SumTree.near h (fun i => x i * x i) _ 1 hf (fun i => by
    have h3 : Near w 0 (val (x i) ^ 2) (val (x i) * val (x i)) := by
      rw [sq]; constructor <;> simp
    exact h3.step h0 h1 (hf i) (h.mul_err _ _)) (S n)
  have h3 := SumTree.exact_nonneg hf (S n)
  have h4 := h2.nonneg h1 h3
  have h5 := (h2.sqrt h0 h1 h3).step h0 h1 (Real.sqrt_nonneg _)
    (z := val (L.sqrt ((S n).eval fun i => x i * x i)))
    (by rw [abs_of_nonneg (Real.sqrt_nonneg _)]; exact hr.sqrt _ h4)
  rw [show (S n).depth + 2 = 1 + (S n).depth + 1 by omega]
  exact h5

theorem abs_dot_le (x y : Fin n → ℝ) : ∑ i, |x i * y i| ≤ length2 x * length2 y := by
  unfold length2
  rw [← Real.sqrt_mul (Finset.sum_nonneg fun i _ => sq_nonneg _)]
  apply Real.le_sqrt_of_sq_le
  have h := Finset.sum_mul_sq_le_sq_mul_sq Finset.univ (fun i => |x i|) (fun i => |y i|)
  simpa only [sq_abs, abs_mul] using h

/-- The radicand of the cosine distance. -/
theorem approx_cosine (h : MachineLaws val w N) (hr : RoundedRoutines L val w)
    {S : ∀ n, SumTree n} (hS : L.Textbook S) (hA : (S n).AddsAll) (h1' : val L.one = 1)
    (h2' : val L.two = 2) (x y : Fin n → R) (hx : (fun i => val (x i)) ≠ 0)
    (hy : (fun i => val (y i)) ≠ 0) :
    ∃ r D, floatCosine L x y = .ok (L.sqrt r) ∧
      cosine (fun i => val (x i)) (fun i => val (y i)) = .ok D ∧ 0 ≤ D ∧ D ≤ 2 ∧
      |val r - D ^ 2| ≤ 4 * ((1 + w) ^ (5 * (S n).depth + 14) - 1) := by
  have h0 := h.w_nonneg
  have h1 : w ≤ 1 := h.w_small.trans (by norm_num)
  obtain ⟨x', hx'⟩ : ∃ x' : Fin n → ℝ, x' = fun i => val (x i) := ⟨_, rfl⟩
  obtain ⟨y', hy'⟩ : ∃ y' : Fin n → ℝ, y' = fun i => val (y i) := ⟨_, rfl⟩
  rw [← hx'] at hx ⊢
  rw [← hy'] at hy ⊢
  have lx := length2_pos hx
  have ly := length2_pos hy
  have nx := near_nrm2 h hr hS hA x
  have ny := near_nrm2 h hr hS hA y
  rw [← hx'] at nx
  rw [← hy'] at ny
  have np := (nx.mul h0 h1 lx.le ly.le ny).step h0 h1 (mul_pos lx ly).le
    (h.mul_err (L.nrm2 x) (L.nrm2 y))
  have hpos : 0 < val (L.nrm2 x * L.nrm2 y) :=
    lt_of_lt_of_le (mul_pos (pow_pos (by linarith [h.w_small]) _) (mul_pos lx ly)) np.1
  have hne : L.nrm2 x * L.nrm2 y ≠ 0 := by
    intro e
    rw [e, h.zero] at hpos
    exact lt_irrefl _ hpos
  have hd := SumTree.approx h (fun i => x i * y i) (fun i => x' i * y' i) 1 (fun i => by
    have h3 : Approx w 0 |x' i * y' i| (x' i * y' i) (val (x i) * val (y i)) := by
      rw [hx', hy']; constructor <;> simp
    exact h3.step h0 (h.mul_err _ _)) (S n)
  rw [SumTree.exact_sum _ hA, SumTree.exact_sum _ hA, ← hS.dot] at hd
  have hs := ((hd.scale h0 (abs_dot_le x' y')).div h0 h.w_small (mul_pos lx ly) np).step h0
    (h.div_err _ _ hpos.ne')
  rw [div_self (mul_pos lx ly).ne'] at hs
  obtain ⟨s, hse⟩ : ∃ s, s = (∑ i, x' i * y' i) / (length2 x' * length2 y') := ⟨_, rfl⟩
  obtain ⟨s', hse'⟩ : ∃ s', s' = L.dot x y / (L.nrm2 x * L.nrm2 y) := ⟨_, rfl⟩
  rw [← hse, ← hse'] at hs
  obtain ⟨E, hE⟩ : ∃ E, E = (S n).depth := ⟨_, rfl⟩
  rw [← hE] at hs ⊢
  have hsa := abs_le.mp hs.1
  have h5 : Approx w (5 * E + 12) 2 (1 - s) (val L.one - val s') := by
    refine ⟨?_, ?_⟩
    · rw [_root_.abs_le]; constructor <;> linarith
    · have h6 := hs.2
      rw [mul_one] at h6
      rw [h1', show (1 : ℝ) - val s' - (1 - s) = -(val s' - s) by ring, abs_neg]
      have h7 : (1 + w) ^ (1 + E + 2 * (E + 2 + (E + 2) + 1) + 1) = (1 + w) ^ (5 * E + 12) := by
        congr 1; ring
      rw [h7] at h6
      have h8 : 1 ≤ (1 + w) ^ (5 * E + 12) := one_le_pow₀ (by linarith)
      linarith
  have h6 := h5.step h0 (h.sub_err L.one s')
  have h7 : Approx w (5 * E + 12 + 1) 4 (2 * (1 - s)) (val L.two * val (L.one - s')) := by
    refine ⟨?_, ?_⟩
    · have := h6.1
      rw [abs_mul]
      norm_num
      linarith
    · have := h6.2
      rw [h2', ← mul_sub, abs_mul]
      norm_num
      linarith
  have h8 := h7.step h0 (h.mul_err L.two (L.one - s'))
  refine ⟨L.two * (L.one - s'), Real.sqrt (2 * (1 - s)), ?_, ?_, Real.sqrt_nonneg _, ?_, ?_⟩
  · unfold floatCosine
    simp only
    rw [if_neg hne, ← hse']
  · unfold cosine
    simp only [npNorm2_eq]
    rw [if_neg (mul_pos lx ly).ne']
    unfold npDot
    rw [← hse]
  · rw [Real.sqrt_le_left (by norm_num)]
    linarith
  · rw [Real.sq_sqrt (by linarith), mul_comm 4]
    exact h8.2

end errors

end Verif

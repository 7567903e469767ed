import Verif.Model.Overlap
import Verif.Props.Cover
import Mathlib.MeasureTheory.Measure.Lebesgue.Basic

/-!
# C26: the default overlap fraction

Volumes are Lebesgue measures. `InBox`, `cellLeft` and `cellRight` are in
`Verif.Spec.Cover`.
-/

set_option autoImplicit false

namespace Verif

open MeasureTheory

variable {m : ℕ}

/-- The grid cell with number `c`, of the box `[lo, hi]` split in `n` intervals
per dimension. -/
def cellSet (lo hi : Fin m → ℝ) (n : ℕ) (c : Fin m → ℤ) : Set (Fin m → ℝ) :=
  {z | ∀ i, cellLeft (lo i) (hi i) n (c i) ≤ z i ∧ z i < cellRight (lo i) (hi i) n (c i)}

/-- The open hypercube around the cell `c`. -/
def cubeSet (lo hi : Fin m → ℝ) (n : ℕ) (p : ℝ) (c : Fin m → ℤ) : Set (Fin m → ℝ) :=
  {z | ∀ i, InBox (lo i) (hi i) n p (c i) (z i)}

/-- The points that belong to the hypercube of a grid cell other than `c`. -/
def otherCubes (lo hi : Fin m → ℝ) (n : ℕ) (p : ℝ) (c : Fin m → ℤ) : Set (Fin m → ℝ) :=
  {z | ∃ c' : Fin m → ℤ, (∀ i, 0 ≤ c' i ∧ c' i < n) ∧ c' ≠ c ∧ z ∈ cubeSet lo hi n p c'}

/-- Facts on `beta = (1/2)^(1/m)`. -/
theorem default_beta (hm : 1 ≤ m) : ∃ β : ℝ, β ^ m = 1 / 2 ∧ 1 / 2 ≤ β ∧ β < 1 ∧
    defaultOverlap m = 1 - 1 / (2 - β) := by
  have hm' : (m : ℝ) ≠ 0 := by exact_mod_cast (by omega : m ≠ 0)
  refine ⟨(1 / 2 : ℝ) ^ ((1 : ℝ) / m), ?_, ?_, ?_, ?_⟩
  · rw [← Real.rpow_natCast, ← Real.rpow_mul (by norm_num), one_div_mul_cancel hm', Real.rpow_one]
  · have h1 : (1 : ℝ) / m ≤ 1 := by
      rw [div_le_one (by positivity)]; exact_mod_cast hm
    calc (1 / 2 : ℝ) = (1 / 2 : ℝ) ^ (1 : ℝ) := (Real.rpow_one _).symm
      _ ≤ _ := Real.rpow_le_rpow_of_exponent_ge (by norm_num) (by norm_num) h1
  · exact Real.rpow_lt_one (by norm_num) (by norm_num) (by positivity)
  · unfold defaultOverlap getOverlapFrac
    norm_num

/-- **C26 (range).** In every dimension the default lies in `(0, 1/3]`, so it is
accepted without error or warning. -/
theorem C26_default_range (hm : 1 ≤ m) : 0 < defaultOverlap m ∧ defaultOverlap m ≤ 1 / 3 := by
  obtain ⟨β, _, h1, h2, e⟩ := default_beta hm
  have h3 : 0 < 2 - β := by linarith
  rw [e]
  constructor
  · have : 1 / (2 - β) < 1 := by rw [div_lt_one h3]; linarith
    linarith
  · have : (2 : ℝ) / 3 ≤ 1 / (2 - β) := by rw [le_div_iff₀ h3]; linarith
    linarith

/-- In dimension 1 the default is exactly 1/3. -/
example : defaultOverlap 1 = 1 / 3 := by
  unfold defaultOverlap getOverlapFrac
  norm_num

/-- With the default, `fit` succeeds without warning. -/
theorem C26_default_accepted (hm : 1 ≤ m) (c : CubCover m ℝ) (hc : c.params.overlapFrac = none)
    (hk : IsKind c.params.kind) (hl : 1 ≤ c.params.leafCapacity) (ρ : ℕ → ℕ)
    (X : List (Fin m → ℝ)) (hX : X ≠ []) :
    ∃ c' f, c.fit defaultOverlap ρ X = .ok c' ∧ c'.fitted = some f ∧ f.warned = false ∧
      f.grid.overlapFrac = defaultOverlap m := by
  obtain ⟨h1, h2⟩ := C26_default_range hm
  obtain ⟨g, b, e, hg, _⟩ := cubFit_ok defaultOverlap c ρ X hX (defaultOverlap m)
    (by rw [hc]; rfl) h1 (by intro h; rw [h] at h2; norm_num at h2) hk hl
  refine ⟨_, _, e, rfl, ?_, hg.p_eq⟩
  simp only [decide_eq_false_iff_not, not_lt]
  linarith

/-- The part of the cell, and of the hypercube, not in another hypercube. -/
theorem free_part {lo hi : Fin m → ℝ} (hlt : ∀ i, lo i < hi i) {n : ℕ} {c : Fin m → ℤ}
    (hc : ∀ i, 1 ≤ c i ∧ c i + 2 ≤ n) {p : ℝ} (hp0 : 0 < p) (hp1 : p ≤ 1 / 3) (z : Fin m → ℝ)
    (hz : z ∈ cubeSet lo hi n p c) :
    z ∉ otherCubes lo hi n p c ↔ ∀ i,
      cellLeft (lo i) (hi i) n (c i) + p * boxWidth (lo i) (hi i) n p / 2 ≤ z i ∧
      z i ≤ cellRight (lo i) (hi i) n (c i) - p * boxWidth (lo i) (hi i) n p / 2 := by
  have hw : ∀ i, 0 < boxWidth (lo i) (hi i) n p ∧
      (hi i - lo i) / n = boxWidth (lo i) (hi i) n p * (1 - p) := by
    intro i
    have hn : (0 : ℝ) < n := by
      have h1 := hc i
      have : (0 : ℤ) < n := by omega
      exact_mod_cast this
    have : 0 < hi i - lo i := sub_pos.mpr (hlt i)
    have hq : 0 < 1 - p := by linarith
    unfold boxWidth
    constructor
    · positivity
    · field_simp
  constructor
  · intro h i
    by_contra hcon
    apply h
    rw [not_and_or, not_le, not_le] at hcon
    obtain ⟨hw0, hwu⟩ := hw i
    have hzi := hz i
    unfold InBox cellLeft cellRight at hzi
    unfold cellLeft cellRight at hcon
    rw [hwu] at hzi hcon
    obtain ⟨w, hw'⟩ : ∃ w, w = boxWidth (lo i) (hi i) n p := ⟨_, rfl⟩
    rw [← hw'] at hzi hcon hw0 hwu
    have hci := hc i
    have hbig : p * w < w * (1 - p) := by nlinarith
    rcases hcon with hcon | hcon
    · refine ⟨Function.update c i (c i - 1), ?_, ?_, ?_⟩
      · intro k
        by_cases hk : k = i
        · subst hk; simp only [Function.update_self]; omega
        · simp only [Function.update_of_ne hk]; have := hc k; omega
      · intro heq
        have := congrFun heq i
        simp at this
      · intro k
        by_cases hk : k = i
        · subst hk
          simp only [Function.update_self]
          unfold InBox cellLeft cellRight
          rw [hwu, ← hw']
          push_cast
          have e1 : ((c k : ℝ) - 1) * (w * (1 - p)) = c k * (w * (1 - p)) - w * (1 - p) := by ring
          have e2 : ((c k : ℝ) - 1 + 1) * (w * (1 - p)) = c k * (w * (1 - p)) := by ring
          rw [e1, e2]
          constructor <;> linarith [hzi.1, hzi.2]
        · simp only [Function.update_of_ne hk]; exact hz k
    · refine ⟨Function.update c i (c i + 1), ?_, ?_, ?_⟩
      · intro k
        by_cases hk : k = i
        · subst hk; simp only [Function.update_self]; omega
        · simp only [Function.update_of_ne hk]; have := hc k; omega
      · intro heq
        have := congrFun heq i
        simp at this
      · intro k
        by_cases hk : k = i
        · subst hk
          simp only [Function.update_self]
          unfold InBox cellLeft cellRight
          rw [hwu, ← hw']
          push_cast
          have e2 : ((c k : ℝ) + 1 + 1) * (w * (1 - p)) =
            (c k + 1) * (w * (1 - p)) + w * (1 - p) := by ring
          rw [e2]
          constructor <;> linarith [hzi.1, hzi.2]
        · simp only [Function.update_of_ne hk]; exact hz k
  · rintro h ⟨c', _, hne, hz'⟩
    obtain ⟨i, hi'⟩ : ∃ i, c' i ≠ c i := by
      by_contra hall
      push Not at hall
      exact hne (funext hall)
    have hzi := hz' i
    have hh := h i
    obtain ⟨hw0, hwu⟩ := hw i
    unfold InBox cellLeft cellRight at hzi
    unfold cellLeft cellRight at hh
    rw [hwu] at hzi hh
    obtain ⟨w, hw'⟩ : ∃ w, w = boxWidth (lo i) (hi i) n p := ⟨_, rfl⟩
    rw [← hw'] at hzi hh hw0
    have hu : 0 < w * (1 - p) := mul_pos hw0 (by linarith)
    rcases lt_or_gt_of_ne hi' with hlt' | hlt'
    · have h1 : (c' i : ℝ) + 1 ≤ c i := by exact_mod_cast hlt'
      have h2 := mul_le_mul_of_nonneg_right h1 hu.le
      linarith [hzi.2, hh.1]
    · have h1 : (c i : ℝ) + 1 ≤ c' i := by exact_mod_cast hlt'
      have h2 := mul_le_mul_of_nonneg_right h1 hu.le
      linarith [hzi.1, hh.2]

/-- The side of the free part, with the default overlap. -/
theorem free_side {β : ℝ} (h2 : β < 1) (lo hi : ℝ) (n : ℕ) (c : ℤ) :
    (cellRight lo hi n c - (1 - 1 / (2 - β)) * boxWidth lo hi n (1 - 1 / (2 - β)) / 2) -
      (cellLeft lo hi n c + (1 - 1 / (2 - β)) * boxWidth lo hi n (1 - 1 / (2 - β)) / 2) =
      β * ((hi - lo) / n) ∧
    boxWidth lo hi n (1 - 1 / (2 - β)) = (2 - β) * ((hi - lo) / n) := by
  have h3 : 2 - β ≠ 0 := by linarith
  obtain ⟨u, hu⟩ : ∃ u, u = (hi - lo) / n := ⟨_, rfl⟩
  unfold cellRight cellLeft boxWidth
  rw [← hu]
  have e : 1 - (1 - 1 / (2 - β)) = 1 / (2 - β) := by ring
  rw [e]
  constructor
  · field_simp
    ring
  · field_simp

/-- Volume of the free part. -/
theorem volume_free {lo hi : Fin m → ℝ} (hlt : ∀ i, lo i < hi i) {n : ℕ} (hn : 1 ≤ n)
    (c : Fin m → ℤ) {β : ℝ} (hβ : β ^ m = 1 / 2) (h1 : 1 / 2 ≤ β) (h2 : β < 1) :
    volume (Set.Icc
      (fun i => cellLeft (lo i) (hi i) n (c i) +
        (1 - 1 / (2 - β)) * boxWidth (lo i) (hi i) n (1 - 1 / (2 - β)) / 2)
      (fun i => cellRight (lo i) (hi i) n (c i) -
        (1 - 1 / (2 - β)) * boxWidth (lo i) (hi i) n (1 - 1 / (2 - β)) / 2)) =
      ENNReal.ofReal (1 / 2 * ∏ i, (hi i - lo i) / n) := by
  rw [Real.volume_Icc_pi]
  have hu : ∀ i, 0 ≤ (hi i - lo i) / n := fun i =>
    div_nonneg (sub_pos.mpr (hlt i)).le (by positivity)
  rw [← ENNReal.ofReal_prod_of_nonneg]
  · congr 1
    rw [Finset.prod_congr rfl fun i _ => (free_side h2 (lo i) (hi i) n (c i)).1]
    rw [Finset.prod_mul_distrib, Finset.prod_const, Finset.card_univ, Fintype.card_fin, hβ]
  · intro i _
    rw [(free_side h2 (lo i) (hi i) n (c i)).1]
    exact mul_nonneg (by linarith) (hu i)

theorem cellSet_eq (lo hi : Fin m → ℝ) (n : ℕ) (c : Fin m → ℤ) :
    cellSet lo hi n c = Set.pi Set.univ (fun i =>
      Set.Ico (cellLeft (lo i) (hi i) n (c i)) (cellRight (lo i) (hi i) n (c i))) := by
  ext z; simp [cellSet]

theorem cubeSet_eq (lo hi : Fin m → ℝ) (n : ℕ) (p : ℝ) (c : Fin m → ℤ) :
    cubeSet lo hi n p c = Set.pi Set.univ (fun i =>
      Set.Ioo (cellLeft (lo i) (hi i) n (c i) - p * boxWidth (lo i) (hi i) n p / 2)
        (cellRight (lo i) (hi i) n (c i) + p * boxWidth (lo i) (hi i) n p / 2)) := by
  ext z; simp [cubeSet, InBox]

/-- **C26 (half of the cell).** For an interior cell of the grid, the part of the
cell that belongs to no other hypercube has exactly half the volume of the cell;
so has the overlapped part. -/
theorem C26_half_of_cell (hm : 1 ≤ m) (lo hi : Fin m → ℝ) (hlt : ∀ i, lo i < hi i) (n : ℕ)
    (c : Fin m → ℤ) (hc : ∀ i, 1 ≤ c i ∧ c i + 2 ≤ n) :
    0 < volume (cellSet lo hi n c) ∧ volume (cellSet lo hi n c) < ⊤ ∧
    2 * volume (cellSet lo hi n c \ otherCubes lo hi n (defaultOverlap m) c) =
      volume (cellSet lo hi n c) ∧
    2 * volume (cellSet lo hi n c ∩ otherCubes lo hi n (defaultOverlap m) c) =
      volume (cellSet lo hi n c) := by
  obtain ⟨β, hβ, h1, h2, e⟩ := default_beta hm
  obtain ⟨hp0, hp1⟩ := C26_default_range hm
  have hn1 : 1 ≤ n := by
    have := hc ⟨0, by omega⟩
    omega
  have hn : (0 : ℝ) < n := by exact_mod_cast hn1
  have hu : ∀ i, 0 < (hi i - lo i) / n := fun i => div_pos (sub_pos.mpr (hlt i)) hn
  have hmargin : ∀ i, 0 < defaultOverlap m * boxWidth (lo i) (hi i) n (defaultOverlap m) / 2 := by
    intro i
    have : 0 < boxWidth (lo i) (hi i) n (defaultOverlap m) := by
      unfold boxWidth
      exact div_pos (hu i) (by linarith)
    positivity
  have hsub : cellSet lo hi n c ⊆ cubeSet lo hi n (defaultOverlap m) c := by
    intro z hz i
    have := hz i
    have := hmargin i
    exact ⟨by linarith [(hz i).1], by linarith [(hz i).2]⟩
  have hset : cellSet lo hi n c \ otherCubes lo hi n (defaultOverlap m) c = Set.Icc
      (fun i => cellLeft (lo i) (hi i) n (c i) +
        defaultOverlap m * boxWidth (lo i) (hi i) n (defaultOverlap m) / 2)
      (fun i => cellRight (lo i) (hi i) n (c i) -
        defaultOverlap m * boxWidth (lo i) (hi i) n (defaultOverlap m) / 2) := by
    ext z
    constructor
    · rintro ⟨hz, ho⟩
      have := (free_part hlt hc hp0 hp1 z (hsub hz)).mp ho
      exact ⟨fun i => (this i).1, fun i => (this i).2⟩
    · rintro ⟨ha, hb⟩
      have hz : z ∈ cellSet lo hi n c := by
        intro i
        have h3 := hmargin i
        have h4 := ha i
        have h5 := hb i
        simp only at h4 h5
        exact ⟨by linarith, by linarith⟩
      exact ⟨hz, (free_part hlt hc hp0 hp1 z (hsub hz)).mpr fun i => ⟨ha i, hb i⟩⟩
  have hcell : volume (cellSet lo hi n c) = ENNReal.ofReal (∏ i, (hi i - lo i) / n) := by
    rw [cellSet_eq, Real.volume_pi_Ico, ← ENNReal.ofReal_prod_of_nonneg]
    · congr 1
      apply Finset.prod_congr rfl
      intro i _
      unfold cellRight cellLeft
      ring
    · intro i _
      have : cellRight (lo i) (hi i) n (c i) - cellLeft (lo i) (hi i) n (c i) =
          (hi i - lo i) / n := by unfold cellRight cellLeft; ring
      rw [this]; exact (hu i).le
  have hprod : 0 < ∏ i, (hi i - lo i) / n := Finset.prod_pos fun i _ => hu i
  have hfree : volume (cellSet lo hi n c \ otherCubes lo hi n (defaultOverlap m) c) =
      ENNReal.ofReal (1 / 2 * ∏ i, (hi i - lo i) / n) := by
    rw [hset, e]; exact volume_free hlt hn1 c hβ h1 h2
  have htwo : 2 * volume (cellSet lo hi n c \ otherCubes lo hi n (defaultOverlap m) c) =
      volume (cellSet lo hi n c) := by
    rw [hfree, hcell, ← ENNReal.ofReal_ofNat 2, ← ENNReal.ofReal_mul (by norm_num)]
    congr 1; ring
  refine ⟨by rw [hcell]; exact ENNReal.ofReal_pos.mpr hprod,
    by rw [hcell]; exact ENNReal.ofReal_lt_top, htwo, ?_⟩
  have hmeas : MeasurableSet (cellSet lo hi n c \ otherCubes lo hi n (defaultOverlap m) c) := by
    rw [hset]; exact measurableSet_Icc
  have hinter : cellSet lo hi n c ∩ otherCubes lo hi n (defaultOverlap m) c =
      cellSet lo hi n c \ (cellSet lo hi n c \ otherCubes lo hi n (defaultOverlap m) c) := by
    ext z; simp only [Set.mem_inter_iff, Set.mem_sdiff]; tauto
  rw [hinter, measure_sdiff Set.sdiff_subset hmeas.nullMeasurableSet
    (by rw [hfree]; exact ENNReal.ofReal_ne_top), hfree, hcell,
    ← ENNReal.ofReal_sub _ (by positivity), ← ENNReal.ofReal_ofNat 2,
    ← ENNReal.ofReal_mul (by norm_num)]
  congr 1; ring

/-- Non-vacuity: the middle cell of a 3×3 grid of the square `[0, 3]²`. -/
example : 2 * volume (cellSet (m := 2) (fun _ => 0) (fun _ => 3) 3 (fun _ => 1) \
      otherCubes (fun _ => 0) (fun _ => 3) 3 (defaultOverlap 2) (fun _ => 1)) =
    volume (cellSet (m := 2) (fun _ => 0) (fun _ => 3) 3 (fun _ => 1)) :=
  (C26_half_of_cell (by norm_num) (fun _ => 0) (fun _ => 3) (fun _ => by norm_num) 3 (fun _ => 1)
    (fun _ => by norm_num)).2.2.1

/-- **C26 (violation of the documentation).** The docstring says that the overlap
within each hypercube is half of the hypercube's volume. For the open hypercube
of an interior cell the part not overlapped is less than half, so the overlap is
more than half. -/
theorem C26_half_of_hypercube_violation (hm : 1 ≤ m) (lo hi : Fin m → ℝ)
    (hlt : ∀ i, lo i < hi i) (n : ℕ) (c : Fin m → ℤ) (hc : ∀ i, 1 ≤ c i ∧ c i + 2 ≤ n) :
    2 * volume (cubeSet lo hi n (defaultOverlap m) c \ otherCubes lo hi n (defaultOverlap m) c) <
      volume (cubeSet lo hi n (defaultOverlap m) c) := by
  obtain ⟨β, hβ, h1, h2, e⟩ := default_beta hm
  obtain ⟨hp0, hp1⟩ := C26_default_range hm
  have hn1 : 1 ≤ n := by
    have := hc ⟨0, by omega⟩
    omega
  have hn : (0 : ℝ) < n := by exact_mod_cast hn1
  have hu : ∀ i, 0 < (hi i - lo i) / n := fun i => div_pos (sub_pos.mpr (hlt i)) hn
  have hmargin : ∀ i, 0 < defaultOverlap m * boxWidth (lo i) (hi i) n (defaultOverlap m) / 2 := by
    intro i
    have : 0 < boxWidth (lo i) (hi i) n (defaultOverlap m) := by
      unfold boxWidth
      exact div_pos (hu i) (by linarith)
    positivity
  have hset : cubeSet lo hi n (defaultOverlap m) c \ otherCubes lo hi n (defaultOverlap m) c ⊆
      Set.Icc
      (fun i => cellLeft (lo i) (hi i) n (c i) +
        defaultOverlap m * boxWidth (lo i) (hi i) n (defaultOverlap m) / 2)
      (fun i => cellRight (lo i) (hi i) n (c i) -
        defaultOverlap m * boxWidth (lo i) (hi i) n (defaultOverlap m) / 2) := by
    rintro z ⟨hz, ho⟩
    have := (free_part hlt hc hp0 hp1 z hz).mp ho
    exact ⟨fun i => (this i).1, fun i => (this i).2⟩
  have hcube : volume (cubeSet lo hi n (defaultOverlap m) c) =
      ENNReal.ofReal (∏ i, (2 - β) * ((hi i - lo i) / n)) := by
    have hside : ∀ i, (cellRight (lo i) (hi i) n (c i) +
        defaultOverlap m * boxWidth (lo i) (hi i) n (defaultOverlap m) / 2) -
        (cellLeft (lo i) (hi i) n (c i) -
        defaultOverlap m * boxWidth (lo i) (hi i) n (defaultOverlap m) / 2) =
        (2 - β) * ((hi i - lo i) / n) := by
      intro i
      obtain ⟨e1, e2⟩ := free_side h2 (lo i) (hi i) n (c i)
      rw [e]
      have e3 : cellRight (lo i) (hi i) n (c i) - cellLeft (lo i) (hi i) n (c i) =
          (hi i - lo i) / n := by unfold cellRight cellLeft; ring
      linarith
    rw [cubeSet_eq, Real.volume_pi_Ioo, ← ENNReal.ofReal_prod_of_nonneg]
    · congr 1
      exact Finset.prod_congr rfl fun i _ => hside i
    · intro i _
      rw [hside]
      exact mul_nonneg (by linarith) (hu i).le
  have hprod : 0 < ∏ i, (hi i - lo i) / n := Finset.prod_pos fun i _ => hu i
  calc 2 * volume (cubeSet lo hi n (defaultOverlap m) c \ otherCubes lo hi n (defaultOverlap m) c)
      ≤ 2 * ENNReal.ofReal (1 / 2 * ∏ i, (hi i - lo i) / n) := by
        refine mul_le_mul_right (le_trans (measure_mono hset) ?_) 2
        rw [e]; exact (volume_free hlt hn1 c hβ h1 h2).le
    _ = ENNReal.ofReal (∏ i, (hi i - lo i) / n) := by
        rw [← ENNReal.ofReal_ofNat 2, ← ENNReal.ofReal_mul (by norm_num)]
        congr 1; ring
    _ < _ := by
        rw [hcube, ENNReal.ofReal_lt_ofReal_iff_of_nonneg hprod.le, Finset.prod_mul_distrib,
          Finset.prod_const, Finset.card_univ, Fintype.card_fin]
        have : 1 < (2 - β) ^ m := one_lt_pow₀ (by linarith) (by omega)
        nlinarith

end Verif

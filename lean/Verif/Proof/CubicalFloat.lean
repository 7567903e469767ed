import Verif.Proof.Rounding
import Verif.Proof.Cubical
import Verif.Proof.CubicalApply
import Verif.Spec.CubicalFloat
import Mathlib.Tactic.Positivity
import Mathlib.Tactic.GCongr

/-!
# Lemmas on the cubical covers with machine arithmetic
-/

set_option autoImplicit false

namespace Verif

/-! ### With exact operations the two models agree -/

section exact
variable {R : Type} [Field R] [LinearOrder R] [FloorRing R] {m : ℕ}

/-- Exact arithmetic. -/
@[reducible] def exactMachine (R : Type) [Field R] [LinearOrder R] [FloorRing R] : Machine R where
  ofInt k := k
  floor x := ⌊x⌋
  half := 1 / 2
  eps := floatEps

theorem exact_gamma (g : Grid m R) : @Grid.machGamma R (exactMachine R) m g = g.gamma := by
  funext x i
  show ((g.nIntervals : ℤ) : R) * (x i - g.lo i) / g.delta i = g.nIntervals * (x i - g.lo i) / g.delta i
  rw [Int.cast_natCast]

theorem exact_offset (g : Grid m R) : @Grid.machOffset R (exactMachine R) m g = g.offset := by
  funext x i
  unfold Grid.machOffset Grid.offset
  rw [exact_gamma]
  rfl

theorem exact_phi (g : Grid m R) : @Grid.machPhi R (exactMachine R) m g = g.phi := by
  funext x i
  unfold Grid.machPhi Grid.phi
  rw [exact_offset]
  show g.lo i + g.delta i * (1 / 2 + ((g.offset x i : ℤ) : R)) / ((g.nIntervals : ℤ) : R) = _
  rw [Int.cast_natCast]
  rfl

theorem exact_chebyshev [IsStrictOrderedRing R] :
    (@machChebyshev R (exactMachine R) m : (Fin m → R) → _ → R) = chebyshevDist := by
  funext x y
  unfold machChebyshev chebyshevDist
  congr 2
  funext i
  show (if x i - y i < 0 then -(x i - y i) else x i - y i) = |x i - y i|
  split
  · rw [abs_of_neg ‹_›]
  · rw [abs_of_nonneg (not_lt.mp ‹_›)]

theorem exact_bounds (n : ℕ) (X : List (Fin m → R)) :
    @machBounds R (exactMachine R) m n X = getBounds n X := by
  cases X with
  | nil => rfl
  | cons x xs =>
    unfold machBounds getBounds
    simp only [machDelta]
    congr 2
    show (_, _) = (_, _)
    congr 1
    funext i
    show (if _ then (((n : ℤ) : R)) else _) = if _ then (n : R) else _
    rw [Int.cast_natCast]
    rfl

theorem exact_radius (p : R) : @machRadius R (exactMachine R) p = boxRadius p := by
  show (if ((2 : ℤ) : R) - ((2 : ℤ) : R) * p = 0 then _ else Except.ok (((1 : ℤ) : R) / (((2 : ℤ) : R) - ((2 : ℤ) : R) * p))) = _
  push_cast
  rfl

theorem exact_fit [IsStrictOrderedRing R] (dflt : ℕ → R) (c : CubCover m R) (ρ : ℕ → ℕ)
    (X : List (Fin m → R)) : @CubCover.machFit R (exactMachine R) m dflt c ρ X = c.fit dflt ρ X := by
  unfold CubCover.machFit CubCover.fit
  simp only [exact_bounds, exact_radius, exact_gamma, exact_chebyshev]
  rfl

theorem exact_search (c : CubCover m R) (x : Fin m → R) :
    @CubCover.machSearch R (exactMachine R) m c x = c.search x := by
  unfold CubCover.machSearch CubCover.search
  cases c.fitted with
  | none => rfl
  | some f => simp only [exact_phi]

theorem exact_landmarks (c : CubCover m R) : ∀ (X : List (Fin m → R)) (lm : PyDict (List ℤ) (Fin m → R)),
    @machLandmarks R (exactMachine R) m c lm X = landmarksLoop c lm X := by
  intro X
  induction X with
  | nil => intro lm; rfl
  | cons x xs ih =>
    intro lm
    unfold machLandmarks landmarksLoop
    cases c.fitted with
    | none => rfl
    | some f => simp only [exact_offset, Grid.getCenter, ih]; rfl

theorem exact_standardLoop (c : CubCover m R) : ∀ (steps : ℕ) (lm : PyDict (List ℤ) (Fin m → R)),
    @machStandardLoop R (exactMachine R) m c steps lm = standardLoop c steps lm := by
  intro steps
  induction steps with
  | zero => intro lm; rfl
  | succ s ih => intro lm; unfold machStandardLoop standardLoop; simp only [exact_search, ih]

theorem exact_proximity [IsStrictOrderedRing R] (dflt : ℕ → R) (c : CubCover m R) (ρ : ℕ → ℕ)
    (X : List (Fin m → R)) :
    @CubCover.machProximity R (exactMachine R) m dflt c ρ X = c.applyProximity dflt ρ X := by
  have h1 : @CubCover.machFit R (exactMachine R) m dflt c ρ = c.fit dflt ρ :=
    funext fun Y => exact_fit dflt c ρ Y
  have h2 : @CubCover.machSearch R (exactMachine R) m = CubCover.search :=
    funext fun f => funext fun x => exact_search f x
  unfold CubCover.machProximity CubCover.applyProximity
  rw [h1, h2]

theorem exact_standard [IsStrictOrderedRing R] (dflt : ℕ → R) (c : CubCover m R) (ρ : ℕ → ℕ)
    (X : List (Fin m → R)) :
    @CubCover.machStandard R (exactMachine R) m dflt c ρ X = c.applyStandard dflt ρ X := by
  unfold CubCover.machStandard CubCover.applyStandard
  rw [exact_fit]
  refine bind_congr fun c' => ?_
  rw [exact_landmarks]
  refine bind_congr fun lm => ?_
  exact exact_standardLoop _ _ _

end exact

/-! ### Error analysis -/

section errors
variable {K : Type} [Field K] [LinearOrder K] [IsStrictOrderedRing K]

theorem relative {w a b : K} (hw : 0 ≤ w) (h : |a - b| ≤ w * |b|) : ∃ t, |t| ≤ w ∧ a = b * (1 + t) := by
  rcases eq_or_ne b 0 with rfl | hb
  · refine ⟨0, by simpa using hw, ?_⟩
    simp only [abs_zero, mul_zero, sub_zero] at h
    rw [zero_mul]
    exact abs_nonpos_iff.mp h
  · refine ⟨(a - b) / b, ?_, by field_simp; ring⟩
    rw [abs_div, div_le_iff₀ (abs_pos.mpr hb)]
    exact h

theorem perturb2 {w s t : K} (hw : w ≤ 1 / 64) (hs : |s| ≤ w) (ht : |t| ≤ w) :
    |(1 + s) * (1 + t) - 1| ≤ 3 * w := by
  have hw0 : 0 ≤ w := (abs_nonneg s).trans hs
  have : (1 + s) * (1 + t) - 1 = s + t + s * t := by ring
  rw [this]
  calc |s + t + s * t| ≤ |s| + |t| + |s| * |t| := by
        rw [← abs_mul]; exact (abs_add_le _ _).trans (by gcongr; exact abs_add_le _ _)
    _ ≤ w + w + w * (1 / 64) := by gcongr; exact ht.trans hw
    _ ≤ 3 * w := by linarith

theorem perturb3 {w r s t : K} (hw : w ≤ 1 / 64) (hr : |r| ≤ w) (hs : |s| ≤ w) (ht : |t| ≤ w) :
    |(1 + r) * (1 + s) * (1 + t) - 1| ≤ 4 * w := by
  have hw0 : 0 ≤ w := (abs_nonneg s).trans hs
  have h2 := perturb2 hw hr hs
  have : (1 + r) * (1 + s) * (1 + t) - 1 = ((1 + r) * (1 + s) - 1) + t + ((1 + r) * (1 + s) - 1) * t := by ring
  rw [this]
  have h3 : |((1 + r) * (1 + s) - 1)| ≤ 65 / 64 * (2 * w) := by
    have : (1 + r) * (1 + s) - 1 = r + s + r * s := by ring
    rw [this]
    calc |r + s + r * s| ≤ |r| + |s| + |r| * |s| := by
          rw [← abs_mul]; exact (abs_add_le _ _).trans (by gcongr; exact abs_add_le _ _)
      _ ≤ w + w + w * (1 / 64) := by gcongr; exact hs.trans hw
      _ ≤ 65 / 64 * (2 * w) := by linarith
  calc |((1 + r) * (1 + s) - 1) + t + ((1 + r) * (1 + s) - 1) * t|
      ≤ |((1 + r) * (1 + s) - 1)| + |t| + |((1 + r) * (1 + s) - 1)| * |t| := by
        rw [← abs_mul]; exact (abs_add_le _ _).trans (by gcongr; exact abs_add_le _ _)
    _ ≤ 65 / 64 * (2 * w) + w + 65 / 64 * (2 * w) * (1 / 64) := by gcongr; exact ht.trans hw
    _ ≤ 4 * w := by linarith

/-- The error of a centre that is mapped back. -/
theorem center_err {w N Δ L a y p1 p2 c s g1 g : K} (hw : w ≤ 1 / 64) (hw0 : 0 ≤ w) (hN : 0 < N)
    (hΔ : 0 < Δ) (ha : 0 ≤ a) (haN : a ≤ N)
    (e1 : |y - a| ≤ w * |a|) (e2 : |p1 - Δ * y| ≤ w * |Δ * y|) (e3 : |p2 - p1 / N| ≤ w * |p1 / N|)
    (e4 : |c - (L + p2)| ≤ w * |L + p2|) (e5 : |s - (c - L)| ≤ w * |c - L|)
    (e6 : |g1 - N * s| ≤ w * |N * s|) (e7 : |g - g1 / Δ| ≤ w * |g1 / Δ|) :
    |g - a| ≤ 11 * (N * w * (1 + |L| / Δ)) := by
  obtain ⟨t1, h1, rfl⟩ := relative hw0 e1
  obtain ⟨t2, h2, rfl⟩ := relative hw0 e2
  obtain ⟨t3, h3, rfl⟩ := relative hw0 e3
  obtain ⟨t6, h6, rfl⟩ := relative hw0 e6
  obtain ⟨t7, h7, rfl⟩ := relative hw0 e7
  obtain ⟨h, hh⟩ : ∃ h, h = Δ * a / N := ⟨_, rfl⟩
  have hh0 : 0 ≤ h := by rw [hh]; positivity
  have hhΔ : h ≤ Δ := by rw [hh, div_le_iff₀ hN]; gcongr
  obtain ⟨P, hP⟩ : ∃ P, P = (1 + t1) * (1 + t2) * (1 + t3) := ⟨_, rfl⟩
  have hP1 : |P - 1| ≤ 4 * w := hP ▸ perturb3 hw h1 h2 h3
  have hp2 : Δ * (a * (1 + t1)) * (1 + t2) / N * (1 + t3) = h * P := by rw [hh, hP]; ring
  rw [hp2] at e4
  obtain ⟨Q, hQ⟩ : ∃ Q, Q = (1 + t6) * (1 + t7) := ⟨_, rfl⟩
  have hQ1 : |Q - 1| ≤ 3 * w := hQ ▸ perturb2 hw h6 h7
  have hhP : |h * P - h| ≤ 4 * w * Δ := by
    have : h * P - h = (P - 1) * h := by ring
    rw [this, abs_mul, abs_of_nonneg hh0]
    gcongr
  have hhP' : |h * P| ≤ Δ + 4 * w * Δ := by
    have : h * P = h + (h * P - h) := by ring
    rw [this]
    exact (abs_add_le _ _).trans (add_le_add (by rw [abs_of_nonneg hh0]; exact hhΔ) hhP)
  have hwΔ : 0 ≤ w * Δ := by positivity
  have hwL : 0 ≤ w * |L| := by positivity
  have hwwΔ : w * (w * Δ) ≤ 1 / 64 * (w * Δ) := by gcongr
  have hwwL : w * (w * |L|) ≤ 1 / 64 * (w * |L|) := by gcongr
  have hc : |c - L - h| ≤ w * |L| + 6 * (w * Δ) := by
    have : c - L - h = (c - (L + h * P)) + (h * P - h) := by ring
    rw [this]
    calc _ ≤ w * |L + h * P| + 4 * w * Δ := (abs_add_le _ _).trans (add_le_add e4 hhP)
      _ ≤ w * (|L| + (Δ + 4 * w * Δ)) + 4 * w * Δ := by gcongr; exact (abs_add_le _ _).trans (by gcongr)
      _ = w * |L| + 5 * (w * Δ) + 4 * (w * (w * Δ)) := by ring
      _ ≤ w * |L| + 6 * (w * Δ) := by linarith
  have hcL : |c - L| ≤ Δ + (w * |L| + 6 * (w * Δ)) := by
    have : c - L = h + (c - L - h) := by ring
    rw [this]
    exact (abs_add_le _ _).trans (add_le_add (by rw [abs_of_nonneg hh0]; exact hhΔ) hc)
  have hs : |s - h| ≤ 65 / 64 * (w * |L|) + 458 / 64 * (w * Δ) := by
    have : s - h = (s - (c - L)) + (c - L - h) := by ring
    rw [this]
    calc _ ≤ w * |c - L| + (w * |L| + 6 * (w * Δ)) := (abs_add_le _ _).trans (add_le_add e5 hc)
      _ ≤ w * (Δ + (w * |L| + 6 * (w * Δ))) + (w * |L| + 6 * (w * Δ)) := by gcongr
      _ = w * |L| + 7 * (w * Δ) + w * (w * |L|) + 6 * (w * (w * Δ)) := by ring
      _ ≤ _ := by linarith
  have hQ2 : |Q| ≤ 67 / 64 := by
    have : Q = 1 + (Q - 1) := by ring
    rw [this]
    refine (abs_add_le _ _).trans ?_
    rw [abs_one]
    linarith
  have hfin : |s * Q - h| ≤ 11 * (w * |L|) + 11 * (w * Δ) := by
    have : s * Q - h = (s - h) * Q + (Q - 1) * h := by ring
    rw [this]
    calc _ ≤ |s - h| * |Q| + |Q - 1| * |h| := by rw [← abs_mul, ← abs_mul]; exact abs_add_le _ _
      _ ≤ (65 / 64 * (w * |L|) + 458 / 64 * (w * Δ)) * (67 / 64) + 3 * w * Δ := by
          gcongr
          rw [abs_of_nonneg hh0]; exact hhΔ
      _ ≤ _ := by linarith
  have hga : N * s * (1 + t6) / Δ * (1 + t7) - a = N / Δ * (s * Q - h) := by
    rw [hQ, hh]; field_simp
  rw [hga, abs_mul, abs_of_pos (by positivity : 0 < N / Δ)]
  calc N / Δ * |s * Q - h| ≤ N / Δ * (11 * (w * |L|) + 11 * (w * Δ)) := by gcongr
    _ = 11 * (N * w * (1 + |L| / Δ)) := by field_simp; ring

/-- The error of the coordinate of an entry. -/
theorem coord_err {w N Δ d s g1 g : K} (hw : w ≤ 1 / 64) (hw0 : 0 ≤ w) (hN : 0 < N) (hΔ : 0 < Δ)
    (hd : 0 ≤ d) (hs : d * (1 - w) ≤ Δ) (e1 : |s - d| ≤ w * |d|) (e2 : |g1 - N * s| ≤ w * |N * s|)
    (e3 : |g - g1 / Δ| ≤ w * |g1 / Δ|) :
    0 ≤ g ∧ g ≤ N + 6 * (N * w) ∧ |g - N * d / Δ| ≤ 6 * (N * w) := by
  obtain ⟨t1, h1, rfl⟩ := relative hw0 e1
  obtain ⟨t2, h2, rfl⟩ := relative hw0 e2
  obtain ⟨t3, h3, rfl⟩ := relative hw0 e3
  have pos : ∀ t : K, |t| ≤ w → 0 < 1 + t := by
    intro t ht
    have := (abs_le.mp ht).1
    linarith
  have p1 := pos t1 h1
  have p2 := pos t2 h2
  have p3 := pos t3 h3
  have hP := perturb3 hw h1 h2 h3
  obtain ⟨r, hr⟩ : ∃ r, r = d / Δ := ⟨_, rfl⟩
  have hr0 : 0 ≤ r := by rw [hr]; positivity
  have hr1 : r * (1 - w) ≤ 1 := by
    have : r * (1 - w) = d * (1 - w) / Δ := by rw [hr]; ring
    rw [this, div_le_one hΔ]
    exact hs
  have hr2 : r ≤ 64 / 63 := by nlinarith
  have hr3 : r ≤ 1 + 64 / 63 * w := by nlinarith
  have hNw : 0 ≤ N * w := by positivity
  have hg : N * (d * (1 + t1)) * (1 + t2) / Δ * (1 + t3) =
      N * r * ((1 + t1) * (1 + t2) * (1 + t3)) := by rw [hr]; ring
  refine ⟨by positivity, ?_, ?_⟩
  · rw [hg]
    have h4 : (1 + t1) * (1 + t2) * (1 + t3) ≤ 1 + 4 * w := by linarith [(abs_le.mp hP).2]
    calc N * r * ((1 + t1) * (1 + t2) * (1 + t3)) ≤ N * (1 + 64 / 63 * w) * (1 + 4 * w) := by
          gcongr
      _ = N + (4 + 64 / 63) * (N * w) + 256 / 63 * (N * w) * w := by ring
      _ ≤ N + (4 + 64 / 63) * (N * w) + 256 / 63 * (N * w) * (1 / 64) := by gcongr
      _ ≤ N + 6 * (N * w) := by linarith
  · have : N * (d * (1 + t1)) * (1 + t2) / Δ * (1 + t3) - N * d / Δ =
        N * r * ((1 + t1) * (1 + t2) * (1 + t3) - 1) := by rw [hr]; ring
    rw [this, abs_mul, abs_of_nonneg (by positivity : 0 ≤ N * r)]
    calc N * r * |(1 + t1) * (1 + t2) * (1 + t3) - 1| ≤ N * (64 / 63) * (4 * w) := by gcongr
      _ = 256 / 63 * (N * w) := by ring
      _ ≤ 6 * (N * w) := by linarith

/-- The computed radius of the boxes, relative to the exact one. -/
theorem radius_err {w p a b r : K} (hw0 : 0 ≤ w) (hp : 0 < p) (hp1 : 8 * w ≤ 1 - p)
    (hp2 : p < 1) (e1 : |a - 2 * p| ≤ w * |2 * p|) (e2 : |b - (2 - a)| ≤ w * |2 - a|)
    (hw : w ≤ 1 / 64) :
    0 < b ∧ (|r - 1 / b| ≤ w * |1 / b| → |r * (2 - 2 * p) - 1| ≤ 4 * w / (1 - p)) := by
  obtain ⟨t1, h1, rfl⟩ := relative hw0 e1
  obtain ⟨t2, h2, rfl⟩ := relative hw0 e2
  have hq : 0 < 1 - p := sub_pos.mpr hp2
  obtain ⟨x, hx⟩ : ∃ x, x = t1 * p / (1 - p) := ⟨_, rfl⟩
  obtain ⟨κ, hκ⟩ : ∃ κ, κ = w / (1 - p) := ⟨_, rfl⟩
  have hκ0 : 0 ≤ κ := by rw [hκ]; positivity
  have hκ1 : κ ≤ 1 / 8 := by rw [hκ, div_le_iff₀ hq]; linarith
  have hκw : w ≤ κ := by rw [hκ, le_div_iff₀ hq]; nlinarith
  have hxκ : |x| ≤ κ := by
    rw [hx, hκ, abs_div, abs_of_pos hq, abs_mul, abs_of_pos hp]
    gcongr
    calc |t1| * p ≤ w * 1 := by gcongr
      _ = w := mul_one w
  have hb : (2 - 2 * p * (1 + t1)) * (1 + t2) = (2 - 2 * p) * ((1 - x) * (1 + t2)) := by
    rw [hx]; field_simp; ring
  have h2' := abs_le.mp h2
  have hx' := abs_le.mp hxκ
  have hden : 55 / 64 ≤ (1 - x) * (1 + t2) := by
    calc (55 / 64 : K) ≤ (7 / 8) * (63 / 64) := by norm_num
      _ ≤ (1 - x) * (1 + t2) := by
          apply mul_le_mul <;> linarith
  have hden0 : 0 < (1 - x) * (1 + t2) := lt_of_lt_of_le (by norm_num) hden
  rw [hb]
  refine ⟨by have : 0 < 2 - 2 * p := by linarith
             positivity, fun e3 => ?_⟩
  obtain ⟨t3, h3, rfl⟩ := relative hw0 e3
  have hq2 : 2 - 2 * p ≠ 0 := by intro h; linarith
  have : 1 / ((2 - 2 * p) * ((1 - x) * (1 + t2))) * (1 + t3) * (2 - 2 * p) - 1 =
      (t3 + x - t2 + x * t2) / ((1 - x) * (1 + t2)) := by
    have h6 := hden0.ne'
    have h7 : (1 - x) ≠ 0 := left_ne_zero_of_mul h6
    have h8 : (1 + t2) ≠ 0 := right_ne_zero_of_mul h6
    field_simp
    ring
  rw [this, abs_div, abs_of_pos hden0, div_le_iff₀ hden0]
  have hnum : |t3 + x - t2 + x * t2| ≤ 3 * κ + κ * (1 / 64) := by
    calc |t3 + x - t2 + x * t2| ≤ |t3| + |x| + |t2| + |x| * |t2| := by
          rw [← abs_mul]
          refine (abs_add_le _ _).trans ?_
          gcongr
          refine (abs_sub _ _).trans ?_
          gcongr
          exact abs_add_le _ _
      _ ≤ κ + κ + κ + κ * (1 / 64) := by
          gcongr
          · exact h3.trans hκw
          · exact h2.trans hκw
          · exact h2.trans hw
      _ = _ := by ring
  have : 4 * w / (1 - p) = 4 * κ := by rw [hκ]; ring
  rw [this]
  calc |t3 + x - t2 + x * t2| ≤ 3 * κ + κ * (1 / 64) := hnum
    _ ≤ 4 * κ * (55 / 64) := by linarith
    _ ≤ 4 * κ * ((1 - x) * (1 + t2)) := by gcongr

/-- The computed radius exceeds a half by more than the errors, when the overlap does. -/
theorem radius_margin {w p a b r E : K} (hw0 : 0 ≤ w) (hw : w ≤ 1 / 64) (hE : 0 ≤ E)
    (hp : 48 * E + 6 * w < p) (hp1 : p + w ≤ 1) (hp2 : p < 1)
    (e1 : |a - 2 * p| ≤ w * |2 * p|) (e2 : |b - (2 - a)| ≤ w * |2 - a|) :
    0 < b ∧ (|r - 1 / b| ≤ w * |1 / b| → 1 / 2 + 21 * E < r) := by
  obtain ⟨t1, h1, rfl⟩ := relative hw0 e1
  obtain ⟨t2, h2, rfl⟩ := relative hw0 e2
  have h1' := abs_le.mp h1
  have h2' := abs_le.mp h2
  have hp0 : 0 < p := by linarith
  have hc0 : 0 < 2 - 2 * p * (1 + t1) := by nlinarith
  have hd0 : 0 < 1 + t2 := by linarith
  have hb1 : 0 < (2 - 2 * p * (1 + t1)) * (1 + t2) := mul_pos hc0 hd0
  refine ⟨hb1, fun e3 => ?_⟩
  obtain ⟨t3, h3, rfl⟩ := relative hw0 e3
  have h3' := abs_le.mp h3
  rw [div_mul_eq_mul_div, one_mul, lt_div_iff₀ hb1]
  have hE1 : E ≤ 1 / 48 := by linarith
  have h4 : (2 - 2 * p * (1 + t1)) * (1 + t2) ≤ (2 - 2 * (p * (63 / 64))) * (1 + w) := by
    refine mul_le_mul ?_ (by linarith) hd0.le (by linarith)
    nlinarith
  have h5 : (1 / 2 + 21 * E) * ((2 - 2 * (p * (63 / 64))) * (1 + w)) < 1 - w := by
    have hs : p * (63 / 64) > 47 * E + 5 * w := by linarith
    have hk : (1 / 2 + 21 * E) * (2 - 2 * (p * (63 / 64))) < 1 - 5 * w := by nlinarith
    have : (1 / 2 + 21 * E) * ((2 - 2 * (p * (63 / 64))) * (1 + w)) =
      ((1 / 2 + 21 * E) * (2 - 2 * (p * (63 / 64)))) * (1 + w) := by ring
    rw [this]
    calc _ < (1 - 5 * w) * (1 + w) := by gcongr
      _ ≤ 1 - w := by nlinarith
  calc _ ≤ (1 / 2 + 21 * E) * ((2 - 2 * (p * (63 / 64))) * (1 + w)) := by gcongr
    _ < 1 - w := h5
    _ ≤ 1 + t3 := by linarith

end errors

/-! ### Searches -/

section keeps
variable {T R K : Type} [LinearOrder R] [Zero R] [Neg R] [Sub R]
  [AddCommGroup K] [LinearOrder K] [IsOrderedAddMonoid K] {val : R → K}

/-- A distance computed with an error of at most `U` between the entries of `X` and from `q`:
entries within the radius by a margin of `2 U` are never skipped. -/
theorem keeps_computes (hv : Rounded val) {U : K} {D : T → T → K} (hD : PseudoMetric D)
    {d : T → T → R} (X : List T) (q : T)
    (herr : ∀ a b, a = q ∨ a ∈ X → b ∈ X → |val (d a b) - D a b| ≤ U) (eps : R) (S : T → Bool)
    (hS : ∀ x, S x = true → x ∈ X ∧ D q x + (U + U) < val eps) : Keeps X d q eps false S where
  inside := by
    intro x hx
    obtain ⟨hx, h⟩ := hS x hx
    have h1 := herr q x (Or.inl rfl) hx
    have hU : 0 ≤ U := (abs_nonneg _).trans h1
    have h2 := sub_le_iff_le_add.mp (abs_le.mp h1).2
    unfold InBall
    rw [if_neg (by simp), ← hv.lt]
    refine lt_of_le_of_lt h2 (lt_of_le_of_lt ?_ h)
    rw [add_comm U, ← add_assoc]
    exact le_add_of_nonneg_right hU
  far := by
    rintro v x r hv' hx - h1 h2 h3
    by_contra hc
    obtain ⟨-, h⟩ := hS x (by simpa using hc)
    have h4 := hv.lt_abs h3
    rw [← hv.le] at h1
    rw [not_lt, ← hv.le] at h2
    rw [abs_of_nonpos (sub_nonpos.mpr h1), neg_sub] at h4
    have e1 := sub_le_iff_le_add.mp (abs_le.mp (herr v x (Or.inr hv') hx)).2
    have e2 := neg_le_sub_iff_le_add.mp (abs_le.mp (herr q v (Or.inl rfl) hv')).1
    have h5 : val r - val (d q v) ≤ D q x + (U + U) := by
      rw [sub_le_iff_le_add]
      calc val r ≤ U + D v x := h2.trans e1
        _ ≤ U + (D v q + D q x) := by gcongr; exact hD.triangle _ _ _
        _ ≤ U + ((U + val (d q v)) + D q x) := by
            gcongr; rw [hD.symm]; exact e2.trans (le_of_eq (add_comm _ _))
        _ = _ := by abel
    exact absurd (h4.trans_le h5) (not_lt.mpr h.le)
  near := by
    rintro v x r hv' hx - h1 h2 h3
    by_contra hc
    obtain ⟨-, h⟩ := hS x (by simpa using hc)
    have h4 := hv.lt_abs h3
    rw [not_le, ← hv.lt] at h1
    rw [not_lt, ← hv.le] at h2
    rw [abs_of_nonneg (sub_nonneg.mpr h1.le)] at h4
    have e1 := neg_le_sub_iff_le_add.mp (abs_le.mp (herr v x (Or.inr hv') hx)).1
    have e2 := sub_le_iff_le_add.mp (abs_le.mp (herr q v (Or.inl rfl) hv')).2
    have h5 : val (d q v) - val r ≤ D q x + (U + U) := by
      rw [sub_le_iff_le_add]
      calc val (d q v) ≤ U + D q v := e2
        _ ≤ U + (D q x + D x v) := by gcongr; exact hD.triangle _ _ _
        _ ≤ U + (D q x + (U + val r)) := by
            gcongr; rw [hD.symm]
            exact e1.trans ((add_le_add_left h2 U).trans (le_of_eq (add_comm _ _)))
        _ = _ := by abel
    exact absurd (h4.trans_le h5) (not_lt.mpr h.le)

end keeps

section grid
variable {R K : Type} [Machine R] [Field K] [LinearOrder K] [IsStrictOrderedRing K] {m : ℕ}
  {val : R → K} {w : K} {maxInt : ℤ}

theorem machBounds_ok (hv : MachineLaws val w maxInt) (n : ℕ) (X : List (Fin m → R))
    (hX : X ≠ []) :
    ∃ lo hi delta, machBounds n X = .ok (lo, hi, delta) ∧ IsBounds X lo hi ∧
      ∀ i, delta i = columnWidth n (lo i) (hi i) := by
  cases X with
  | nil => exact absurd rfl hX
  | cons x xs =>
    have hb : IsBounds (x :: xs) (colMin x xs) (colMax x xs) := fun i =>
      ⟨(colMin_spec xs x i).1, (colMax_spec xs x i).1,
        fun y hy => ⟨(colMin_spec xs x i).2 y hy, (colMax_spec xs x i).2 y hy⟩⟩
    refine ⟨colMin x xs, colMax x xs, _, rfl, hb, fun i => ?_⟩
    have hle : colMin x xs i ≤ colMax x xs i := ((hb i).2.2 x (by simp)).1.trans ((hb i).2.2 x (by simp)).2
    have h0 : -Machine.eps ≤ colMax x xs i - colMin x xs i := by
      apply hv.le_sub
      rw [hv.neg]
      have := (hv.le _ _).mpr hle
      linarith [hv.eps.1]
    show (if colMax x xs i - colMin x xs i ≥ -Machine.eps ∧ colMax x xs i - colMin x xs i ≤ Machine.eps
      then Machine.ofInt n else colMax x xs i - colMin x xs i) = _
    unfold columnWidth
    by_cases h1 : colMax x xs i - colMin x xs i ≤ Machine.eps
    · rw [if_pos ⟨h0, h1⟩, if_pos h1]
    · rw [if_neg (fun h => h1 h.2), if_neg h1]

/-- What `fit` computes from non-empty data. -/
structure MachGridOK (g : Grid m R) (X : List (Fin m → R)) (n : ℕ) (p : R) : Prop where
  n_eq : g.nIntervals = n
  p_eq : g.overlapFrac = p
  bounds : IsBounds X g.lo g.hi
  delta_eq : ∀ i, g.delta i = columnWidth n (g.lo i) (g.hi i)

theorem columnWidth_ok (hv : MachineLaws val w maxInt) {n : ℕ} (hn : 1 ≤ n) (hn' : (n : ℤ) ≤ maxInt)
    {lo hi : R} (h : lo ≤ hi) : 0 < val (columnWidth n lo hi) ∧
      (val hi - val lo) * (1 - w) ≤ val (columnWidth n lo hi) := by
  have h0 := (hv.le _ _).mpr h
  have h1 := (abs_le.mp (hv.sub_err hi lo)).1
  rw [abs_of_nonneg (sub_nonneg.mpr h0)] at h1
  have hN : (1 : K) ≤ n := by exact_mod_cast hn
  unfold columnWidth
  split
  · rename_i hle
    have h2 := (hv.le _ _).mpr hle
    rw [hv.ofInt _ (by simpa using hn')]
    have := hv.eps.2
    push_cast
    constructor <;> linarith
  · rename_i hle
    rw [not_le, ← hv.toRounded.lt] at hle
    have := hv.eps.1
    constructor <;> linarith

theorem machCheb_val (hv : MachineLaws val w maxInt) (x y : Fin m → R) (r : K) :
    val (machChebyshev x y) ≤ r ↔ 0 ≤ r ∧ ∀ i, |val (x i - y i)| ≤ r := by
  have key : ∀ (l : List R) (a : R), val (l.foldl max a) = (l.map val).foldl max (val a) := by
    intro l
    induction l with
    | nil => intro a; rfl
    | cons b l ih =>
      intro a
      rw [List.foldl_cons, ih, List.map_cons, List.foldl_cons]
      congr 1
      have hm : Monotone val := fun a b h => (hv.le _ _).mpr h
      exact hm.map_max
  unfold machChebyshev
  rw [key, foldl_max_le, hv.zero]
  simp only [List.mem_map, List.mem_ofFn, forall_exists_index, and_imp, forall_apply_eq_imp_iff,
    hv.toRounded.val_pyAbs]

/-- The distance computed from rescaled points. -/
theorem machCheb_err (hv : MachineLaws val w maxInt) (x y : Fin m → R) :
    |val (machChebyshev x y) - chebyshevDist (fun i => val (x i)) (fun i => val (y i))| ≤
      w * chebyshevDist (fun i => val (x i)) (fun i => val (y i)) := by
  obtain ⟨D, hD⟩ : ∃ D, D = chebyshevDist (fun i => val (x i)) (fun i => val (y i)) := ⟨_, rfl⟩
  obtain ⟨c, hc⟩ : ∃ c, c = val (machChebyshev x y) := ⟨_, rfl⟩
  obtain ⟨h0, h1⟩ := (chebyshevDist_le (fun i => val (x i)) (fun i => val (y i)) D).mp hD.ge
  obtain ⟨h2, h3⟩ := (machCheb_val hv x y c).mp hc.ge
  rw [← hD, ← hc, abs_le]
  have hw := hv.w_small
  have hw0 := hv.w_nonneg
  have hw1 : 0 < 1 - w := by linarith
  constructor
  · have : D ≤ c / (1 - w) := by
      rw [hD, chebyshevDist_le]
      refine ⟨by positivity, fun i => ?_⟩
      rw [le_div_iff₀ hw1]
      have := hv.sub_err (x i) (y i)
      have h4 := abs_sub_abs_le_abs_sub (val (x i) - val (y i)) (val (x i - y i))
      rw [abs_sub_comm _ (val (x i - y i))] at h4
      have := h3 i
      linarith
    rw [le_div_iff₀ hw1] at this
    linarith
  · have : c ≤ (1 + w) * D := by
      rw [hc, machCheb_val hv]
      refine ⟨by positivity, fun i => ?_⟩
      have := hv.sub_err (x i) (y i)
      have h4 := abs_sub_abs_le_abs_sub (val (x i - y i)) (val (x i) - val (y i))
      have h5 := h1 i
      have : w * |val (x i) - val (y i)| ≤ w * D := by gcongr
      linarith
    linarith

theorem machCheb_comm (hv : MachineLaws val w maxInt) (x y : Fin m → R) :
    machChebyshev x y = machChebyshev y x := by
  unfold machChebyshev
  congr 2
  funext i
  apply hv.toRounded.inj
  rw [hv.toRounded.val_pyAbs, hv.toRounded.val_pyAbs, hv.sub_comm (x i) (y i), hv.neg, abs_neg]

/-- Rows and centres in rescaled coordinates. -/
theorem machGrid_rows (hv : MachineLaws val w maxInt) {X : List (Fin m → R)} {g : Grid m R} {n : ℕ}
    {p : R} (hg : MachGridOK g X n p) (hn : 1 ≤ n) (hn' : (n : ℤ) ≤ maxInt) {E : K}
    (hE : ErrorBound val w n g.lo g.hi E) {x : Fin m → R} (hx : x ∈ X) (i : Fin m) :
    0 ≤ E ∧ n * w ≤ E ∧ 0 ≤ val (g.machGamma x i) ∧ val (g.machGamma x i) ≤ n + 6 * E ∧
      |val (g.machGamma x i) - gridCoordinate val n (g.lo i) (columnWidth n (g.lo i) (g.hi i)) (x i)| ≤ 6 * E ∧
      0 ≤ g.machOffset x i ∧ g.machOffset x i < n ∧ (g.machOffset x i : K) ≤ val (g.machGamma x i) ∧
      val (g.machGamma x i) ≤ g.machOffset x i + 1 + 6 * E ∧
      |val (g.machGamma (g.machPhi x) i) - (g.machOffset x i + 1 / 2)| ≤ 11 * E := by
  have hlo := ((hg.bounds i).2.2 x hx).1
  have hhi := ((hg.bounds i).2.2 x hx).2
  obtain ⟨hΔ, hd⟩ := columnWidth_ok hv hn hn' (hlo.trans hhi)
  have hlo' := (hv.le _ _).mpr hlo
  have hhi' := (hv.le _ _).mpr hhi
  have hw := hv.w_small
  have hw0 := hv.w_nonneg
  have hN : (0 : K) < n := by exact_mod_cast hn
  have hofn : val (Machine.ofInt g.nIntervals) = (n : K) := by
    rw [hv.ofInt _ (by rw [hg.n_eq]; simpa using hn'), hg.n_eq]; simp
  have hδ := hg.delta_eq i
  have hNw : n * w ≤ E := by
    refine le_trans ?_ (hE i)
    have : 0 ≤ |val (g.lo i)| / val (columnWidth n (g.lo i) (g.hi i)) := by positivity
    have h2 : 0 ≤ n * w := by positivity
    nlinarith
  have hE0 : 0 ≤ E := le_trans (by positivity) hNw
  have row : ∀ y : Fin m → R, |val (y i - g.lo i) - (val (y i) - val (g.lo i))| ≤ w * |val (y i) - val (g.lo i)| ∧
      |val (Machine.ofInt g.nIntervals * (y i - g.lo i)) - n * val (y i - g.lo i)| ≤
        w * |n * val (y i - g.lo i)| ∧
      |val (g.machGamma y i) - val (Machine.ofInt g.nIntervals * (y i - g.lo i)) /
          val (columnWidth n (g.lo i) (g.hi i))| ≤
        w * |val (Machine.ofInt g.nIntervals * (y i - g.lo i)) /
          val (columnWidth n (g.lo i) (g.hi i))| := by
    intro y
    refine ⟨hv.sub_err _ _, ?_, ?_⟩
    · have := hv.mul_err (Machine.ofInt g.nIntervals) (y i - g.lo i)
      rwa [hofn] at this
    · have := hv.div_err (Machine.ofInt g.nIntervals * (y i - g.lo i)) (g.delta i)
        (by rw [hδ]; exact hΔ.ne')
      rw [hδ] at this
      unfold Grid.machGamma
      rw [hδ]
      exact this
  obtain ⟨r1, r2, r3⟩ := row x
  obtain ⟨c1, c2, c3⟩ := coord_err hw hw0 hN hΔ (sub_nonneg.mpr hlo')
    (le_trans (by
      have : 0 ≤ 1 - w := by linarith
      gcongr) hd) r1 r2 r3
  have hfl := hv.floor (g.machGamma x i)
  have hoff0 : 0 ≤ Machine.floor (g.machGamma x i) := by
    have h2 : (0 : K) < ((Machine.floor (g.machGamma x i) + 1 : ℤ) : K) := by
      push_cast; linarith [hfl.2]
    have := Int.cast_pos.mp h2
    omega
  have hoff : g.machOffset x i = min ((n : ℤ) - 1) (Machine.floor (g.machGamma x i)) := by
    unfold Grid.machOffset
    rw [hg.n_eq]
  have hn1 : (1 : ℤ) ≤ n := by exact_mod_cast hn
  have ho0 : 0 ≤ g.machOffset x i := by rw [hoff]; omega
  have hon : g.machOffset x i < n := by rw [hoff]; omega
  refine ⟨hE0, hNw, c1, by linarith, ?_, ho0, hon, ?_, ?_, ?_⟩
  · refine c3.trans (by linarith)
  · have : (g.machOffset x i : K) ≤ Machine.floor (g.machGamma x i) := by
      rw [hoff]; exact_mod_cast min_le_right _ _
    linarith [hfl.1]
  · rcases min_choice ((n : ℤ) - 1) (Machine.floor (g.machGamma x i)) with h | h
    · rw [hoff, h]; push_cast; linarith
    · rw [hoff, h]; linarith [hfl.2]
  · obtain ⟨q1, q2, q3⟩ := row (g.machPhi x)
    have ha0 : (0 : K) ≤ g.machOffset x i := by exact_mod_cast ho0
    have haN : (g.machOffset x i : K) + 1 ≤ n := by exact_mod_cast hon
    have e1 := hv.add_err Machine.half (Machine.ofInt (g.machOffset x i))
    rw [hv.half, hv.ofInt _ (by rw [abs_of_nonneg ho0]; omega), add_comm (1 / 2 : K)] at e1
    have e2 := hv.mul_err (g.delta i) (Machine.half + Machine.ofInt (g.machOffset x i))
    have e3 := hv.div_err (g.delta i * (Machine.half + Machine.ofInt (g.machOffset x i)))
      (Machine.ofInt g.nIntervals) (by rw [hofn]; exact hN.ne')
    have e4 := hv.add_err (g.lo i)
      (g.delta i * (Machine.half + Machine.ofInt (g.machOffset x i)) / Machine.ofInt g.nIntervals)
    rw [hofn] at e3
    rw [hδ] at e2 e3 e4
    have hphi : g.machPhi x i = g.lo i + columnWidth n (g.lo i) (g.hi i) *
        (Machine.half + Machine.ofInt (g.machOffset x i)) / Machine.ofInt g.nIntervals := by
      rw [← hδ]; rfl
    rw [← hphi] at e4
    refine (center_err hw hw0 hN hΔ (by linarith) (by linarith) e1 e2 e3 e4 q1 q2 q3).trans ?_
    have := hE i
    linarith

/-- Distances among rows and from a centre. -/
theorem machGrid_dist (hv : MachineLaws val w maxInt) {X : List (Fin m → R)} {g : Grid m R} {n : ℕ}
    {p : R} (hg : MachGridOK g X n p) (hn : 1 ≤ n) (hn' : (n : ℤ) ≤ maxInt) {E : K} (hE0 : 0 ≤ E)
    (hNw : n * w ≤ E) (hE : ErrorBound val w n g.lo g.hi E) {x : Fin m → R} (hx : x ∈ X)
    {a b : Fin m → R} (ha : a = g.machPhi x ∨ a ∈ X) (hb : b ∈ X) :
    |val (pullback g.machGamma machChebyshev a b) -
      pullback (fun z i => val (g.machGamma z i)) chebyshevDist a b| ≤ 2 * E := by
  refine (machCheb_err hv _ _).trans ?_
  have hw := hv.w_small
  have hw0 := hv.w_nonneg
  have hD : chebyshevDist (fun i => val (g.machGamma a i)) (fun i => val (g.machGamma b i)) ≤
      n + 17 * E := by
    rw [chebyshevDist_le]
    refine ⟨by positivity, fun i => ?_⟩
    obtain ⟨_, _, b0, b1, _⟩ := machGrid_rows hv hg hn hn' hE hb i
    have : -(11 * E) ≤ val (g.machGamma a i) ∧ val (g.machGamma a i) ≤ n + 11 * E := by
      rcases ha with rfl | ha
      · obtain ⟨_, _, _, _, _, o0, o1, _, _, c⟩ := machGrid_rows hv hg hn hn' hE hx i
        have c := abs_le.mp c
        have o0' : (0 : K) ≤ g.machOffset x i := by exact_mod_cast o0
        have o1' : (g.machOffset x i : K) + 1 ≤ n := by exact_mod_cast o1
        constructor <;> linarith
      · obtain ⟨_, _, a0, a1, _⟩ := machGrid_rows hv hg hn hn' hE ha i
        constructor <;> linarith
    rw [abs_le]
    constructor <;> linarith
  calc w * chebyshevDist (fun i => val (g.machGamma a i)) (fun i => val (g.machGamma b i))
      ≤ w * (n + 17 * E) := by gcongr
    _ = n * w + 17 * (w * E) := by ring
    _ ≤ n * w + 17 * (1 / 64 * E) := by gcongr
    _ ≤ 2 * E := by linarith

/-- A fitted cover: what a search at a row returns. -/
theorem machFit_ok (hv : MachineLaws val w maxInt) (dflt : ℕ → R) (c : CubCover m R) (ρ : ℕ → ℕ)
    (X : List (Fin m → R)) (hX : X ≠ []) (hm : 0 < m) (p radius : R)
    (hov : c.params.overlapFrac.getD (dflt m) = p) (hp : 0 < val p)
    (hr : machRadius p = .ok radius) (hn : 1 ≤ c.params.nIntervals)
    (hn' : (c.params.nIntervals : ℤ) ≤ maxInt) (hk : IsKind c.params.kind)
    (hc : 1 ≤ c.params.leafCapacity) :
    ∃ g b, c.machFit dflt ρ X = .ok ⟨c.params, some ⟨g, b, decide (Machine.half < p)⟩⟩ ∧
      MachGridOK g X c.params.nIntervals p ∧
      (∀ y, ∃ out, b.search y = .ok out) ∧
      ∀ E, ErrorBound val w c.params.nIntervals g.lo g.hi E → 0 ≤ E ∧
        ∀ x ∈ X, ∃ out, b.search (g.machPhi x) = .ok out ∧ out.Nodup ∧
          (∀ j ∈ out, ∃ z, X[j]? = some z ∧ ∀ i,
            |val (g.machGamma z i) - (g.machOffset x i + 1 / 2)| < val radius + 13 * E) ∧
          ∀ (j : ℕ) z, X[j]? = some z →
            (∀ i, |val (g.machGamma z i) - (g.machOffset x i + 1 / 2)| + 15 * E < val radius) →
            j ∈ out := by
  obtain ⟨lo, hi, delta, h1, h2, h3⟩ := machBounds_ok hv c.params.nIntervals X hX
  obtain ⟨b, h4, h5⟩ := ballFit_keeps
    (⟨⟨radius, pullback (Grid.machGamma ⟨p, c.params.nIntervals, lo, hi, delta⟩)
      machChebyshev, c.params.kind, c.params.leafCapacity,
          c.params.leafRadius, c.params.pivoting⟩, none⟩ : BallCover (Fin m → R) R)
    (fun _ _ => machCheb_comm hv _ _) hk hc ρ X
  have hg : MachGridOK (⟨p, c.params.nIntervals, lo, hi, delta⟩ : Grid m R) X c.params.nIntervals p :=
    ⟨rfl, rfl, h2, h3⟩
  refine ⟨⟨p, c.params.nIntervals, lo, hi, delta⟩, b, ?_, hg, ?_, ?_⟩
  · have hlen : X.length ≠ 0 := by simpa using hX
    have hp' : ¬ p ≤ 0 := by rw [not_le, ← hv.toRounded.lt, hv.zero]; exact hp
    unfold CubCover.machFit
    rw [if_neg hlen]
    simp only [hov, if_neg hp', h1, hr, ok_bind, h4, pure_eq_ok]
  · intro y
    obtain ⟨out, e, _⟩ := h5 hX y
    exact ⟨out, e⟩
  · generalize (⟨p, c.params.nIntervals, lo, hi, delta⟩ : Grid m R) = g at hg h5
    intro E hE
    have hE0 : 0 ≤ E ∧ (c.params.nIntervals : K) * w ≤ E := by
      obtain ⟨x₀, hx₀⟩ := List.exists_mem_of_ne_nil X hX
      obtain ⟨a, b, _⟩ := machGrid_rows hv hg hn hn' hE hx₀ ⟨0, hm⟩
      exact ⟨a, b⟩
    refine ⟨hE0.1, fun x hx => ?_⟩
    obtain ⟨out, e1, e2, e3, e4⟩ := h5 hX (g.machPhi x)
    have hcen : ∀ i, |val (g.machGamma (g.machPhi x) i) - (g.machOffset x i + 1 / 2)| ≤ 11 * E := by
      intro i
      obtain ⟨_, _, _, _, _, _, _, _, _, h⟩ := machGrid_rows hv hg hn hn' hE hx i
      exact h
    have hD : PseudoMetric (pullback (fun (z : Fin m → R) i => val (g.machGamma z i)) chebyshevDist) :=
      chebyshevDist_pseudo.pullback _
    have herr : ∀ a b, a = g.machPhi x ∨ a ∈ X → b ∈ X →
        |val (pullback g.machGamma machChebyshev a b) -
          pullback (fun z i => val (g.machGamma z i)) chebyshevDist a b| ≤ 2 * E :=
      fun a b ha hb => machGrid_dist hv hg hn hn' hE0.1 hE0.2 hE hx ha hb
    refine ⟨out, e1, e2, ?_, ?_⟩
    · intro j hj
      obtain ⟨z, hz, hlt⟩ := e3 j hj
      refine ⟨z, hz, fun i => ?_⟩
      have h6 := (abs_le.mp (herr _ z (Or.inl rfl) (List.mem_of_getElem? hz))).1
      have h7 := hv.toRounded.lt.mpr hlt
      have h8 : chebyshevDist (fun i => val (g.machGamma (g.machPhi x) i))
          (fun i => val (g.machGamma z i)) < val radius + 2 * E := by
        unfold pullback at h6 h7
        linarith
      have h9 := ((chebyshevDist_lt _ _ _).mp h8).2 i
      have h10 := hcen i
      have : val (g.machGamma z i) - (g.machOffset x i + 1 / 2) =
          (val (g.machGamma (g.machPhi x) i) - (g.machOffset x i + 1 / 2)) -
          (val (g.machGamma (g.machPhi x) i) - val (g.machGamma z i)) := by ring
      rw [this]
      refine lt_of_le_of_lt (abs_sub _ _) ?_
      linarith
    · intro j z hz hin
      have hzX := List.mem_of_getElem? hz
      refine e4 (fun y => decide (y ∈ X ∧ pullback (fun (z : Fin m → R) i => val (g.machGamma z i))
          chebyshevDist (g.machPhi x) y + (2 * E + 2 * E) < val radius))
        (keeps_computes hv.toRounded hD X (g.machPhi x) herr radius _
          (fun y hy => of_decide_eq_true hy)) j z hz ?_
      refine decide_eq_true ⟨hzX, ?_⟩
      rw [← lt_sub_iff_add_lt]
      unfold pullback
      rw [chebyshevDist_lt]
      have hpt : ∀ i, |val (g.machGamma (g.machPhi x) i) - val (g.machGamma z i)| <
          val radius - (2 * E + 2 * E) := by
        intro i
        have h9 := hin i
        have h10 := hcen i
        have : val (g.machGamma (g.machPhi x) i) - val (g.machGamma z i) =
            (val (g.machGamma (g.machPhi x) i) - (g.machOffset x i + 1 / 2)) -
            (val (g.machGamma z i) - (g.machOffset x i + 1 / 2)) := by ring
        rw [this]
        refine lt_of_le_of_lt (abs_sub _ _) ?_
        linarith
      exact ⟨lt_of_le_of_lt (abs_nonneg _) (hpt ⟨0, hm⟩), hpt⟩

/-- The computed radius. -/
theorem machRadius_err (hv : MachineLaws val w maxInt) (p : R)
    (hp : 0 < val p) (hp1 : 8 * w ≤ 1 - val p) (hp2 : val p < 1) :
    ∃ radius, machRadius p = .ok radius ∧
      |val radius * (2 - 2 * val p) - 1| ≤ 4 * w / (1 - val p) := by
  have h2 : val (Machine.ofInt 2 : R) = 2 := by rw [hv.ofInt 2 (by simpa using hv.two_le)]; simp
  have h1 : val (Machine.ofInt 1 : R) = 1 := by
    rw [hv.ofInt 1 (by have := hv.two_le; rw [abs_one]; omega)]; simp
  have e1 := hv.mul_err (Machine.ofInt 2) p
  have e2 := hv.sub_err (Machine.ofInt 2) (Machine.ofInt 2 * p)
  rw [h2] at e1 e2
  obtain ⟨hb, hr⟩ := radius_err (r := val (Machine.ofInt 1 / (Machine.ofInt 2 - Machine.ofInt 2 * p)))
    hv.w_nonneg hp hp1 hp2 e1 e2 hv.w_small
  have e3 := hv.div_err (Machine.ofInt 1) (Machine.ofInt 2 - Machine.ofInt 2 * p) hb.ne'
  rw [h1] at e3
  refine ⟨_, ?_, hr e3⟩
  unfold machRadius
  rw [if_neg]
  intro h
  rw [h, hv.zero] at hb
  exact lt_irrefl _ hb

theorem machRadius_margin (hv : MachineLaws val w maxInt) (p : R) {E : K}
    (hE : 0 ≤ E) (hp : 48 * E + 6 * w < val p) (hp1 : val p + w ≤ 1) (hp2 : val p < 1) :
    ∃ radius, machRadius p = .ok radius ∧ 1 / 2 + 21 * E < val radius := by
  have h2 : val (Machine.ofInt 2 : R) = 2 := by rw [hv.ofInt 2 (by simpa using hv.two_le)]; simp
  have h1 : val (Machine.ofInt 1 : R) = 1 := by
    rw [hv.ofInt 1 (by have := hv.two_le; rw [abs_one]; omega)]; simp
  have e1 := hv.mul_err (Machine.ofInt 2) p
  have e2 := hv.sub_err (Machine.ofInt 2) (Machine.ofInt 2 * p)
  rw [h2] at e1 e2
  obtain ⟨hb, hr⟩ := radius_margin (r := val (Machine.ofInt 1 / (Machine.ofInt 2 - Machine.ofInt 2 * p)))
    hv.w_nonneg hv.w_small hE hp hp1 hp2 e1 e2
  have e3 := hv.div_err (Machine.ofInt 1) (Machine.ofInt 2 - Machine.ofInt 2 * p) hb.ne'
  rw [h1] at e3
  refine ⟨_, ?_, hr e3⟩
  unfold machRadius
  rw [if_neg]
  intro h
  rw [h, hv.zero] at hb
  exact lt_irrefl _ hb

omit [Field K] [LinearOrder K] [IsStrictOrderedRing K] in
theorem machLandmarks_ok (c : CubCover m R) (f : CubFit m R) (hf : c.fitted = some f)
    (Y : List (Fin m → R)) : ∀ (X : List (Fin m → R)) (lm : PyDict (List ℤ) (Fin m → R)),
    (∀ x ∈ X, x ∈ Y) → (∀ e ∈ lm.items, e.1 = List.ofFn (f.grid.machOffset e.2) ∧ e.2 ∈ Y) →
    ∃ lm', machLandmarks c lm X = .ok lm' ∧
      (∀ e ∈ lm'.items, e.1 = List.ofFn (f.grid.machOffset e.2) ∧ e.2 ∈ Y) ∧
      (∀ k ∈ lm.keys, k ∈ lm'.keys) ∧
      ∀ x ∈ X, List.ofFn (f.grid.machOffset x) ∈ lm'.keys := by
  intro X
  induction X with
  | nil => intro lm _ h2; exact ⟨lm, rfl, h2, fun _ h => h, by simp⟩
  | cons x xs ih =>
    intro lm hY h2
    have hxY : x ∈ Y := hY x (by simp)
    have hY' : ∀ y ∈ xs, y ∈ Y := fun y hy => hY y (by simp [hy])
    by_cases hc : lm.contains (List.ofFn (f.grid.machOffset x)) = true
    · obtain ⟨lm', e, g2, g3, g4⟩ := ih lm hY' h2
      refine ⟨lm', ?_, g2, g3, ?_⟩
      · rw [machLandmarks]; simp only [hf, hc, if_true]; exact e
      · intro y hy
        rcases List.mem_cons.mp hy with rfl | hy
        · exact g3 _ ((PyDict.contains_iff _ _).mp hc)
        · exact g4 y hy
    · obtain ⟨lm', e, g2, g3, g4⟩ := ih (lm.set (List.ofFn (f.grid.machOffset x)) x) hY' (by
          intro e he
          rcases mem_setList _ _ _ _ he with rfl | he
          · exact ⟨rfl, hxY⟩
          · exact h2 e he)
      have hkey : ∀ k, k ∈ lm.keys ∨ k = List.ofFn (f.grid.machOffset x) →
          k ∈ (lm.set (List.ofFn (f.grid.machOffset x)) x).keys := by
        intro k hk
        rw [← PyDict.isSome_get?, PyDict.get?_set]
        split
        · rfl
        · rcases hk with hk | hk
          · rwa [PyDict.isSome_get?]
          · contradiction
      refine ⟨lm', ?_, g2, fun k hk => g3 k (hkey k (Or.inl hk)), ?_⟩
      · rw [machLandmarks]; simp only [hf, hc]; exact e
      · intro y hy
        rcases List.mem_cons.mp hy with rfl | hy
        · exact g3 _ (hkey _ (Or.inr rfl))
        · exact g4 y hy

omit [Field K] [LinearOrder K] [IsStrictOrderedRing K] in
theorem machStandardLoop_ok (c : CubCover m R) (f : (Fin m → R) → List ℕ)
    (hf : ∀ x, c.machSearch x = .ok (f x)) : ∀ (items : List (List ℤ × (Fin m → R))) (steps : ℕ),
    items.length < steps →
    machStandardLoop c steps ⟨items⟩ =
      .ok ((items.reverse.map (fun e => f e.2)).filter (fun l => l ≠ [])) := by
  intro items
  induction items using List.reverseRecOn with
  | nil =>
    intro steps h
    cases steps with
    | zero => simp at h
    | succ s => rfl
  | append_singleton l e ih =>
    intro steps h
    cases steps with
    | zero => simp at h
    | succ s =>
      have := ih s (by simpa using h)
      rw [machStandardLoop]
      have hne : (l ++ [e]).isEmpty = false := by simp
      simp only [hne, PyDict.popitem, List.getLast?_append, List.getLast?_singleton,
        Option.some_or, ok_bind, List.dropLast_concat, hf, this, pure_eq_ok, List.reverse_append,
        List.reverse_singleton, List.singleton_append, List.map_cons]
      by_cases h0 : f e.2 = []
      · simp [h0]
      · simp [h0]

end grid

end Verif

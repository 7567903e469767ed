import Verif.Proof.Cover
import Verif.Props.Core
import Mathlib.Tactic.FieldSimp
import Mathlib.Tactic.Linarith
import Mathlib.Tactic.Ring
import Mathlib.Data.List.OfFn

/-!
# Lemmas on the cubical covers
-/

set_option autoImplicit false

namespace Verif

variable {R : Type} [Field R] [LinearOrder R] [FloorRing R] {m : ℕ}

section dist
omit [FloorRing R]

omit [Field R] in
theorem foldl_max_lt (l : List R) : ∀ a r, l.foldl max a < r ↔ a < r ∧ ∀ x ∈ l, x < r := by
  induction l with
  | nil => intro a r; simp
  | cons y ys ih =>
    intro a r
    rw [List.foldl_cons, ih]
    simp [and_assoc]

omit [Field R] in
theorem foldl_max_le (l : List R) : ∀ a r, l.foldl max a ≤ r ↔ a ≤ r ∧ ∀ x ∈ l, x ≤ r := by
  induction l with
  | nil => intro a r; simp
  | cons y ys ih =>
    intro a r
    rw [List.foldl_cons, ih]
    simp [and_assoc]

theorem chebyshevDist_lt (x y : Fin m → R) (r : R) :
    chebyshevDist x y < r ↔ 0 < r ∧ ∀ i, |x i - y i| < r := by
  rw [chebyshevDist, foldl_max_lt]
  simp

theorem chebyshevDist_le (x y : Fin m → R) (r : R) :
    chebyshevDist x y ≤ r ↔ 0 ≤ r ∧ ∀ i, |x i - y i| ≤ r := by
  rw [chebyshevDist, foldl_max_le]
  simp

variable [IsStrictOrderedRing R]

theorem chebyshevDist_pseudo : PseudoMetric (chebyshevDist : (Fin m → R) → _ → R) := by
  have h0 : ∀ x y : Fin m → R, 0 ≤ chebyshevDist x y ∧ ∀ i, |x i - y i| ≤ chebyshevDist x y :=
    fun x y => (chebyshevDist_le x y _).mp le_rfl
  refine ⟨?_, ?_, ?_⟩
  · intro x
    apply le_antisymm
    · rw [chebyshevDist_le]; simp
    · exact (h0 x x).1
  · intro x y
    apply le_antisymm
    · rw [chebyshevDist_le]
      exact ⟨(h0 y x).1, fun i => by rw [abs_sub_comm]; exact (h0 y x).2 i⟩
    · rw [chebyshevDist_le]
      exact ⟨(h0 x y).1, fun i => by rw [abs_sub_comm]; exact (h0 x y).2 i⟩
  · intro x y z
    rw [chebyshevDist_le]
    refine ⟨add_nonneg (h0 x y).1 (h0 y z).1, fun i => ?_⟩
    have : x i - z i = (x i - y i) + (y i - z i) := by ring
    rw [this]
    exact (abs_add_le _ _).trans (add_le_add ((h0 x y).2 i) ((h0 y z).2 i))

end dist

section bounds
omit [FloorRing R]

omit [Field R] in
theorem colMin_spec (xs : List (Fin m → R)) : ∀ (x : Fin m → R) (i : Fin m),
    (∃ y ∈ x :: xs, y i = colMin x xs i) ∧ ∀ y ∈ x :: xs, colMin x xs i ≤ y i := by
  intro x i
  have key : ∀ (l : List (Fin m → R)) (a : R),
      (l.foldl (fun a y => min a (y i)) a = a ∨ ∃ y ∈ l, y i = l.foldl (fun a y => min a (y i)) a) ∧
      l.foldl (fun a y => min a (y i)) a ≤ a ∧
      ∀ y ∈ l, l.foldl (fun a y => min a (y i)) a ≤ y i := by
    intro l
    induction l with
    | nil => intro a; simp
    | cons z zs ih =>
      intro a
      obtain ⟨h1, h2, h3⟩ := ih (min a (z i))
      simp only [List.foldl_cons, List.mem_cons, forall_eq_or_imp]
      refine ⟨?_, h2.trans (min_le_left _ _), h2.trans (min_le_right _ _), h3⟩
      rcases h1 with h1 | ⟨y, hy, h1⟩
      · rw [h1]
        rcases le_total a (z i) with h | h
        · left; exact min_eq_left h
        · right; exact ⟨z, Or.inl rfl, (min_eq_right h).symm⟩
      · right; exact ⟨y, Or.inr hy, h1⟩
  obtain ⟨h1, h2, h3⟩ := key xs (x i)
  refine ⟨?_, ?_⟩
  · rcases h1 with h1 | ⟨y, hy, h1⟩
    · exact ⟨x, by simp, h1.symm⟩
    · exact ⟨y, by simp [hy], h1⟩
  · intro y hy
    rcases List.mem_cons.mp hy with rfl | hy
    · exact h2
    · exact h3 y hy

omit [Field R] in
theorem colMax_spec (xs : List (Fin m → R)) : ∀ (x : Fin m → R) (i : Fin m),
    (∃ y ∈ x :: xs, y i = colMax x xs i) ∧ ∀ y ∈ x :: xs, y i ≤ colMax x xs i := by
  intro x i
  have key : ∀ (l : List (Fin m → R)) (a : R),
      (l.foldl (fun a y => max a (y i)) a = a ∨ ∃ y ∈ l, y i = l.foldl (fun a y => max a (y i)) a) ∧
      a ≤ l.foldl (fun a y => max a (y i)) a ∧
      ∀ y ∈ l, y i ≤ l.foldl (fun a y => max a (y i)) a := by
    intro l
    induction l with
    | nil => intro a; simp
    | cons z zs ih =>
      intro a
      obtain ⟨h1, h2, h3⟩ := ih (max a (z i))
      simp only [List.foldl_cons, List.mem_cons, forall_eq_or_imp]
      refine ⟨?_, (le_max_left _ _).trans h2, (le_max_right _ _).trans h2, h3⟩
      rcases h1 with h1 | ⟨y, hy, h1⟩
      · rw [h1]
        rcases le_total (z i) a with h | h
        · left; exact max_eq_left h
        · right; exact ⟨z, Or.inl rfl, (max_eq_right h).symm⟩
      · right; exact ⟨y, Or.inr hy, h1⟩
  obtain ⟨h1, h2, h3⟩ := key xs (x i)
  refine ⟨?_, ?_⟩
  · rcases h1 with h1 | ⟨y, hy, h1⟩
    · exact ⟨x, by simp, h1.symm⟩
    · exact ⟨y, by simp [hy], h1⟩
  · intro y hy
    rcases List.mem_cons.mp hy with rfl | hy
    · exact h2
    · exact h3 y hy

omit [Field R] in
theorem IsBounds.le {R : Type} [Field R] [LinearOrder R] {X : List (Fin m → R)}
    {lo hi : Fin m → R} (h : IsBounds X lo hi) (i : Fin m) : lo i ≤ hi i := by
  obtain ⟨⟨x, hx, e⟩, _, h3⟩ := h i
  rw [← e]; exact (h3 x hx).2

omit [Field R] in
theorem IsBounds.unique {R : Type} [LinearOrder R] {X : List (Fin m → R)}
    {lo hi lo' hi' : Fin m → R} (h : IsBounds X lo hi) (h' : IsBounds X lo' hi') :
    lo = lo' ∧ hi = hi' := by
  constructor <;> funext i
  · obtain ⟨⟨x, hx, e⟩, _, h3⟩ := h i
    obtain ⟨⟨x', hx', e'⟩, _, h3'⟩ := h' i
    apply le_antisymm
    · rw [← e']; exact (h3 _ hx').1
    · rw [← e]; exact (h3' _ hx).1
  · obtain ⟨_, ⟨x, hx, e⟩, h3⟩ := h i
    obtain ⟨_, ⟨x', hx', e'⟩, h3'⟩ := h' i
    apply le_antisymm
    · rw [← e]; exact (h3' _ hx).2
    · rw [← e']; exact (h3 _ hx').2

variable [IsStrictOrderedRing R]

theorem getBounds_ok (n : ℕ) (X : List (Fin m → R)) (hX : X ≠ []) :
    ∃ lo hi delta, getBounds n X = .ok (lo, hi, delta) ∧ IsBounds X lo hi ∧
      ∀ i, delta i = gridHi lo hi n i - lo i := by
  cases X with
  | nil => exact absurd rfl hX
  | cons x xs =>
    have hb : IsBounds (x :: xs) (colMin x xs) (colMax x xs) := fun i =>
      ⟨(colMin_spec xs x i).1, (colMax_spec xs x i).1,
        fun y hy => ⟨(colMin_spec xs x i).2 y hy, (colMax_spec xs x i).2 y hy⟩⟩
    refine ⟨_, _, _, rfl, hb, ?_⟩
    intro i
    have hle := hb.le i
    have he : (0 : R) ≤ floatEps := by unfold floatEps; positivity
    simp only [gridHi]
    by_cases hs : Spread (colMin x xs) (colMax x xs) i
    · have : ¬ (colMax x xs i - colMin x xs i ≤ floatEps) := not_le.mpr hs
      rw [if_neg (fun h => this h.2), if_pos hs]
    · have h1 : colMax x xs i - colMin x xs i ≤ floatEps := not_lt.mp hs
      rw [if_pos ⟨by linarith, h1⟩, if_neg hs]
      ring

end bounds

section cells
variable [IsStrictOrderedRing R]

omit [FloorRing R] in
/-- The code's inequality on rescaled coordinates is the documented interval. -/
theorem inBox_iff {lo hi p z : R} {n : ℕ} (hn : 1 ≤ n) (hlt : lo < hi) (hp : p < 1) (c : ℤ) :
    |(1 / 2 + (c : R)) - n * (z - lo) / (hi - lo)| < 1 / (2 - 2 * p) ↔ InBox lo hi n p c z := by
  have hn' : (0 : R) < n := by exact_mod_cast hn
  have hd : 0 < hi - lo := sub_pos.mpr hlt
  have hq : 0 < 1 - p := sub_pos.mpr hp
  obtain ⟨u, hu⟩ : ∃ u, u = (hi - lo) / n := ⟨_, rfl⟩
  have hu0 : 0 < u := by rw [hu]; positivity
  obtain ⟨t, ht⟩ : ∃ t, t = n * (z - lo) / (hi - lo) := ⟨_, rfl⟩
  have hz : z = lo + t * u := by rw [ht, hu]; field_simp; ring
  obtain ⟨r, hr⟩ : ∃ r, r = 1 / (2 - 2 * p) := ⟨_, rfl⟩
  have hr' : p * (u / (1 - p)) / 2 = (r - 1 / 2) * u := by
    have : 2 - 2 * p ≠ 0 := by intro h; linarith
    have h1 : 1 - p ≠ 0 := hq.ne'
    rw [hr]
    field_simp
    ring
  unfold InBox cellLeft cellRight boxWidth
  rw [← ht, ← hr, ← hu, hr', hz, abs_lt]
  constructor
  · rintro ⟨h1, h2⟩
    constructor
    · nlinarith
    · nlinarith
  · rintro ⟨h1, h2⟩
    constructor
    · by_contra h
      nlinarith
    · by_contra h
      nlinarith

/-- The code's offset is the number of the cell of the query. -/
theorem queryCell_iff {lo hi x : R} {n : ℕ} (hn : 1 ≤ n) (hlt : lo < hi) (c : ℤ) :
    QueryCell lo hi n x c ↔ c = min ((n : ℤ) - 1) ⌊n * (x - lo) / (hi - lo)⌋ := by
  have hn' : (0 : R) < n := by exact_mod_cast hn
  have hd : 0 < hi - lo := sub_pos.mpr hlt
  obtain ⟨u, hu⟩ : ∃ u, u = (hi - lo) / n := ⟨_, rfl⟩
  have hu0 : 0 < u := by rw [hu]; positivity
  obtain ⟨t, ht⟩ : ∃ t, t = n * (x - lo) / (hi - lo) := ⟨_, rfl⟩
  have hx : x = lo + t * u := by rw [ht, hu]; field_simp; ring
  have e1 : cellLeft lo hi n c ≤ x ↔ (c : R) ≤ t := by
    unfold cellLeft
    rw [← hu, hx, add_le_add_iff_left, mul_le_mul_iff_left₀ hu0]
  have e2 : x < cellRight lo hi n c ↔ t < c + 1 := by
    unfold cellRight
    rw [← hu, hx, add_lt_add_iff_left, mul_lt_mul_iff_left₀ hu0]
  unfold QueryCell
  rw [e1, e2, ← ht, ← Int.le_floor]
  have e3 : t < (c : R) + 1 ↔ ⌊t⌋ < c + 1 := by
    rw [Int.floor_lt]; push_cast; rfl
  rw [e3]
  omega

end cells

section fit
variable [IsStrictOrderedRing R]

omit [FloorRing R] in
theorem gridHi_gt {lo hi : Fin m → R} {n : ℕ} (hn : 1 ≤ n) (i : Fin m) :
    lo i < gridHi lo hi n i := by
  unfold gridHi
  split
  · rename_i h
    have : (0 : R) < 1 / 2 ^ 52 := by positivity
    unfold Spread at h
    linarith
  · have : (0 : R) < n := by exact_mod_cast hn
    linarith

/-- What `fit` computes from non-empty data. -/
structure GridOK (g : Grid m R) (X : List (Fin m → R)) (n : ℕ) (p : R) : Prop where
  n_eq : g.nIntervals = n
  p_eq : g.overlapFrac = p
  bounds : IsBounds X g.lo g.hi
  delta_eq : ∀ i, g.delta i = gridHi g.lo g.hi n i - g.lo i

theorem cubFit_ok (dflt : ℕ → R) (c : CubCover m R) (ρ : ℕ → ℕ) (X : List (Fin m → R))
    (hX : X ≠ []) (p : R) (hov : c.params.overlapFrac.getD (dflt m) = p)
    (hp0 : 0 < p) (hp1 : p ≠ 1) (hk : IsKind c.params.kind) (hc : 1 ≤ c.params.leafCapacity) :
    ∃ g b, c.fit dflt ρ X = .ok ⟨c.params, some ⟨g, b, decide (1 / 2 < p)⟩⟩ ∧
      GridOK g X c.params.nIntervals p ∧ ∀ y, ∃ out, b.search y = .ok out ∧
        ListsExactly X (fun z => chebyshevDist (g.gamma y) (g.gamma z) < 1 / (2 - 2 * p)) out := by
  obtain ⟨lo, hi, delta, h1, h2, h3⟩ := getBounds_ok c.params.nIntervals X hX
  have hr : boxRadius p = .ok (1 / (2 - 2 * p)) := by
    unfold boxRadius
    rw [if_neg]
    intro h
    apply hp1
    linarith
  obtain ⟨b, h4, h5⟩ := ballFit_ok
    (⟨⟨1 / (2 - 2 * p), pullback (Grid.gamma ⟨p, c.params.nIntervals, lo, hi, delta⟩)
      chebyshevDist, c.params.kind, c.params.leafCapacity,
          c.params.leafRadius, c.params.pivoting⟩, none⟩ : BallCover (Fin m → R) R)
    (chebyshevDist_pseudo.pullback _) hk hc ρ X
  refine ⟨⟨p, c.params.nIntervals, lo, hi, delta⟩, b, ?_, ⟨rfl, rfl, h2, h3⟩, h5 hX⟩
  have hlen : X.length ≠ 0 := by simpa using hX
  have hp' : ¬ p ≤ 0 := not_le.mpr hp0
  unfold CubCover.fit
  rw [if_neg hlen]
  simp only [hov, if_neg hp', h1, hr, ok_bind, h4, pure_eq_ok]

theorem gamma_phi {g : Grid m R} {X : List (Fin m → R)} {n : ℕ} {p : R} (hg : GridOK g X n p)
    (hn : 1 ≤ n) (x : Fin m → R) (i : Fin m) :
    g.gamma (g.phi x) i = 1 / 2 + (g.offset x i : R) := by
  have hd : g.delta i ≠ 0 := by
    rw [hg.delta_eq]; exact (sub_pos.mpr (gridHi_gt hn i)).ne'
  have hn' : (g.nIntervals : R) ≠ 0 := by
    rw [hg.n_eq]; exact_mod_cast (by omega : n ≠ 0)
  unfold Grid.gamma Grid.phi Grid.gammaInv
  field_simp
  ring

theorem offset_iff {g : Grid m R} {X : List (Fin m → R)} {n : ℕ} {p : R} (hg : GridOK g X n p)
    (hn : 1 ≤ n) (x : Fin m → R) (i : Fin m) (c : ℤ) :
    QueryCell (g.lo i) (gridHi g.lo g.hi n i) n (x i) c ↔ c = g.offset x i := by
  rw [queryCell_iff hn (gridHi_gt hn i)]
  unfold Grid.offset Grid.gamma
  rw [hg.n_eq, hg.delta_eq]

theorem search_box {g : Grid m R} {X : List (Fin m → R)} {n : ℕ} {p : R} (hg : GridOK g X n p)
    (hn : 1 ≤ n) (hp1 : p < 1) (x z : Fin m → R) :
    chebyshevDist (g.gamma (g.phi x)) (g.gamma z) < 1 / (2 - 2 * p) ↔
      ∀ i, InBox (g.lo i) (gridHi g.lo g.hi n i) n p (g.offset x i) (z i) := by
  have hr : (0 : R) < 1 / (2 - 2 * p) := by
    apply div_pos one_pos; linarith
  rw [chebyshevDist_lt]
  constructor
  · rintro ⟨_, h⟩ i
    rw [← inBox_iff hn (gridHi_gt hn i) hp1]
    have := h i
    rw [gamma_phi hg hn] at this
    unfold Grid.gamma at this
    rwa [hg.n_eq, hg.delta_eq] at this
  · intro h
    refine ⟨hr, fun i => ?_⟩
    have := (inBox_iff hn (gridHi_gt hn i) hp1 _).mpr (h i)
    rw [gamma_phi hg hn]
    unfold Grid.gamma
    rwa [hg.n_eq, hg.delta_eq]

omit [FloorRing R] in
theorem cellRight_last (lo hi : R) (n : ℕ) (hn : 1 ≤ n) (c : ℤ) (hc : c + 1 = n) :
    cellRight lo hi n c = hi := by
  have hn' : (n : R) ≠ 0 := by exact_mod_cast (by omega : n ≠ 0)
  have : (c : R) + 1 = n := by exact_mod_cast hc
  unfold cellRight
  rw [this]
  field_simp
  ring

omit [FloorRing R] in
theorem inBox_self {lo hi p x : R} {n : ℕ} (hn : 1 ≤ n) (hlt : lo < hi) (hp0 : 0 < p)
    (hp1 : p < 1) {c : ℤ} (hc : QueryCell lo hi n x c) (hx : x ≤ hi) : InBox lo hi n p c x := by
  have hn' : (0 : R) < n := by exact_mod_cast hn
  have hm : 0 < p * boxWidth lo hi n p / 2 := by
    unfold boxWidth
    have : 0 < hi - lo := sub_pos.mpr hlt
    have : 0 < 1 - p := sub_pos.mpr hp1
    positivity
  obtain ⟨_, h1, h2⟩ := hc
  refine ⟨by linarith, ?_⟩
  rcases h2 with h2 | h2
  · linarith
  · rw [cellRight_last lo hi n hn c h2]; linarith

omit [FloorRing R] in
theorem eps_lt_one : (1 : R) / 2 ^ 52 < 1 := by norm_num

omit [FloorRing R] in
theorem le_gridHi {lo hi : Fin m → R} {n : ℕ} (hn : 1 ≤ n)
    {x : Fin m → R} {i : Fin m} (hx : x i ≤ hi i) : x i ≤ gridHi lo hi n i := by
  unfold gridHi
  split
  · exact hx
  · rename_i h
    have h1 : hi i - lo i ≤ 1 / 2 ^ 52 := not_lt.mp h
    have h2 : (1 : R) ≤ n := by exact_mod_cast hn
    have := eps_lt_one (R := R)
    linarith

/-- On points in the range of the data, the cells of the specification are the
offsets of the code. -/
theorem isCell_iff {g : Grid m R} {X : List (Fin m → R)} {n : ℕ} {p : R} (hg : GridOK g X n p)
    (hn : 1 ≤ n) (x : Fin m → R) (hx : ∀ i, g.lo i ≤ x i ∧ x i ≤ g.hi i) (c : Fin m → ℤ) :
    IsCell g.lo g.hi n x c ↔ c = g.offset x := by
  constructor
  · intro h
    funext i
    rw [← offset_iff hg hn]
    by_cases hs : Spread g.lo g.hi i
    · obtain ⟨_, h2, h3, h4⟩ := (h i).1 hs
      have e : gridHi g.lo g.hi n i = g.hi i := by rw [gridHi, if_pos hs]
      rw [e]
      exact ⟨h2, h3, h4.imp id (fun h => h.1)⟩
    · have e : gridHi g.lo g.hi n i = g.lo i + n := by rw [gridHi, if_neg hs]
      rw [(h i).2 hs, e]
      have h1 : g.hi i - g.lo i ≤ 1 / 2 ^ 52 := not_lt.mp hs
      have hn' : (n : R) ≠ 0 := by exact_mod_cast (by omega : n ≠ 0)
      have hx := hx i
      have := eps_lt_one (R := R)
      refine ⟨by exact_mod_cast hn, ?_, Or.inl ?_⟩
      · unfold cellLeft; simp only [Int.cast_zero, zero_mul, add_zero]; exact hx.1
      · unfold cellRight
        have : (g.lo i + (n : R) - g.lo i) / n = 1 := by field_simp; ring
        rw [this]; simp only [Int.cast_zero]; linarith
  · rintro rfl i
    have hq := (offset_iff hg hn x i _).mpr rfl
    have hx := hx i
    have hlt := gridHi_gt (lo := g.lo) (hi := g.hi) hn i
    have hn' : (0 : R) < n := by exact_mod_cast hn
    have hnn : (n : R) ≠ 0 := hn'.ne'
    -- the offset is non-negative
    have h0 : 0 ≤ g.offset x i := by
      unfold Grid.offset Grid.gamma
      rw [hg.n_eq, hg.delta_eq, le_min_iff]
      refine ⟨by omega, Int.floor_nonneg.mpr ?_⟩
      exact div_nonneg (mul_nonneg hn'.le (sub_nonneg.mpr hx.1)) (sub_pos.mpr hlt).le
    refine ⟨fun hs => ?_, fun hs => ?_⟩
    · have e : gridHi g.lo g.hi n i = g.hi i := by rw [gridHi, if_pos hs]
      rw [e] at hq
      refine ⟨h0, hq.1, hq.2.1, hq.2.2.imp id (fun h => ⟨h, ?_⟩)⟩
      rw [cellRight_last _ _ n hn _ h]; exact hx.2
    · have e : gridHi g.lo g.hi n i = g.lo i + n := by rw [gridHi, if_neg hs]
      rw [e] at hq
      have h1 : g.hi i - g.lo i ≤ 1 / 2 ^ 52 := not_lt.mp hs
      have hle := hq.2.1
      unfold cellLeft at hle
      have e1 : (g.lo i + (n : R) - g.lo i) / n = 1 := by field_simp; ring
      rw [e1] at hle
      have := eps_lt_one (R := R)
      have h3 : (g.offset x i : R) < 1 := by linarith
      have h4 : g.offset x i < 1 := by exact_mod_cast h3
      omega

omit [FloorRing R] in
/-- On dataset points, constant coordinates impose no constraint. -/
theorem inHypercube_iff {X : List (Fin m → R)} {lo hi : Fin m → R} (hb : IsBounds X lo hi)
    {n : ℕ} {p : R} (hn : 1 ≤ n) (hp0 : 0 < p) (hp1 : p < 1) {c : Fin m → ℤ}
    (hc : ∀ i, ¬ Spread lo hi i → c i = 0) {z : Fin m → R} (hz : z ∈ X) :
    (∀ i, InBox (lo i) (gridHi lo hi n i) n p (c i) (z i)) ↔ InHypercube lo hi n p c z := by
  constructor
  · intro h i hs
    have := h i
    rwa [gridHi, if_pos hs] at this
  · intro h i
    by_cases hs : Spread lo hi i
    · rw [gridHi, if_pos hs]; exact h i hs
    · rw [gridHi, if_neg hs, hc i hs]
      have h1 : hi i - lo i ≤ 1 / 2 ^ 52 := not_lt.mp hs
      have hnn : (n : R) ≠ 0 := by exact_mod_cast (by omega : n ≠ 0)
      have e1 : (lo i + (n : R) - lo i) / n = 1 := by field_simp; ring
      have hzb := (hb i).2.2 z hz
      have := eps_lt_one (R := R)
      have hq : 0 < 1 - p := sub_pos.mpr hp1
      have hm : 0 < p * (1 / (1 - p)) / 2 := by positivity
      unfold InBox cellLeft cellRight boxWidth
      rw [e1]
      simp only [Int.cast_zero]
      constructor <;> linarith

/-- Everything the properties need about a fitted cubical cover. -/
theorem cubSearch_ok (dflt : ℕ → R) (c : CubCover m R) (ρ : ℕ → ℕ) (X : List (Fin m → R))
    (hX : X ≠ []) (p : R) (hov : c.params.overlapFrac.getD (dflt m) = p)
    (hp0 : 0 < p) (hp1 : p < 1) (hn : 1 ≤ c.params.nIntervals)
    (hk : IsKind c.params.kind) (hc : 1 ≤ c.params.leafCapacity) :
    ∃ g b, c.fit dflt ρ X = .ok ⟨c.params, some ⟨g, b, decide (1 / 2 < p)⟩⟩ ∧
      GridOK g X c.params.nIntervals p ∧ ∀ x, ∃ out,
        CubCover.search ⟨c.params, some ⟨g, b, decide (1 / 2 < p)⟩⟩ x = .ok out ∧
        ListsExactly X (fun z => ∀ i, InBox (g.lo i) (gridHi g.lo g.hi c.params.nIntervals i)
          c.params.nIntervals p (g.offset x i) (z i)) out := by
  obtain ⟨g, b, h1, hg, h2⟩ := cubFit_ok dflt c ρ X hX p hov hp0 hp1.ne hk hc
  refine ⟨g, b, h1, hg, fun x => ?_⟩
  obtain ⟨out, h3, h4⟩ := h2 (g.phi x)
  refine ⟨out, h3, h4.1, fun j => ?_⟩
  rw [h4.2]
  simp only [search_box hg hn hp1]

end fit

end Verif

import Verif.Proof.Noise
import Verif.Props.Units
import Verif.Props.Extreme

/-!
# C100: noise in the lens and nearby radii

A Mapper graph is stable: small changes of the values of the lens, or of the radius, do not change it,
unless a distance or a coordinate is near the value at which it matters.
-/

set_option autoImplicit false
set_option linter.unusedSectionVars false

namespace Verif

variable {S T : Type}

section metric
variable {R : Type} [AddCommGroup R] [LinearOrder R] [IsOrderedAddMonoid R]

/-- **C100 (balls).** Moving each row of the lens by at most `ε` does not change the Mapper graph or
its connected components, if the distance of no pair of rows is within `2ε` of the radius. -/
theorem C100_ball (c c' : BallCover T R) (H : BallOK c.params) (H' : BallOK c'.params)
    (hm : c'.params.metric = c.params.metric) (hr : c'.params.radius = c.params.radius)
    (h0 : 0 < c.params.radius) (ρ ρ' : ℕ → ℕ) (ε : R)
    (X : List S) (y y' : List T) (hlen : X.length = y.length)
    (hmove : RowsMovedBy c.params.metric ε y y')
    (hclear : ClearOf c.params.metric c.params.radius (ε + ε) y) (clust : ClustFn S)
    (ho : OrderInsensitive clust) (hs : ∀ k xs, ∃ lbls, clust k xs = .ok lbls)
    (order order' : List ℤ → List ℤ)
    (hord : ∀ l L, L ∈ order l ↔ L ∈ l) (hord' : ∀ l L, L ∈ order' l ↔ L ∈ l) :
    ∃ f g g' out out', mapperGraph X y (c.apply ρ) clust = .ok g ∧
      mapperGraph X y' (c'.apply ρ') clust = .ok g' ∧ RenamedGraph id f g g' ∧
      (∀ L, g.IsNode L → g'.nodes.get? (f L) = g.nodes.get? L) ∧
      mapperConnectedComponents order X y (c.apply ρ) clust = .ok out ∧
      mapperConnectedComponents order' X y' (c'.apply ρ') clust = .ok out' ∧
      SameComponents id X.length out out' := by
  obtain ⟨a, b, ha, hb, hab⟩ := C86_ball c c' H H' ρ ρ' y y' ⟨hmove.1, by
    intro i j xi xj xi' xj' hi hj hi' hj'
    rw [hm, hr]
    obtain ⟨e1, e2⟩ := moved_le H.metric (hmove.2 i xi xi' hi hi') (hmove.2 j xj xj' hj hj')
    exact side_of_clear (hclear xi (List.mem_of_getElem? hi) xj (List.mem_of_getElem? hj)) e1 e2⟩
  obtain ⟨a', _, ha', hwf, _⟩ := C18_ball_cover c H h0 ρ y
  rw [ha] at ha'
  cases ha'
  refine C86_graph X y y' _ _ clust a b ha hb hab ?_ ho (fun k ids h => ?_) order order' hord hord'
  · intro ids h
    rw [hlen]
    exact (hwf ids h).2
  · obtain ⟨l, hl⟩ := hs k (pointsOf X ids)
    exact ⟨l, h, hl⟩

/-- Non-vacuity: the temperatures `20, 24, 30` with radius 5, measured with an error of `1/4`. -/
example : ∃ f g g' out out',
    mapperGraph [5, 6, -7] [20, 24, 30] ((ratBall 5 "flat").apply fun _ => 0) parity = .ok g ∧
    mapperGraph [5, 6, -7] [81 / 4, 95 / 4, 30] ((ratBall 5 "hierarchical").apply fun _ => 3) parity =
      .ok g' ∧ RenamedGraph id f g g' ∧
    (∀ L, g.IsNode L → g'.nodes.get? (f L) = g.nodes.get? L) ∧
    mapperConnectedComponents id [5, 6, -7] [20, 24, 30] ((ratBall 5 "flat").apply fun _ => 0)
      parity = .ok out ∧
    mapperConnectedComponents id [5, 6, -7] [81 / 4, 95 / 4, 30]
      ((ratBall 5 "hierarchical").apply fun _ => 3) parity = .ok out' ∧
    SameComponents id 3 out out' := by
  refine C100_ball (ratBall 5 "flat") (ratBall 5 "hierarchical") (ratBall_ok _ _ (Or.inl rfl))
    (ratBall_ok _ _ (Or.inr rfl)) rfl rfl (by norm_num [ratBall]) (fun _ => 0) (fun _ => 3) (1 / 4)
    ([5, 6, -7] : List ℤ) [20, 24, 30] [81 / 4, 95 / 4, 30] rfl ⟨rfl, ?_⟩ ?_ parity
    parity_insensitive (fun _ _ => ⟨_, rfl⟩) id id (fun _ _ => Iff.rfl) (fun _ _ => Iff.rfl)
  · intro i x x' hi hi'
    have h1 := getElem?_lt hi
    simp only [List.length_cons, List.length_nil] at h1
    interval_cases i <;> simp at hi hi' <;> subst hi <;> subst hi' <;> simp only [ratBall] <;>
      norm_num [abs_le]
  · intro x hx z hz
    simp only [List.mem_cons, List.not_mem_nil, or_false] at hx hz
    simp only [ratBall]
    rcases hx with rfl | rfl | rfl <;> rcases hz with rfl | rfl | rfl <;> norm_num

/-- **C100 (balls, the margin is needed).** If a distance equals the radius, arbitrarily small noise
changes the charts: with radius 1, the rows `0, 1` are a chart each, but moving the second one nearer
by any amount makes one chart of them. -/
theorem C100_ball_needed (kind : String) (hkind : IsKind kind) (ε : ℚ) (hε : 0 < ε) :
    ∃ y y' : List ℚ, RowsMovedBy (ratBall 1 kind).params.metric ε y y' ∧
      ∀ ρ ρ' : ℕ → ℕ, (ratBall 1 kind).apply ρ y = .ok [[0], [1]] ∧
        ∃ ids, (ratBall 1 kind).apply ρ' y' = .ok [ids] := by
  have h0 : 0 < min ε (1 / 2) := by positivity
  refine ⟨[0, 1], [0, 1 - min ε (1 / 2)], ⟨rfl, ?_⟩, fun ρ ρ' => ⟨?_, ?_⟩⟩
  · intro i x x' hi hi'
    have h1 := getElem?_lt hi
    simp only [List.length_cons, List.length_nil] at h1
    interval_cases i <;> simp at hi hi' <;> subst hi <;> subst hi' <;> simp only [ratBall]
    · simpa using hε.le
    · rw [show (1 : ℚ) - (1 - min ε 2⁻¹) = min ε 2⁻¹ by ring, abs_of_pos (by simpa using hε)]
      exact min_le_left _ _
  · refine C95_ball_own (ratBall 1 kind) (ratBall_ok _ _ hkind) (by norm_num [ratBall]) ρ [0, 1] ?_
    intro i j xi xj hi hj hij
    have h1 := getElem?_lt hi
    have h2 := getElem?_lt hj
    simp only [List.length_cons, List.length_nil] at h1 h2
    interval_cases i <;> interval_cases j <;> simp at hi hj hij <;> subst hi <;> subst hj <;>
      norm_num [ratBall]
  · obtain ⟨ids, _, h⟩ := C95_ball_one (ratBall 1 kind) (ratBall_ok _ _ hkind) ρ' 0
      [1 - min ε (1 / 2)] (by
        intro z hz
        simp only [List.mem_cons, List.not_mem_nil, or_false] at hz
        have h2 := min_le_right ε (1 / 2)
        rcases hz with rfl | rfl
        · norm_num [ratBall]
        · show |0 - _| < (1 : ℚ)
          rw [abs_lt]
          constructor <;> linarith)
    exact ⟨ids, h⟩

/-- **C100 (radius).** Two radii give the same Mapper graph and connected components, if no distance
between rows is at least one of them and less than the other. -/
theorem C100_radius (c c' : BallCover T R) (H : BallOK c.params) (H' : BallOK c'.params)
    (hm : c'.params.metric = c.params.metric) (h0 : 0 < c.params.radius) (ρ ρ' : ℕ → ℕ)
    (X : List S) (y : List T) (hlen : X.length = y.length)
    (hclear : ∀ x ∈ y, ∀ z ∈ y, ¬ (c.params.radius ≤ c.params.metric x z ∧
        c.params.metric x z < c'.params.radius) ∧
      ¬ (c'.params.radius ≤ c.params.metric x z ∧ c.params.metric x z < c.params.radius))
    (clust : ClustFn S)
    (ho : OrderInsensitive clust) (hs : ∀ k xs, ∃ lbls, clust k xs = .ok lbls)
    (order order' : List ℤ → List ℤ)
    (hord : ∀ l L, L ∈ order l ↔ L ∈ l) (hord' : ∀ l L, L ∈ order' l ↔ L ∈ l) :
    ∃ f g g' out out', mapperGraph X y (c.apply ρ) clust = .ok g ∧
      mapperGraph X y (c'.apply ρ') clust = .ok g' ∧ RenamedGraph id f g g' ∧
      (∀ L, g.IsNode L → g'.nodes.get? (f L) = g.nodes.get? L) ∧
      mapperConnectedComponents order X y (c.apply ρ) clust = .ok out ∧
      mapperConnectedComponents order' X y (c'.apply ρ') clust = .ok out' ∧
      SameComponents id X.length out out' := by
  obtain ⟨a, b, ha, hb, hab⟩ := C86_ball c c' H H' ρ ρ' y y ⟨rfl, by
    intro i j xi xj xi' xj' hi hj hi' hj'
    rw [hi] at hi'
    rw [hj] at hj'
    cases hi'
    cases hj'
    rw [hm]
    obtain ⟨h1, h2⟩ := hclear xi (List.mem_of_getElem? hi) xj (List.mem_of_getElem? hj)
    constructor
    · intro h
      by_contra hn
      exact h2 ⟨not_lt.mp hn, h⟩
    · intro h
      by_contra hn
      exact h1 ⟨not_lt.mp hn, h⟩⟩
  obtain ⟨a', _, ha', hwf, _⟩ := C18_ball_cover c H h0 ρ y
  rw [ha] at ha'
  cases ha'
  refine C86_graph X y y _ _ clust a b ha hb hab ?_ ho (fun k ids h => ?_) order order' hord hord'
  · intro ids h
    rw [hlen]
    exact (hwf ids h).2
  · obtain ⟨l, hl⟩ := hs k (pointsOf X ids)
    exact ⟨l, h, hl⟩

/-- Non-vacuity: the distances of `20, 24, 30` are 0, 4, 6 and 10; the radii 5 and 6. -/
example : ∃ f g g' out out',
    mapperGraph [5, 6, -7] [20, 24, 30] ((ratBall 5 "flat").apply fun _ => 0) parity = .ok g ∧
    mapperGraph [5, 6, -7] [20, 24, 30] ((ratBall 6 "hierarchical").apply fun _ => 3) parity =
      .ok g' ∧ RenamedGraph id f g g' ∧
    (∀ L, g.IsNode L → g'.nodes.get? (f L) = g.nodes.get? L) ∧
    mapperConnectedComponents id [5, 6, -7] [20, 24, 30] ((ratBall 5 "flat").apply fun _ => 0)
      parity = .ok out ∧
    mapperConnectedComponents id [5, 6, -7] [20, 24, 30]
      ((ratBall 6 "hierarchical").apply fun _ => 3) parity = .ok out' ∧
    SameComponents id 3 out out' := by
  refine C100_radius (ratBall 5 "flat") (ratBall 6 "hierarchical") (ratBall_ok _ _ (Or.inl rfl))
    (ratBall_ok _ _ (Or.inr rfl)) rfl (by norm_num [ratBall]) (fun _ => 0) (fun _ => 3)
    ([5, 6, -7] : List ℤ) [20, 24, 30] rfl ?_ parity
    parity_insensitive (fun _ _ => ⟨_, rfl⟩) id id (fun _ _ => Iff.rfl) (fun _ _ => Iff.rfl)
  intro x hx z hz
  simp only [List.mem_cons, List.not_mem_nil, or_false] at hx hz
  simp only [ratBall]
  rcases hx with rfl | rfl | rfl <;> rcases hz with rfl | rfl | rfl <;> norm_num

/-- **C100 (neighbours).** Moving each row of the lens by at most `ε` does not change the Mapper graph
of `KNNCover` or its connected components, if the distances of any row from two others, or from itself
and another, differ by more than `4ε`. -/
theorem C100_knn (c c' : KnnCover T R) (H : KnnOK c.params) (H' : KnnOK c'.params)
    (hm : c'.params.metric = c.params.metric) (hk : c'.params.neighbors = c.params.neighbors)
    (ρ ρ' : ℕ → ℕ) (ε : R) (hε : 0 ≤ ε) (X : List S) (y y' : List T) (hlen : X.length = y.length)
    (hmove : RowsMovedBy c.params.metric ε y y')
    (hapart : DistancesApart c.params.metric (ε + ε + (ε + ε)) y) (clust : ClustFn S)
    (ho : OrderInsensitive clust) (hs : ∀ k xs, ∃ lbls, clust k xs = .ok lbls)
    (order order' : List ℤ → List ℤ)
    (hord : ∀ l L, L ∈ order l ↔ L ∈ l) (hord' : ∀ l L, L ∈ order' l ↔ L ∈ l) :
    ∃ f g g' out out', mapperGraph X y (c.apply ρ) clust = .ok g ∧
      mapperGraph X y' (c'.apply ρ') clust = .ok g' ∧ RenamedGraph id f g g' ∧
      (∀ L, g.IsNode L → g'.nodes.get? (f L) = g.nodes.get? L) ∧
      mapperConnectedComponents order X y (c.apply ρ) clust = .ok out ∧
      mapperConnectedComponents order' X y' (c'.apply ρ') clust = .ok out' ∧
      SameComponents id X.length out out' := by
  have hδ : 0 ≤ ε + ε + (ε + ε) := by positivity
  have hties : ∀ q ∈ y, ∀ (i j : ℕ) xi xj, y[i]? = some xi → y[j]? = some xj →
      c.params.metric q xi = c.params.metric q xj → i = j := by
    intro q hq i j xi xj hi hj he
    by_contra hij
    rcases hapart q hq i j xi xj hi hj hij with h | h <;> rw [he] at h <;>
      exact absurd h (not_lt.mpr (le_add_of_nonneg_right hδ))
  obtain ⟨a, b, ha, hb, hab⟩ := C86_knn_partial c c' H H' hk.symm ρ ρ' y y' hmove.1 (by
    intro q q' k hq hq'
    refine ⟨hmove.1, ?_⟩
    intro i j xi xj xi' xj' hi hj hi' hj'
    rw [hm]
    by_cases hij : i = j
    · subst hij
      rw [hi] at hj
      rw [hi'] at hj'
      cases hj
      cases hj'
      simp
    obtain ⟨e1, e2⟩ := moved_le H.metric (hmove.2 k q q' hq hq') (hmove.2 i xi xi' hi hi')
    obtain ⟨e3, e4⟩ := moved_le H.metric (hmove.2 k q q' hq hq') (hmove.2 j xj xj' hj hj')
    exact order_of_apart (hapart q (List.mem_of_getElem? hq) i j xi xj hi hj hij) e1 e2 e3 e4) hties
  obtain ⟨a', ha', hwf, _⟩ := C20_knn_cover_partial c H ρ y (by
    intro x hx
    refine le_trans ?_ H.neighbors
    by_contra hn
    push Not at hn
    obtain ⟨i, j, hij, hl⟩ : ∃ i j : ℕ, i < j ∧ ∃ xi xj, y[i]? = some xi ∧ y[j]? = some xj ∧
        c.params.metric x xi = 0 ∧ c.params.metric x xj = 0 := by
      clear * - hn
      induction y with
      | nil => simp at hn
      | cons w ws ih =>
        rw [List.countP_cons] at hn
        by_cases hw : c.params.metric x w = 0
        · simp only [hw, decide_true, if_true] at hn
          have : 0 < ws.countP (fun z => decide (c.params.metric x z = 0)) := by omega
          obtain ⟨z, hz, hz0⟩ := List.countP_pos_iff.mp this
          obtain ⟨k, hk⟩ := List.mem_iff_getElem?.mp hz
          exact ⟨0, k + 1, by omega, w, z, rfl, hk, hw, of_decide_eq_true hz0⟩
        · simp only [hw, decide_false] at hn
          obtain ⟨i, j, hij, xi, xj, h1, h2, h3⟩ := ih (by simpa using hn)
          exact ⟨i + 1, j + 1, by omega, xi, xj, h1, h2, h3⟩
    obtain ⟨xi, xj, h1, h2, h3, h4⟩ := hl
    exact absurd (hties x hx i j xi xj h1 h2 (h3.trans h4.symm)) hij.ne)
  rw [ha] at ha'
  cases ha'
  refine C86_graph X y y' _ _ clust a b ha hb hab ?_ ho (fun k ids h => ?_) order order' hord hord'
  · intro ids h
    rw [hlen]
    exact (hwf ids h).2
  · obtain ⟨l, hl⟩ := hs k (pointsOf X ids)
    exact ⟨l, h, hl⟩

/-- `k` neighbours on the rational line. -/
def ratKnn (k : ℕ) (kind : String) : KnnCover ℚ ℚ :=
  ⟨⟨k, fun x y => |x - y|, kind, none, 0, "disabled"⟩, none⟩

theorem ratKnn_ok (k : ℕ) (kind : String) (h : IsKind kind) (hk : 1 ≤ k) : KnnOK (ratKnn k kind).params :=
  ⟨⟨fun x => by simp [ratKnn], fun x y => abs_sub_comm x y, fun x y z => abs_sub_le x y z⟩, h, hk⟩

/-- Non-vacuity: the rows `0, 1, 4, 9`, measured with an error of `1/5`. -/
example : ∃ f g g' out out',
    mapperGraph [5, 6, -7, 8] [0, 1, 4, 9] ((ratKnn 2 "flat").apply fun _ => 0) parity = .ok g ∧
    mapperGraph [5, 6, -7, 8] [1 / 5, 1, 19 / 5, 9] ((ratKnn 2 "hierarchical").apply fun _ => 3)
      parity = .ok g' ∧ RenamedGraph id f g g' ∧
    (∀ L, g.IsNode L → g'.nodes.get? (f L) = g.nodes.get? L) ∧
    mapperConnectedComponents id [5, 6, -7, 8] [0, 1, 4, 9] ((ratKnn 2 "flat").apply fun _ => 0)
      parity = .ok out ∧
    mapperConnectedComponents id [5, 6, -7, 8] [1 / 5, 1, 19 / 5, 9]
      ((ratKnn 2 "hierarchical").apply fun _ => 3) parity = .ok out' ∧
    SameComponents id 4 out out' := by
  refine C100_knn (ratKnn 2 "flat") (ratKnn 2 "hierarchical") (ratKnn_ok _ _ (Or.inl rfl) (by decide))
    (ratKnn_ok _ _ (Or.inr rfl) (by decide)) rfl rfl (fun _ => 0) (fun _ => 3) (1 / 5) (by norm_num)
    ([5, 6, -7, 8] : List ℤ) [0, 1, 4, 9] [1 / 5, 1, 19 / 5, 9] rfl ⟨rfl, ?_⟩ ?_ parity
    parity_insensitive (fun _ _ => ⟨_, rfl⟩) id id (fun _ _ => Iff.rfl) (fun _ _ => Iff.rfl)
  · intro i x x' hi hi'
    have h1 := getElem?_lt hi
    simp only [List.length_cons, List.length_nil] at h1
    interval_cases i <;> simp at hi hi' <;> subst hi <;> subst hi' <;> simp only [ratKnn] <;>
      norm_num [abs_le]
  · intro q hq i j xi xj hi hj hij
    have h1 := getElem?_lt hi
    have h2 := getElem?_lt hj
    simp only [List.length_cons, List.length_nil] at h1 h2
    simp only [List.mem_cons, List.not_mem_nil, or_false] at hq
    simp only [ratKnn]
    interval_cases i <;> interval_cases j <;> simp at hi hj hij <;> subst hi <;> subst hj <;>
      rcases hq with rfl | rfl | rfl | rfl <;> norm_num

end metric

section cubical
variable {R : Type} [Field R] [LinearOrder R] [IsStrictOrderedRing R] [FloorRing R] {m : ℕ}

/-- **C100 (hypercubes).** Moving coordinates of the lens by at most `ε` does not change the Mapper
graph of `CubicalCover` or its connected components, for both algorithms, if only coordinates are
moved that are further than `ε` from the ends of all cells and boxes. -/
theorem C100_cubical (dflt dflt' : ℕ → R) (w w' : CubicalCover m R) (p : R)
    (H : CubOK dflt m w.params p) (H' : CubOK dflt' m w'.params p)
    (hn : w.params.nIntervals = w'.params.nIntervals) (ha : w.algorithm = w'.algorithm)
    (hk : w.algorithm = "proximity" ∨ w.algorithm = "standard") (ρ ρ' : ℕ → ℕ) (ε : R)
    (X : List S) (y y' : List (Fin m → R)) (hy : y ≠ []) (hlen : X.length = y.length)
    {lo hi : Fin m → R} (hb : IsBounds y lo hi)
    (hmove : MovedInside lo hi w.params.nIntervals p ε y y') (clust : ClustFn S)
    (ho : OrderInsensitive clust) (hs : ∀ k xs, ∃ lbls, clust k xs = .ok lbls)
    (order order' : List ℤ → List ℤ)
    (hord : ∀ l L, L ∈ order l ↔ L ∈ l) (hord' : ∀ l L, L ∈ order' l ↔ L ∈ l) :
    ∃ f g g' out out', mapperGraph X y (w.apply dflt ρ) clust = .ok g ∧
      mapperGraph X y' (w'.apply dflt' ρ') clust = .ok g' ∧ RenamedGraph id f g g' ∧
      (∀ L, g.IsNode L → g'.nodes.get? (f L) = g.nodes.get? L) ∧
      mapperConnectedComponents order X y (w.apply dflt ρ) clust = .ok out ∧
      mapperConnectedComponents order' X y' (w'.apply dflt' ρ') clust = .ok out' ∧
      SameComponents id X.length out out' := by
  have hsame := sameBoxes_of_moved H.intervals hb hmove
  obtain ⟨hst, hpr, _⟩ := C22_cubical_cover dflt ⟨w.params, none⟩ p H ρ y
  have fin : ∀ a b, w.apply dflt ρ y = .ok a → w'.apply dflt' ρ' y' = .ok b → SameCharts a b →
      WellFormedCharts y.length a → _ := fun a b h1 h2 hab hwf =>
    C86_graph X y y' (w.apply dflt ρ) (w'.apply dflt' ρ') clust a b h1 h2 hab
      (fun ids h => by rw [hlen]; exact (hwf ids h).2) ho
      (fun k ids h => by
        obtain ⟨l, hl⟩ := hs k (pointsOf X ids)
        exact ⟨l, h, hl⟩) order order' hord hord'
  rcases hk with hk | hk
  · obtain ⟨a, b, h1, h2, hab⟩ := applyProximity_pair dflt dflt' ⟨w.params, none⟩ ⟨w'.params, none⟩ ρ ρ'
      y y' hy p H H' hn hsame
    obtain ⟨a', h3, hwf, _⟩ := hpr
    rw [h1] at h3
    cases h3
    refine fin a b ?_ ?_ hab hwf
    · rw [(C28_delegates dflt w ρ y).1 hk]; exact h1
    · rw [(C28_delegates dflt' w' ρ' y').1 (ha ▸ hk)]; exact h2
  · obtain ⟨a, b, h1, h2, hab⟩ := applyStandard_pair dflt dflt' ⟨w.params, none⟩ ⟨w'.params, none⟩ ρ ρ'
      y y' hy p H H' hn hsame
    obtain ⟨a', h3, hwf, _⟩ := hst
    rw [h1] at h3
    cases h3
    refine fin a b ?_ ?_ hab hwf
    · rw [(C28_delegates dflt w ρ y).2.1 hk]; exact h1
    · rw [(C28_delegates dflt' w' ρ' y').2.1 (ha ▸ hk)]; exact h2

/-- Non-vacuity: two intervals of `[0, 4]` with overlap fraction `1/3`; the coordinate `1` is
measured as `5/4`, the second column is constant. -/
example : ∃ f g g' out out',
    mapperGraph [5, 6, -7] [pt2 0 7, pt2 1 7, pt2 4 7]
      (defaultCub.apply (fun _ => 1 / 3) fun _ => 0) parity = .ok g ∧
    mapperGraph [5, 6, -7] [pt2 0 7, pt2 (5 / 4) 7, pt2 4 7]
      (otherCub.apply (fun _ => 1 / 3) fun n => n) parity = .ok g' ∧ RenamedGraph id f g g' ∧
    (∀ L, g.IsNode L → g'.nodes.get? (f L) = g.nodes.get? L) ∧
    mapperConnectedComponents id [5, 6, -7] [pt2 0 7, pt2 1 7, pt2 4 7]
      (defaultCub.apply (fun _ => 1 / 3) fun _ => 0) parity = .ok out ∧
    mapperConnectedComponents id [5, 6, -7] [pt2 0 7, pt2 (5 / 4) 7, pt2 4 7]
      (otherCub.apply (fun _ => 1 / 3) fun n => n) parity = .ok out' ∧
    SameComponents id 3 out out' := by
  have hb : IsBounds [pt2 0 7, pt2 1 7, pt2 4 7] (pt2 0 7) (pt2 4 7) := by
    intro i
    refine ⟨⟨pt2 0 7, by simp, rfl⟩, ⟨pt2 4 7, by simp, rfl⟩, ?_⟩
    intro x hx
    simp only [List.mem_cons, List.not_mem_nil, or_false] at hx
    match i with
    | 0 => rcases hx with rfl | rfl | rfl <;> norm_num [pt2]
    | 1 => rcases hx with rfl | rfl | rfl <;> norm_num [pt2]
  refine C100_cubical (fun _ => 1 / 3) (fun _ => 1 / 3) defaultCub otherCub (1 / 3)
    ⟨rfl, by norm_num, by norm_num, by decide, Or.inl rfl, by decide⟩
    ⟨rfl, by norm_num, by norm_num, by decide, Or.inr rfl, by decide⟩ rfl rfl (Or.inr rfl)
    (fun _ => 0) (fun n => n) (1 / 4) ([5, 6, -7] : List ℤ) [pt2 0 7, pt2 1 7, pt2 4 7]
    [pt2 0 7, pt2 (5 / 4) 7, pt2 4 7] (by simp) rfl hb ⟨rfl, ?_⟩ parity
    parity_insensitive (fun _ _ => ⟨_, rfl⟩) id id (fun _ _ => Iff.rfl) (fun _ _ => Iff.rfl)
  intro k x x' hk hk' i
  have h1 := getElem?_lt hk
  simp only [List.length_cons, List.length_nil] at h1
  interval_cases k <;> simp at hk hk' <;> subst hk <;> subst hk'
  · exact Or.inl rfl
  · match i with
    | 1 => exact Or.inl rfl
    | 0 =>
      refine Or.inr ⟨by norm_num [Spread, pt2], by norm_num [pt2, abs_le], fun c => ?_⟩
      simp only [pt2, cellLeft, cellRight, boxWidth, defaultCub, if_true]
      norm_num
      rcases le_or_gt c 0 with h | h
      · have h' : (c : ℚ) ≤ 0 := by exact_mod_cast h
        refine ⟨lt_abs.mpr (Or.inl (by linarith)), lt_abs.mpr (Or.inl (by linarith)), ?_⟩
        rcases eq_or_lt_of_le h with rfl | h2
        · norm_num
        · have h2' : (c : ℚ) ≤ -1 := by exact_mod_cast Int.le_sub_one_of_lt h2
          exact lt_abs.mpr (Or.inl (by linarith))
      · have h' : (1 : ℚ) ≤ c := by exact_mod_cast h
        refine ⟨lt_abs.mpr (Or.inr (by linarith)), lt_abs.mpr (Or.inr (by linarith)),
          lt_abs.mpr (Or.inr (by linarith))⟩
  · exact Or.inl rfl

end cubical

end Verif

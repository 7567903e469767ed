import Verif.Proof.Local
import Verif.Props.Units

/-!
# C106: nodes are small, edges are short, equal rows are treated alike

The Mapper graph is a picture of the lens: near nodes hold rows with near values of the lens. With
`BallCover` and the cubical covers this is a bound, whatever the clustering; with `KNNCover` it is not.
-/

set_option autoImplicit false
set_option linter.unusedSectionVars false

namespace Verif

variable {S T : Type}

section ball
variable {R : Type} [AddCommGroup R] [LinearOrder R] [IsOrderedAddMonoid R]

/-- **C106 (balls).** With `BallCover`, whatever the clustering: rows of one node are at distance less
than twice the radius in the lens, rows of adjacent nodes less than four times the radius, and rows
of nodes `n` edges apart less than `2 (n + 1)` times the radius. -/
theorem C106_ball_partial (c : BallCover T R) (H : BallOK c.params) (hr : 0 < c.params.radius)
    (ρ : ℕ → ℕ) (X : List S) (y : List T) (hlen : X.length = y.length) (clust : ClustFn S)
    (hs : ∀ k xs, ∃ lbls, clust k xs = .ok lbls) :
    ∃ g, mapperGraph X y (c.apply ρ) clust = .ok g ∧
      StepsBounded g y c.params.metric (c.params.radius + c.params.radius) := by
  obtain ⟨charts, centres, h1, h2, _, _, h5, _⟩ := C18_ball_cover c H hr ρ y
  obtain ⟨g, eg, hg⟩ := stepsBounded_of_charts (R := R) X y hlen (c.apply ρ) clust charts h1
    (fun ids h => hlen ▸ (h2 ids h).2) (fun k ids h => by
      obtain ⟨l, hl⟩ := hs k (pointsOf X ids)
      exact ⟨l, h, hl⟩)
  refine ⟨g, eg, hg _ _ H.metric.triangle ?_⟩
  intro chart hchart i hi j hj yi yj h7 h8
  obtain ⟨k, hk, rfl⟩ := List.mem_iff_getElem.mp hchart
  obtain ⟨x, _, h9⟩ := h5.get (h5.length_eq ▸ hk) hk
  obtain ⟨_, h10, h11⟩ := (h9.2 i).mp hi
  obtain ⟨_, h12, h13⟩ := (h9.2 j).mp hj
  rw [h7] at h10; cases h10
  rw [h8] at h12; cases h12
  refine lt_of_le_of_lt (H.metric.triangle yi x yj) ?_
  rw [H.metric.symm yi x]
  exact add_lt_add h11 h13

/-- **C106 (balls, equal rows).** With `BallCover`, rows at distance zero in the lens, in particular
equal rows, are in the same charts, and in the same nodes of the graph with the trivial clustering. -/
theorem C106_ball_equal_partial (c : BallCover T R) (H : BallOK c.params)
    (hr : 0 < c.params.radius) (ρ : ℕ → ℕ) (X : List S) (y : List T) (hlen : X.length = y.length) :
    ∃ charts g, c.apply ρ y = .ok charts ∧
      mapperGraph X y (c.apply ρ) (fun _ => trivialClustering) = .ok g ∧
      ∀ (i j : ℕ) (yi yj : T), y[i]? = some yi → y[j]? = some yj → c.params.metric yi yj = 0 →
        (∀ chart ∈ charts, i ∈ chart ↔ j ∈ chart) ∧ SameNodes g i j := by
  obtain ⟨charts, centres, h1, h2, _, _, h5, _⟩ := C18_ball_cover c H hr ρ y
  obtain ⟨g, eg, hg⟩ := sameNodes_of_charts X y (c.apply ρ) charts h1
    (fun ids h => hlen ▸ (h2 ids h).2)
  refine ⟨charts, g, h1, eg, fun i j yi yj hi hj h0 => ?_⟩
  have key : ∀ chart ∈ charts, ∀ (i j : ℕ) (yi yj : T), y[i]? = some yi → y[j]? = some yj →
      c.params.metric yi yj = 0 → i ∈ chart → j ∈ chart := by
    intro chart hchart i j yi yj hi hj h0 h
    obtain ⟨k, hk, rfl⟩ := List.mem_iff_getElem.mp hchart
    obtain ⟨x, _, h9⟩ := h5.get (h5.length_eq ▸ hk) hk
    obtain ⟨_, h10, h11⟩ := (h9.2 i).mp h
    rw [hi] at h10; cases h10
    refine (h9.2 j).mpr ⟨yj, hj, lt_of_le_of_lt (H.metric.triangle x yi yj) ?_⟩
    rwa [h0, add_zero]
  have both : ∀ chart ∈ charts, i ∈ chart ↔ j ∈ chart := fun chart h =>
    ⟨key chart h i j yi yj hi hj h0, key chart h j i yj yi hj hi (by rw [H.metric.symm, h0])⟩
  exact ⟨both, hg i j both⟩

end ball

/-- Non-vacuity: temperatures with radius 5 and a clustering by parity that leaves out negative values. -/
example : ∃ g, mapperGraph [5, 6, -7, 8] [20, 24, 28, 32]
    ((ratBall 5 "flat").apply fun _ => 0) parity = .ok g ∧
    StepsBounded g [20, 24, 28, 32] (fun x y : ℚ => |x - y|) (5 + 5) :=
  C106_ball_partial (ratBall 5 "flat") (ratBall_ok _ _ (Or.inl rfl)) (by norm_num [ratBall])
    (fun _ => 0) ([5, 6, -7, 8] : List ℤ) [20, 24, 28, 32] rfl parity (fun _ _ => ⟨_, rfl⟩)

/-- A graph with two edges, so that the bound has walks of length two to speak about. -/
example : ∃ g, mapperGraph [5, 5, 5, 5, 5] [0, 2, 4, 6, 8] ((demoBall 3).apply fun _ => 0)
    (fun _ => trivialClustering) = .ok g ∧ g.Walk 2 0 2 ∧ g.HasRow 0 0 ∧ g.HasRow 2 4 := by
  refine ⟨_, rfl, ?_, ?_, ?_⟩
  · exact .cons (v := 1) ⟨_, rfl, by decide⟩ (.cons (v := 2) ⟨_, rfl, by decide⟩ (.nil _))
  · exact ⟨_, _, rfl, by decide⟩
  · exact ⟨_, _, rfl, by decide⟩

/-- Non-vacuity for equal rows: rows 0 and 2 have the same value. -/
example : ∃ charts g, (demoBall 3).apply (fun _ => 0) [4, 9, 4] = .ok charts ∧
    mapperGraph [1, 2, 3] [4, 9, 4] ((demoBall 3).apply fun _ => 0) (fun _ => trivialClustering) =
      .ok g ∧ (∀ chart ∈ charts, 0 ∈ chart ↔ 2 ∈ chart) ∧ SameNodes g 0 2 := by
  obtain ⟨charts, g, h1, h2, h3⟩ := C106_ball_equal_partial (demoBall 3) (demoBall_ok 3) (by decide)
    (fun _ => 0) [1, 2, 3] [4, 9, 4] rfl
  obtain ⟨h4, h5⟩ := h3 0 2 4 4 rfl rfl rfl
  exact ⟨charts, g, h1, h2, h4, h5⟩

section cubical
variable {R : Type} [Field R] [LinearOrder R] [IsStrictOrderedRing R] [FloorRing R] {m : ℕ}

/-- What both ways of making the charts of a cubical cover share. -/
theorem cubical_charts (dflt : ℕ → R) (c : CubicalCover m R) (p : R) (H : CubOK dflt m c.params p)
    (ha : c.algorithm = "proximity" ∨ c.algorithm = "standard") (ρ : ℕ → ℕ)
    (y : List (Fin m → R)) {lo hi : Fin m → R} (hb : IsBounds y lo hi) (hy : y ≠ []) :
    ∃ (cells : List (Fin m → ℤ)) (charts : List (List ℕ)), c.apply dflt ρ y = .ok charts ∧
      List.Forall₂ (fun cell chart =>
        ListsExactly y (InHypercube lo hi c.params.nIntervals p cell) chart ∧ chart ≠ [])
          cells charts := by
  obtain ⟨ps, alg, st⟩ := c
  rcases ha with rfl | rfl
  · obtain ⟨cells, out, e, _, _, h, _⟩ := applyProximity_ok dflt ⟨ps, none⟩ ρ y hy p H hb
    exact ⟨cells, out, e, h⟩
  · obtain ⟨cells, out, e, _, _, h, _⟩ := applyStandard_ok dflt ⟨ps, none⟩ ρ y hy p H hb
    exact ⟨cells, out, e, h⟩

/-- **C106 (cubical covers).** With `CubicalCover` of either algorithm, whatever the clustering: in
each column of the lens that is not constant, rows of one node differ by less than the width of the
intervals of that column, and rows of nodes `n` edges apart by less than `n + 1` times that width. -/
theorem C106_cubical_partial (dflt : ℕ → R) (c : CubicalCover m R) (p : R)
    (H : CubOK dflt m c.params p) (ha : c.algorithm = "proximity" ∨ c.algorithm = "standard")
    (ρ : ℕ → ℕ) (X : List S) (y : List (Fin m → R)) (hlen : X.length = y.length)
    {lo hi : Fin m → R} (hb : IsBounds y lo hi) (hy : y ≠ []) (clust : ClustFn S)
    (hs : ∀ k xs, ∃ lbls, clust k xs = .ok lbls) :
    ∃ g, mapperGraph X y (c.apply dflt ρ) clust = .ok g ∧
      ∀ k : Fin m, Spread lo hi k → StepsBounded g y (fun a b => |a k - b k|)
        (boxWidth (lo k) (hi k) c.params.nIntervals p) := by
  obtain ⟨cells, charts, h1, h2⟩ := cubical_charts dflt c p H ha ρ y hb hy
  obtain ⟨g, eg, hg⟩ := stepsBounded_of_charts (R := R) X y hlen (c.apply dflt ρ) clust charts h1
    (fun ids h => hlen ▸ (wellFormed_of_forall₂ h2 ids h).2) (fun k ids h => by
      obtain ⟨l, hl⟩ := hs k (pointsOf X ids)
      exact ⟨l, h, hl⟩)
  refine ⟨g, eg, fun k hk => hg _ _ (fun a b c => abs_sub_le _ _ _) ?_⟩
  intro chart hchart i hi' j hj yi yj h7 h8
  obtain ⟨q, hq, rfl⟩ := List.mem_iff_getElem.mp hchart
  obtain ⟨h9, _⟩ := h2.get (h2.length_eq ▸ hq) hq
  obtain ⟨_, h10, h11⟩ := (h9.2 i).mp hi'
  obtain ⟨_, h12, h13⟩ := (h9.2 j).mp hj
  rw [h7] at h10; cases h10
  rw [h8] at h12; cases h12
  have hlt : lo k < hi k := by
    have : (0 : R) < 1 / 2 ^ 52 := by positivity
    exact sub_pos.mp (this.trans hk)
  obtain ⟨_, hw, _⟩ := C23_overlap (lo k) (hi k) hlt c.params.nIntervals H.intervals p H.pos H.lt_one
  obtain ⟨a, b, hab, he⟩ := hw (cells.get ⟨q, h2.length_eq ▸ hq⟩ k)
  obtain ⟨a1, a2⟩ := (hab _).mp (h11 k hk)
  obtain ⟨b1, b2⟩ := (hab _).mp (h13 k hk)
  rw [abs_lt, ← he]
  constructor <;> linarith

/-- **C106 (cubical covers, equal rows).** With `CubicalCover` of either algorithm, equal rows of the
lens are in the same charts, and in the same nodes of the graph with the trivial clustering. -/
theorem C106_cubical_equal_partial (dflt : ℕ → R) (c : CubicalCover m R) (p : R)
    (H : CubOK dflt m c.params p) (ha : c.algorithm = "proximity" ∨ c.algorithm = "standard")
    (ρ : ℕ → ℕ) (X : List S) (y : List (Fin m → R)) (hlen : X.length = y.length) (hy : y ≠ []) :
    ∃ charts g, c.apply dflt ρ y = .ok charts ∧
      mapperGraph X y (c.apply dflt ρ) (fun _ => trivialClustering) = .ok g ∧
      ∀ (i j : ℕ) (yi : Fin m → R), y[i]? = some yi → y[j]? = some yi →
        (∀ chart ∈ charts, i ∈ chart ↔ j ∈ chart) ∧ SameNodes g i j := by
  obtain ⟨lo, hi, hb⟩ := exists_bounds y hy
  obtain ⟨cells, charts, h1, h2⟩ := cubical_charts dflt c p H ha ρ y hb hy
  obtain ⟨g, eg, hg⟩ := sameNodes_of_charts X y (c.apply dflt ρ) charts h1
    (fun ids h => hlen ▸ (wellFormed_of_forall₂ h2 ids h).2)
  refine ⟨charts, g, h1, eg, fun i j yi hi' hj => ?_⟩
  have both : ∀ chart ∈ charts, i ∈ chart ↔ j ∈ chart := by
    intro chart hchart
    obtain ⟨q, hq, rfl⟩ := List.mem_iff_getElem.mp hchart
    obtain ⟨h9, _⟩ := h2.get (h2.length_eq ▸ hq) hq
    refine (h9.2 i).trans (Iff.trans ?_ (h9.2 j).symm)
    rw [hi', hj]
  exact ⟨both, hg i j both⟩

end cubical

/-- Non-vacuity: rows of the plane, a constant column apart. -/
example : ∃ g, mapperGraph [5, 6, -7] [pt2 0 7, pt2 2 7, pt2 4 7]
    (CubicalCover.apply (fun _ => 0) ⟨demoCub.params, "standard", none⟩ fun _ => 0) parity = .ok g ∧
    StepsBounded g [pt2 0 7, pt2 2 7, pt2 4 7] (fun a b => |a 0 - b 0|) (boxWidth 0 4 2 (1 / 3)) := by
  obtain ⟨g, e, h⟩ := C106_cubical_partial (fun _ => 0) ⟨demoCub.params, "standard", none⟩ (1 / 3)
    demoCub_ok (Or.inr rfl) (fun _ => 0) ([5, 6, -7] : List ℤ) [pt2 0 7, pt2 2 7, pt2 4 7] rfl
    (lo := pt2 0 7) (hi := pt2 4 7) (by
      intro i
      fin_cases i <;> norm_num [pt2]) (by simp) parity (fun _ _ => ⟨_, rfl⟩)
  exact ⟨g, e, h 0 (by norm_num [Spread, pt2])⟩

/-- Non-vacuity for equal rows of the plane. -/
example : ∃ charts g, CubicalCover.apply (fun _ => 0) ⟨demoCub.params, "proximity", none⟩ (fun _ => 0)
      [pt2 0 7, pt2 2 7, pt2 0 7] = .ok charts ∧
    mapperGraph ([1, 2, 3] : List ℕ) [pt2 0 7, pt2 2 7, pt2 0 7]
      (CubicalCover.apply (fun _ => 0) ⟨demoCub.params, "proximity", none⟩ fun _ => 0)
      (fun _ => trivialClustering) = .ok g ∧ SameNodes g 0 2 := by
  obtain ⟨charts, g, h1, h2, h3⟩ := C106_cubical_equal_partial (fun _ => 0)
    ⟨demoCub.params, "proximity", none⟩ (1 / 3) demoCub_ok (Or.inl rfl) (fun _ => 0) ([1, 2, 3] : List ℕ)
    [pt2 0 7, pt2 2 7, pt2 0 7] rfl (by simp)
  exact ⟨charts, g, h1, h2, (h3 0 2 _ rfl rfl).2⟩

/-- **C106 (nearest neighbours, violation).** With `KNNCover` there is no bound: for every number of
neighbours from two on and every distance there is a dataset with rows that far apart in one node. -/
theorem C106_knn_violation (k : ℕ) (hk : 2 ≤ k) (D : ℤ) (ρ : ℕ → ℕ) :
    ∃ (y : List ℤ) (g : NxGraph) (u : ℤ) (i j : ℕ) (yi yj : ℤ),
      mapperGraph y y ((demoKnn k).apply ρ) (fun _ => trivialClustering) = .ok g ∧
      g.HasRow u i ∧ g.HasRow u j ∧ y[i]? = some yi ∧ y[j]? = some yj ∧ D ≤ absDist yi yj := by
  obtain ⟨charts, h1, h2, h3, h4⟩ := C20_knn_cover_partial (demoKnn k) (demoKnn_ok k (by omega)) ρ
    [0, D] (fun x _ => le_trans List.countP_le_length hk)
  have hg : GoodCharts [0, D].length charts := fun ids h => (h2 ids h).2
  obtain ⟨itm, g, e, eg, hrow, _⟩ := hasRow_iff [0, D] [0, D] ((demoKnn k).apply ρ) _ charts h1 hg
    (trivial_succeeds _ _)
  obtain ⟨itm1, off, e1, _, _, hcar, _⟩ := C32_labels_faithful [0, D] [0, D] ((demoKnn k).apply ρ) _
    charts h1 hg (trivial_succeeds _ _)
  rw [e] at e1; cases e1
  obtain ⟨chart, h5, h6⟩ := h3 0 (by simp)
  obtain ⟨x, _, hnd, hl, hlt, _⟩ := h4 chart h5
  obtain ⟨c, hc, rfl⟩ := List.mem_iff_getElem.mp h5
  have h7 : 1 ∈ charts[c] := by
    by_contra h
    have hsub : charts[c] ⊆ [0] := by
      intro a ha
      have := hlt a ha
      have h8 : a ≠ 1 := fun h9 => h (h9 ▸ ha)
      simp only [List.length_cons, List.length_nil] at this
      simp; omega
    have := (List.subperm_of_subset hnd hsub).length_le
    rw [hl] at this
    simp [demoKnn] at this
    omega
  refine ⟨[0, D], g, off c + 0, 0, 1, 0, D, eg, ?_, ?_, rfl, rfl, ?_⟩
  · exact (hrow _ _).mpr ((hcar _ _).mpr ⟨c, 0, (trivial_localLabel _ hg).mpr
      ⟨_, List.getElem?_eq_getElem hc, h6, rfl⟩, le_rfl, rfl⟩)
  · exact (hrow _ _).mpr ((hcar _ _).mpr ⟨c, 0, (trivial_localLabel _ hg).mpr
      ⟨_, List.getElem?_eq_getElem hc, h7, rfl⟩, le_rfl, rfl⟩)
  · unfold absDist
    simp only [zero_sub, abs_neg]
    exact le_abs_self D

/-- **C106 (nearest neighbours, equal rows, violation).** With `KNNCover` equal rows of the lens need
not be in the same nodes: with one neighbour, the first of two equal rows is in two nodes, the second
in none. -/
theorem C106_knn_equal_violation :
    ∃ (y : List ℤ) (g : NxGraph) (yi : ℤ),
      mapperGraph y y ((demoKnn 1).apply fun _ => 0) (fun _ => trivialClustering) = .ok g ∧
      y[0]? = some yi ∧ y[1]? = some yi ∧ g.HasRow 0 0 ∧ ¬ SameNodes g 0 1 := by
  refine ⟨[7, 7], _, 7, rfl, rfl, rfl, ⟨_, _, rfl, by decide⟩, fun h => ?_⟩
  obtain ⟨size, ids, h1, h2⟩ := (h 0).mp ⟨_, _, rfl, by decide⟩
  cases h1
  revert h2
  decide

end Verif

import Verif.Proof.Size
import Verif.Props.Local
import Verif.Props.Refine

/-!
# C113: how large Mapper graphs can get

The numbers of nodes, of rows in them and of edges decide how much memory a graph takes and how long
it takes to draw. Cubical covers bound them all by the number of rows, the number of columns of the
lens and the overlap; `BallCover` and `KNNCover` do not bound the number of edges: it can grow with
the square of the number of rows.
-/

set_option autoImplicit false
set_option linter.unusedSectionVars false

namespace Verif

variable {S T : Type}

/-- **C113 (any cover, any clustering).** A row has at most as many labels as it is in charts. The
sizes of the nodes add up to the numbers of labels of the rows, and to at most the sizes of the
charts. There are at most that many nodes. A row with `k` labels accounts for at most `k (k - 1) / 2`
edges. -/
theorem C113_counts (X : List S) (y : List T) (cover : CoverFn T) (clust : ClustFn S)
    (charts : List (List ℕ)) (hc : cover y = .ok charts) (hg : GoodCharts X.length charts)
    (hs : ClusteringSucceeds X charts clust) :
    ∃ itm g, mapperLabels X y cover clust = .ok itm ∧ mapperGraph X y cover clust = .ok g ∧
      (∀ (i : ℕ) lbls, itm[i]? = some lbls → lbls.length ≤ chartsWith charts i) ∧
      g.totalSize = (itm.map List.length).sum ∧ g.totalSize ≤ (charts.map List.length).sum ∧
      g.order ≤ g.totalSize ∧
      g.totalDegree ≤ (itm.map fun lbls => lbls.length * (lbls.length - 1)).sum := by
  obtain ⟨itm, g, h1, h2, h3, h4, h5, h6, h7⟩ := counts X y cover clust charts hc hg hs
  exact ⟨itm, g, h1, h2, h7, h4, h4 ▸ sum_labels_le hg itm h3 h7, h5, h6⟩

/-- Non-vacuity: a clustering by parity that leaves out negative values, so that the sizes of the
nodes add up to less than the sizes of the charts. -/
example : ∃ itm g, mapperLabels [5, 6, -7, 8] [20, 24, 28, 32] ((ratBall 5 "flat").apply fun _ => 0)
      parity = .ok itm ∧
    mapperGraph [5, 6, -7, 8] [20, 24, 28, 32] ((ratBall 5 "flat").apply fun _ => 0) parity = .ok g ∧
    g.totalSize = (itm.map List.length).sum ∧
    g.totalDegree ≤ (itm.map fun lbls => lbls.length * (lbls.length - 1)).sum := by
  obtain ⟨charts, _, h1, h2, _⟩ := C18_ball_cover (ratBall 5 "flat") (ratBall_ok _ _ (Or.inl rfl))
    (by norm_num [ratBall]) (fun _ => 0) [20, 24, 28, 32]
  obtain ⟨itm, g, h3, h4, _, h5, _, _, h6⟩ := C113_counts ([5, 6, -7, 8] : List ℤ)
    [20, 24, 28, 32] ((ratBall 5 "flat").apply fun _ => 0) parity charts h1
    (fun ids h => (h2 ids h).2) (fun k ids h => ⟨_, h, rfl⟩)
  exact ⟨itm, g, h3, h4, h5, h6⟩

section cubical
variable {R : Type} [Field R] [LinearOrder R] [IsStrictOrderedRing R] [FloorRing R] {m : ℕ}

/-- The charts of cubical covers with either algorithm, and their cells. -/
theorem cubical_cells (dflt : ℕ → R) (c : CubicalCover m R) (p : R) (H : CubOK dflt m c.params p)
    (ha : c.algorithm = "proximity" ∨ c.algorithm = "standard") (ρ : ℕ → ℕ)
    (y : List (Fin m → R)) {lo hi : Fin m → R} (hb : IsBounds y lo hi) (hy : y ≠ []) :
    ∃ (cells : List (Fin m → ℤ)) (charts : List (List ℕ)), c.apply dflt ρ y = .ok charts ∧
      cells.Nodup ∧ (∀ cell ∈ cells, ∃ x ∈ y, IsCell lo hi c.params.nIntervals x cell) ∧
      List.Forall₂ (fun cell chart =>
        ListsExactly y (InHypercube lo hi c.params.nIntervals p cell) chart ∧ chart ≠ [])
          cells charts := by
  obtain ⟨ps, alg, st⟩ := c
  rcases ha with rfl | rfl
  · obtain ⟨cells, out, e, h1, h2, h, _⟩ := applyProximity_ok dflt ⟨ps, none⟩ ρ y hy p H hb
    exact ⟨cells, out, e, h1, h2, h⟩
  · obtain ⟨cells, out, e, h1, h2, h, _⟩ := applyStandard_ok dflt ⟨ps, none⟩ ρ y hy p H hb
    exact ⟨cells, out, e, h1, fun cell h => (h2 cell).mp h, h⟩

/-- **C113 (cubical covers).** Let `s` be the number of columns of the lens that are not constant and
`K` be `1 / (1 - overlap_frac)` rounded up. With `CubicalCover` of either algorithm there are at most
as many charts as rows, and at most `n_intervals ^ s`. Every row is in at most `K ^ s` of them.
Whatever the clustering, a row has at most `K ^ s` labels, the sizes of the nodes add up to at most
`K ^ s` times the number of rows, and the numbers of neighbours to at most `K ^ s (K ^ s - 1)` times
the number of rows: the graph grows at most in proportion to the data. -/
theorem C113_cubical (dflt : ℕ → R) (c : CubicalCover m R) (p : R) (H : CubOK dflt m c.params p)
    (ha : c.algorithm = "proximity" ∨ c.algorithm = "standard") (ρ : ℕ → ℕ) (X : List S)
    (y : List (Fin m → R)) (hlen : X.length = y.length) {lo hi : Fin m → R} (hb : IsBounds y lo hi)
    (hy : y ≠ []) (clust : ClustFn S) (hs : ∀ k xs, ∃ lbls, clust k xs = .ok lbls) :
    ∃ charts itm g, c.apply dflt ρ y = .ok charts ∧
      mapperLabels X y (c.apply dflt ρ) clust = .ok itm ∧
      mapperGraph X y (c.apply dflt ρ) clust = .ok g ∧
      charts.length ≤ X.length ∧ charts.length ≤ c.params.nIntervals ^ spreadColumns lo hi ∧
      (∀ i, chartsWith charts i ≤ maxIntervals p ^ spreadColumns lo hi) ∧
      (∀ lbls ∈ itm, lbls.length ≤ maxIntervals p ^ spreadColumns lo hi) ∧
      g.totalSize ≤ X.length * maxIntervals p ^ spreadColumns lo hi ∧
      g.totalDegree ≤ X.length * (maxIntervals p ^ spreadColumns lo hi *
        (maxIntervals p ^ spreadColumns lo hi - 1)) := by
  obtain ⟨cells, charts, h1, h2, h3, h4⟩ := cubical_cells dflt c p H ha ρ y hb hy
  have hcard := card_cells H.intervals y cells h2 h3
  have hcw := chartsWith_le H.intervals H.lt_one y cells h2 h3 charts h4
  obtain ⟨itm, g, e1, e2, hl, h5, _, h6, h7⟩ := counts X y (c.apply dflt ρ) clust charts h1
    (fun ids h => hlen ▸ (wellFormed_of_forall₂ h4 ids h).2) (fun k ids h => by
      obtain ⟨l, hl⟩ := hs k (pointsOf X ids)
      exact ⟨l, h, hl⟩)
  have h8 : ∀ lbls ∈ itm, lbls.length ≤ maxIntervals p ^ spreadColumns lo hi := by
    intro lbls h
    obtain ⟨i, hi'⟩ := List.mem_iff_getElem?.mp h
    exact (h7 i lbls hi').trans (hcw i)
  have hsum : ∀ (f : List ℤ → ℕ) (B : ℕ), (∀ lbls ∈ itm, f lbls ≤ B) →
      (itm.map f).sum ≤ X.length * B := by
    intro f B hB
    rw [← hl, ← List.length_map (f := f) (as := itm)]
    refine List.sum_le_card_nsmul _ _ fun a ha => ?_
    obtain ⟨l, h, rfl⟩ := List.mem_map.mp ha
    exact hB l h
  rw [h4.length_eq] at hcard
  refine ⟨charts, itm, g, h1, e1, e2, hlen ▸ hcard.1, hcard.2, hcw, h8, ?_, ?_⟩
  · rw [h5]; exact hsum _ _ h8
  · exact h6.trans (hsum _ _ fun l h => Nat.mul_le_mul (h8 l h) (Nat.sub_le_sub_right (h8 l h) 1))

/-- **C113 (cubical covers, neighbours).** With the trivial clustering, a node has at most
`(2 K - 1) ^ s - 1` neighbours, however large the data. -/
theorem C113_cubical_degree (dflt : ℕ → R) (c : CubicalCover m R) (p : R)
    (H : CubOK dflt m c.params p) (ha : c.algorithm = "proximity" ∨ c.algorithm = "standard")
    (ρ : ℕ → ℕ) (X : List S) (y : List (Fin m → R)) (hlen : X.length = y.length)
    {lo hi : Fin m → R} (hb : IsBounds y lo hi) (hy : y ≠ []) :
    ∃ g, mapperGraph X y (c.apply dflt ρ) (fun _ => trivialClustering) = .ok g ∧
      g.order ≤ X.length ∧ g.order ≤ c.params.nIntervals ^ spreadColumns lo hi ∧
      ∀ u, g.IsNode u → g.degree u < (2 * maxIntervals p - 1) ^ spreadColumns lo hi := by
  obtain ⟨cells, charts, h1, h2, h3, h4⟩ := cubical_cells dflt c p H ha ρ y hb hy
  have hcard := card_cells H.intervals y cells h2 h3
  obtain ⟨g, e, hN, ho, hd⟩ := nerve_degree X y (c.apply dflt ρ) charts h1
    (hlen ▸ wellFormed_of_forall₂ h4)
  refine ⟨g, e, ho ▸ h4.length_eq ▸ hlen ▸ hcard.1, ho ▸ h4.length_eq ▸ hcard.2, fun u hu => ?_⟩
  obtain ⟨k, hk, rfl⟩ := (hN.node u).mp hu
  rw [hd k _ (List.getElem?_eq_getElem hk)]
  have hk' : k < cells.length := h4.length_eq ▸ hk
  have hzero : ∀ cell ∈ cells, ∀ i, ¬ Spread lo hi i → cell i = 0 := by
    intro cell h i hi'
    obtain ⟨x, _, hx⟩ := h3 cell h
    exact (hx i).2 hi'
  obtain ⟨s, hs1, hs2, hs3⟩ := card_meeting (n := c.params.nIntervals) H.intervals H.lt_one cells[k]
    (hzero _ (List.getElem_mem hk'))
  refine lt_of_lt_of_le ?_ hs1
  rw [← Finset.card_erase_add_one hs2, Nat.lt_succ_iff]
  apply Finset.card_le_card_of_injOn fun k => (cells[k]?).getD fun _ => 0
  · intro k2 h
    obtain ⟨h5, h6, i, h7, h8⟩ := Finset.mem_filter.mp (Finset.mem_coe.mp h)
    have h5 := Finset.mem_range.mp h5
    have h5' : k2 < cells.length := h4.length_eq ▸ h5
    rw [List.getElem?_eq_getElem h5] at h8
    simp only [List.getElem?_eq_getElem h5', Option.getD_some]
    obtain ⟨a1, _⟩ := h4.get hk' hk
    obtain ⟨b1, _⟩ := h4.get h5' h5
    obtain ⟨z, hz, hz1⟩ := (a1.2 i).mp h7
    obtain ⟨z', hz', hz2⟩ := (b1.2 i).mp h8
    rw [hz] at hz'; cases hz'
    rw [Finset.mem_coe, Finset.mem_erase]
    refine ⟨fun he => h6 ?_, hs3 _ (hzero _ (List.getElem_mem h5')) ⟨z, hz1, hz2⟩⟩
    exact ((List.Nodup.getElem_inj_iff h2).mp he).symm
  · intro a ha' b hb' hab
    have ha := h4.length_eq.symm ▸ Finset.mem_range.mp (Finset.mem_filter.mp (Finset.mem_coe.mp ha')).1
    have hb := h4.length_eq.symm ▸ Finset.mem_range.mp (Finset.mem_filter.mp (Finset.mem_coe.mp hb')).1
    simp only [List.getElem?_eq_getElem ha, List.getElem?_eq_getElem hb, Option.getD_some] at hab
    exact (List.Nodup.getElem_inj_iff h2).mp hab

/-- **C113 (overlaps up to one half).** For the overlaps that raise no warning, `K` is two: a row is
in at most `2 ^ s` charts and a node has at most `3 ^ s - 1` neighbours. -/
theorem C113_half {p : R} (h0 : 0 < p) (h1 : p ≤ 1 / 2) : maxIntervals p = 2 := by
  have h2 : 0 < 1 - p := by linarith
  have : ⌈1 / (1 - p)⌉ = 2 := by
    rw [Int.ceil_eq_iff]
    constructor
    · rw [lt_div_iff₀ h2]; push_cast; linarith
    · rw [div_le_iff₀ h2]; push_cast; linarith
  unfold maxIntervals
  rw [this]; rfl

end cubical

/-- Non-vacuity: rows of the plane, one column constant, so that `s = 1` and `K = 2`. -/
example : ∃ g, mapperGraph [5, 6, -7] [pt2 0 7, pt2 2 7, pt2 4 7]
    (CubicalCover.apply (fun _ => 0) ⟨demoCub.params, "standard", none⟩ fun _ => 0) parity = .ok g ∧
    g.totalSize ≤ 6 ∧ g.totalDegree ≤ 6 := by
  have hsp : spreadColumns (pt2 0 7) (pt2 4 7) = 1 := by decide +kernel
  have hK : maxIntervals (1 / 3 : ℚ) = 2 := C113_half (by norm_num) (by norm_num)
  obtain ⟨_, _, g, _, _, e, _, _, _, _, h1, h2⟩ := C113_cubical (fun _ => 0)
    ⟨demoCub.params, "standard", none⟩ (1 / 3)
    demoCub_ok (Or.inr rfl) (fun _ => 0) ([5, 6, -7] : List ℤ) [pt2 0 7, pt2 2 7, pt2 4 7] rfl
    (lo := pt2 0 7) (hi := pt2 4 7) (by
      intro i
      fin_cases i <;> norm_num [pt2]) (by simp) parity (fun _ _ => ⟨_, rfl⟩)
  rw [hsp, hK] at h1 h2
  exact ⟨g, e, h1, h2⟩

/-- Four rows on a line. -/
def sizeRows : List (Fin 1 → ℚ) := [0, 1, 2, 3].map fun x _ => x

def sizeCub : CubicalCover 1 ℚ := ⟨(cubOf 3 (1 / 2)).params, "standard", none⟩

/-- The bounds are reached: on a line, a row in two charts and a node with two neighbours. -/
example : ((sizeCub.apply (fun _ => 0) (fun _ => 0) sizeRows).toOption.map fun charts =>
      chartsWith charts 1) = some 2 ∧
    ((mapperGraph sizeRows sizeRows (sizeCub.apply (fun _ => 0) fun _ => 0)
      (fun _ => trivialClustering)).toOption.map fun g => g.degree 1) = some 2 := by
  constructor <;> decide +kernel

section ball
variable {R : Type} [AddCommGroup R] [LinearOrder R] [IsOrderedAddMonoid R]

/-- **C113 (balls).** With `BallCover` there are at most as many charts as rows, so with the trivial
clustering at most as many nodes as rows. Missing: bounds on the number of charts a row is in and on
the number of edges, see `C113_ball_violation`. -/
theorem C113_ball_partial (c : BallCover T R) (H : BallOK c.params) (hr : 0 < c.params.radius)
    (ρ : ℕ → ℕ) (X : List S) (y : List T) (hlen : X.length = y.length) :
    ∃ charts g, c.apply ρ y = .ok charts ∧
      mapperGraph X y (c.apply ρ) (fun _ => trivialClustering) = .ok g ∧
      charts.length ≤ X.length ∧ g.order = charts.length := by
  obtain ⟨charts, centres, h1, h2, _, h4, h5, _⟩ := C18_ball_cover c H hr ρ y
  obtain ⟨g, e, _, ho, _⟩ := nerve_degree X y (c.apply ρ) charts h1 (hlen ▸ h2)
  refine ⟨charts, g, h1, e, ?_, ho⟩
  rw [← h5.length_eq, hlen, ← List.length_range (n := y.length)]
  refine (List.subperm_of_subset (h4.imp fun h => h.ne) fun i hi => ?_).length_le
  obtain ⟨k, hk, rfl⟩ := List.mem_iff_getElem.mp hi
  obtain ⟨x, hx, _⟩ := h5.get hk (h5.length_eq ▸ hk)
  exact List.mem_range.mpr (List.getElem?_eq_some_iff.mp hx).1

/-- **C113 (nearest neighbours).** With `KNNCover` there are at most as many charts as rows, each of
`k` rows (or of all rows, if they are fewer). Whatever the clustering, the sizes of the nodes add up
to at most `k` times the number of rows. Missing: bounds on the number of charts a row is in and on
the number of edges, see `C113_knn_violation`. -/
theorem C113_knn_partial (c : KnnCover T R) (H : KnnOK c.params) (ρ : ℕ → ℕ) (X : List S)
    (y : List T) (hlen : X.length = y.length) (clust : ClustFn S)
    (hs : ∀ k xs, ∃ lbls, clust k xs = .ok lbls) :
    ∃ charts g, c.apply ρ y = .ok charts ∧ mapperGraph X y (c.apply ρ) clust = .ok g ∧
      charts.length ≤ X.length ∧ (∀ chart ∈ charts, chart.length = min c.params.neighbors X.length) ∧
      g.order ≤ g.totalSize ∧ g.totalSize ≤ X.length * c.params.neighbors := by
  obtain ⟨c', h1, h2⟩ := knnFit_ok c H.metric H.kind H.neighbors ρ y
  obtain ⟨charts, e, hl, hch⟩ : ∃ charts, c.apply ρ y = .ok charts ∧ charts.length ≤ y.length ∧
      ∀ chart ∈ charts, ∃ x, NearestIndices c.params.metric x c.params.neighbors y chart := by
    cases y with
    | nil =>
      refine ⟨[], ?_, by simp, by simp⟩
      simp [KnnCover.apply, proximityNet, h1, proximityLoop]
    | cons x₀ xs =>
      choose f hf hl using h2 (by simp)
      obtain ⟨out, cs, e, hs, hm, ho⟩ := C29_proximity_net (c.fit ρ) KnnCover.search (x₀ :: xs) c' h1
        (fun i => f (((x₀ :: xs)[i]?).getD x₀)) (fun i x hx => by rw [hx]; exact hf x)
      refine ⟨out, e, ?_, fun chart h => ?_⟩
      · rw [ho]
        refine (List.length_filter_le _ _).trans ?_
        rw [List.length_map, ← List.length_range (n := (x₀ :: xs).length)]
        exact (List.subperm_of_subset (hs.imp fun h => h.ne) fun i hi =>
          List.mem_range.mpr ((hm i).mp hi).1).length_le
      · rw [ho] at h
        obtain ⟨i, _, rfl⟩ := List.mem_map.mp (List.mem_filter.mp h).1
        exact ⟨_, hl _⟩
  have hg : GoodCharts X.length charts := by
    intro ids h
    obtain ⟨x, h3, _, h4, _⟩ := hch ids h
    exact ⟨h3, hlen ▸ h4⟩
  have hmin : ∀ chart ∈ charts, chart.length = min c.params.neighbors X.length := by
    intro chart h
    obtain ⟨x, _, h3, _⟩ := hch chart h
    rw [h3, hlen]
  obtain ⟨itm, g, _, eg, _, _, h3, h4, _⟩ := C113_counts X y (c.apply ρ) clust charts e hg
    (fun k ids h => by
      obtain ⟨l, hl⟩ := hs k (pointsOf X ids)
      exact ⟨l, h, hl⟩)
  refine ⟨charts, g, e, eg, hlen ▸ hl, hmin, h4, h3.trans ?_⟩
  have : (charts.map List.length).sum ≤ (charts.map List.length).length * c.params.neighbors := by
    refine List.sum_le_card_nsmul _ _ fun a ha => ?_
    obtain ⟨l, h, rfl⟩ := List.mem_map.mp ha
    rw [hmin l h]; exact min_le_left _ _
  rw [List.length_map] at this
  exact this.trans (Nat.mul_le_mul_right _ (hlen ▸ hl))

end ball

/-- Non-vacuity for both. -/
example : ∃ charts g, (demoBall 3).apply (fun _ => 0) [4, 9, 4, 6] = .ok charts ∧
    mapperGraph [1, 2, 3, 4] [4, 9, 4, 6] ((demoBall 3).apply fun _ => 0)
      (fun _ => trivialClustering) = .ok g ∧ charts.length ≤ 4 ∧ g.order = charts.length :=
  C113_ball_partial (demoBall 3) (demoBall_ok 3) (by decide) (fun _ => 0) [1, 2, 3, 4] [4, 9, 4, 6] rfl

example : ∃ charts g, (demoKnn 2).apply (fun _ => 0) [4, 9, 4, 6] = .ok charts ∧
    mapperGraph [1, 2, -3, 4] [4, 9, 4, 6] ((demoKnn 2).apply fun _ => 0) parity = .ok g ∧
    charts.length ≤ 4 ∧ (∀ chart ∈ charts, chart.length = min 2 4) ∧ g.order ≤ g.totalSize ∧
    g.totalSize ≤ 4 * 2 :=
  C113_knn_partial (demoKnn 2) (demoKnn_ok 2 (by decide)) (fun _ => 0) ([1, 2, -3, 4] : List ℤ)
    [4, 9, 4, 6] rfl parity (fun _ _ => ⟨_, rfl⟩)

/-- The distance between places that are all joined to the place 0 and to nothing else, by roads of
length 1. -/
def starDist (a b : ℕ) : ℤ := if a = b then 0 else if a = 0 ∨ b = 0 then 1 else 2

theorem starDist_pseudo : PseudoMetric starDist := by
  refine ⟨?_, ?_, ?_⟩
  · intro a; simp [starDist]
  · intro a b; unfold starDist; split_ifs <;> simp_all
  · intro a b c; unfold starDist; split_ifs <;> simp_all

theorem starDist_succ {a b : ℕ} (h : a ≠ b) : starDist (a + 1) (b + 1) = 2 := by
  simp [starDist, h]

/-- The places `1, …, N`, then the place 0. -/
def starRows (N : ℕ) : List ℕ := (List.range N).map (· + 1) ++ [0]

theorem starRows_length (N : ℕ) : (starRows N).length = N + 1 := by simp [starRows]

theorem starRows_lt {N i : ℕ} (h : i < N) : (starRows N)[i]? = some (i + 1) := by
  rw [starRows, List.getElem?_append_left (by simpa using h)]; simp [h]

theorem starRows_last (N : ℕ) : (starRows N)[N]? = some 0 := by
  rw [starRows, List.getElem?_append_right (by simp)]; simp

def starBall : BallCover ℕ ℤ := ⟨⟨2, starDist, "flat", 1, none, "disabled"⟩, none⟩

def starKnn : KnnCover ℕ ℤ := ⟨⟨2, starDist, "flat", none, 0, "disabled"⟩, none⟩

/-- **C113 (balls, violation).** With `BallCover` neither the number of charts of a row nor the number
of edges is bounded in terms of the number of rows and the radius: for every `N` there are `N + 1` rows
whose graph has `N` nodes, each with the last row, and all adjacent to each other. -/
theorem C113_ball_violation (N : ℕ) (hN : 1 ≤ N) (ρ : ℕ → ℕ) :
    (starRows N).length = N + 1 ∧
    ∃ g, mapperGraph (starRows N) (starRows N) (starBall.apply ρ) (fun _ => trivialClustering) = .ok g ∧
      g.order = N ∧ ∀ u, g.IsNode u → g.HasRow u N ∧ g.degree u = N - 1 := by
  refine ⟨starRows_length N, ?_⟩
  obtain ⟨c', h1, h2⟩ := ballFit_ok starBall starDist_pseudo (Or.inl rfl) (le_refl 1) ρ (starRows N)
  choose f hf hl using h2 (List.ne_nil_of_length_pos (by rw [starRows_length]; omega))
  have hres : ∀ i, i < N → (f (((starRows N)[i]?).getD 0)).Nodup ∧
      ∀ j, j ∈ f (((starRows N)[i]?).getD 0) ↔ j = i ∨ j = N := by
    intro i hi
    rw [starRows_lt hi, Option.getD_some]
    refine ⟨(hl (i + 1)).1, fun j => ?_⟩
    rw [(hl (i + 1)).2 j]
    rcases Nat.lt_trichotomy j N with h | h | h
    · rw [starRows_lt h]
      simp only [Option.some.injEq, exists_eq_left']
      change starDist (i + 1) (j + 1) < (2 : ℤ) ↔ _
      by_cases hij : i = j
      · simp [hij, starDist]
      · rw [starDist_succ hij]; omega
    · subst h
      rw [starRows_last]
      simp [starBall, starDist]
    · rw [List.getElem?_eq_none (by rw [starRows_length]; omega)]
      simp; omega
  exact star_graph (starRows N) (starRows N) (starBall.apply ρ) N (starRows_length N) _
    (star_net (starBall.fit ρ) BallCover.search (starRows N) c' h1 _
      (fun i x hx => by rw [hx]; exact hf x) N (starRows_length N) hN hres) hres

/-- **C113 (nearest neighbours, violation).** Nor is it with `KNNCover`, already with two neighbours. -/
theorem C113_knn_violation (N : ℕ) (hN : 1 ≤ N) (ρ : ℕ → ℕ) :
    (starRows N).length = N + 1 ∧
    ∃ g, mapperGraph (starRows N) (starRows N) (starKnn.apply ρ) (fun _ => trivialClustering) = .ok g ∧
      g.order = N ∧ ∀ u, g.IsNode u → g.HasRow u N ∧ g.degree u = N - 1 := by
  refine ⟨starRows_length N, ?_⟩
  obtain ⟨c', h1, h2⟩ := knnFit_ok starKnn starDist_pseudo (Or.inl rfl) (by decide) ρ (starRows N)
  choose f hf hl using h2 (List.ne_nil_of_length_pos (by rw [starRows_length]; omega))
  have hres : ∀ i, i < N → (f (((starRows N)[i]?).getD 0)).Nodup ∧
      ∀ j, j ∈ f (((starRows N)[i]?).getD 0) ↔ j = i ∨ j = N := by
    intro i hi
    rw [starRows_lt hi, Option.getD_some]
    obtain ⟨hnd, hlen, hlt, hnear⟩ := hl (i + 1)
    rw [starRows_length] at hlen hlt
    have hlen : (f (i + 1)).length = 2 := by rw [hlen]; simp [starKnn]; omega
    have hsub : ∀ j ∈ f (i + 1), j = i ∨ j = N := by
      intro j hj
      by_contra h
      obtain ⟨h3, h4⟩ := not_or.mp h
      have hjN : j < N := by have := hlt j hj; omega
      have hd2 := starDist_succ (Ne.symm h3)
      have hin : ∀ k xk, (starRows N)[k]? = some xk → starDist (i + 1) xk < 2 → k ∈ f (i + 1) := by
        intro k xk hk hlt2
        by_contra hk'
        have : starDist (i + 1) (j + 1) ≤ starDist (i + 1) xk :=
          hnear j hj k hk' _ _ (starRows_lt hjN) hk
        omega
      have hi' := hin i _ (starRows_lt hi) (by simp [starDist])
      have hN' := hin N _ (starRows_last N) (by simp [starDist])
      have hthree : [i, j, N] ⊆ f (i + 1) := by
        intro k hk
        simp only [List.mem_cons, List.not_mem_nil, or_false] at hk
        rcases hk with rfl | rfl | rfl <;> assumption
      have hnd3 : [i, j, N].Nodup := by
        simp only [List.nodup_cons, List.mem_cons, List.not_mem_nil, or_false, not_false_eq_true,
          List.nodup_nil, and_true]
        omega
      have := (List.subperm_of_subset hnd3 hthree).length_le
      rw [hlen] at this
      simp at this
    refine ⟨hnd, fun j => ⟨hsub j, ?_⟩⟩
    have hle : (f (i + 1)).Subperm [i, N] := List.subperm_of_subset hnd fun j hj => by
      simpa using hsub j hj
    have hp := hle.perm_of_length_le (by rw [hlen]; simp)
    intro h
    rw [hp.mem_iff]; simpa using h
  exact star_graph (starRows N) (starRows N) (starKnn.apply ρ) N (starRows_length N) _
    (star_net (starKnn.fit ρ) KnnCover.search (starRows N) c' h1 _
      (fun i x hx => by rw [hx]; exact hf x) N (starRows_length N) hN hres) hres

/-- The bound on edges of C113 for any cover is reached by these graphs. -/
example : ∃ g, mapperGraph (starRows 3) (starRows 3) (starBall.apply fun _ => 0)
    (fun _ => trivialClustering) = .ok g ∧ g.totalDegree = 3 * 2 := by
  refine ⟨_, rfl, ?_⟩
  decide +kernel

end Verif

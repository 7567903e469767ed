import Verif.Proof.Library
import Verif.Props.Learn
import Verif.Props.Metrics

/-!
# C84: the estimators with the covers of the library

`MapperAlgorithm.fit_transform` and `MapperClustering.fit` from arrays to graphs and labels, with
`BallCover`, `KNNCover` and the cubical covers as objects on the heap, cloned by
nobody and read by `apply`. The clustering is left to the default; C42 and C32–C36 say what
another one does to the charts.

`matrixInput`, `IsLens`, `BallAttrs`, `KnnAttrs`, `CubAttrs`, `IsNet`, `IsRegionGraph` are in
`Verif.Spec.Library`.
-/

set_option autoImplicit false

namespace Verif

section
variable {base : World} (I : Interp) (ρ : ℕ → ℕ) {h : Heap} {rc : ℕ} {oc : Obj}
  {k' k : ℕ} {A : List (Fin k' → ℚ)} {B : List (Fin k → ℚ)} {y : Option Input}

/-- The charts of a `BallCover` on the heap. -/
theorem ball_charts (hc : h[rc]? = some oc) (hcls : oc.cls = "BallCover")
    {d : RVec k → RVec k → ℝ} {rad : ℝ} (hat : BallAttrs I oc.attrs d rad) (hd : PseudoMetric d)
    (hrad : 0 < rad) (hA : A ≠ []) (hk' : 0 < k') (hk : 0 < k) (hl : B.length = A.length)
    (hy : y.getD (matrixInput A) = matrixInput B) :
    ∃ charts centres, WellFormedCharts B.length charts ∧ Covers B.length charts ∧
      IsNet d rad (realRows B) centres ∧
      List.Forall₂ (fun P chart => ListsExactly (realRows B) P chart ∧ chart ≠ [])
        (centres.map (openBall d rad)) charts ∧
      ∀ ay ry, (∃ aX, validateXy (matrixInput A) (y.getD (matrixInput A)) = .ok (aX, ay)) →
        rowsOf ay = .ok ry → LensRows ry B →
        coverParam (library base I ρ) h (.obj rc) ry = .ok charts := by
  have hB : B ≠ [] := by
    rintro rfl
    exact hA (List.length_eq_zero_iff.mp hl.symm)
  obtain ⟨c, h1, rfl, rfl, h4⟩ := ballApply_of hat.fresh hd ρ B
  obtain ⟨charts, centres, h5, h6, h7, h8, h9⟩ := ball_regions c h1 hrad ρ (realRows B)
  have hlen : (realRows B).length = B.length := by simp [realRows]
  rw [hlen] at h6 h7
  refine ⟨charts, centres, h6, h7, h8, h9, fun ay ry h10 h11 h12 => ?_⟩
  rw [hy] at h10
  have e := rows_matrix hA hB hk' hk h10 h11
  have hw := h12.rowWidth hB
  subst e
  have hcl : (library base I ρ).classes "BallCover" = some ⟨coverMembers, ballInit⟩ := by
    simp [World.classes, library]
  simp only [coverParam, chartsOf, deref, hc, ok_bind, hcls]
  rw [if_neg (by decide), hcl]
  simp only [library, if_true, hw]
  rw [h4, h5]

/-- The charts of a `KNNCover` on the heap. -/
theorem knn_charts (hc : h[rc]? = some oc) (hcls : oc.cls = "KNNCover")
    {d : RVec k → RVec k → ℝ} {nb : ℕ} (hat : KnnAttrs I oc.attrs d nb) (hd : PseudoMetric d)
    (hdup : ∀ x ∈ realRows B, (realRows B).countP (fun z => decide (d x z = 0)) ≤ nb)
    (hA : A ≠ []) (hk' : 0 < k') (hk : 0 < k) (hl : B.length = A.length)
    (hy : y.getD (matrixInput A) = matrixInput B) :
    ∃ charts, WellFormedCharts B.length charts ∧ Covers B.length charts ∧
      (∀ chart ∈ charts, ∃ x ∈ realRows B, NearestIndices d x nb (realRows B) chart) ∧
      ∀ ay ry, (∃ aX, validateXy (matrixInput A) (y.getD (matrixInput A)) = .ok (aX, ay)) →
        rowsOf ay = .ok ry → LensRows ry B →
        coverParam (library base I ρ) h (.obj rc) ry = .ok charts := by
  have hB : B ≠ [] := by
    rintro rfl
    exact hA (List.length_eq_zero_iff.mp hl.symm)
  obtain ⟨c, h1, rfl, rfl, h4⟩ := knnApply_of hat.fresh hd ρ B
  obtain ⟨charts, h5, h6, h7, h8⟩ := C20_knn_cover_partial c h1 ρ (realRows B) hdup
  have hlen : (realRows B).length = B.length := by simp [realRows]
  rw [hlen] at h6 h7
  refine ⟨charts, h6, h7, h8, fun ay ry h10 h11 h12 => ?_⟩
  rw [hy] at h10
  have e := rows_matrix hA hB hk' hk h10 h11
  have hw := h12.rowWidth hB
  subst e
  have hcl : (library base I ρ).classes "KNNCover" = some ⟨coverMembers, knnInit⟩ := by
    simp [World.classes, library]
  simp only [coverParam, chartsOf, deref, hc, ok_bind, hcls]
  rw [if_neg (by decide), hcl]
  simp only [library, if_true, hw]
  rw [if_neg (by decide)]
  simp only [h4, h5]

/-- The charts of a cubical cover on the heap. -/
theorem cub_charts (hc : h[rc]? = some oc) {std : Bool} (hcls : IsCubObject oc std) {n : ℕ} {p : ℝ}
    (hat : CubAttrs I k oc.attrs n p) (hk : 0 < k) (hB : B ≠ []) {lo hi : Fin k → ℝ}
    (hb : IsBounds (realRows B) lo hi) :
    ∃ (charts : List (List ℕ)) (cells : List (Fin k → ℤ)),
      WellFormedCharts B.length charts ∧ Covers B.length charts ∧ cells.Nodup ∧
      (∀ cell ∈ cells, ∃ x ∈ realRows B, IsCell lo hi n x cell) ∧
      (std = true → ∀ x ∈ realRows B, ∀ cell, IsCell lo hi n x cell → cell ∈ cells) ∧
      List.Forall₂ (fun P chart => ListsExactly (realRows B) P chart ∧ chart ≠ [])
        (cells.map (InHypercube lo hi n p)) charts ∧
      ∀ ry, LensRows ry B → coverParam (library base I ρ) h (.obj rc) ry = .ok charts := by
  have hlen : (realRows B).length = B.length := by simp [realRows]
  have hY : realRows B ≠ [] := by
    intro h0
    rw [h0] at hlen
    exact hB (List.length_eq_zero_iff.mp hlen.symm)
  have ea : ∀ v, oc.attrs.get? "algorithm" = some v →
      (freshAttrs ⟨coverMembers, cubicalInit⟩ oc.attrs).get? "algorithm" = some v := fun v hv =>
    fresh_param (by decide +kernel) hv (by decide +kernel)
  cases std with
  | false =>
    rcases hcls with hcls | ⟨hcls, halg⟩
    · obtain ⟨P, h1, h2, rfl⟩ := cubParams_of hk (hat.fresh (.inl rfl))
      obtain ⟨cells, out, h3, h4, h5, h6, h7⟩ := applyProximity_ok defaultOverlap
        ⟨P, none⟩ ρ (realRows B) hY p h2 hb
      have h6' := cub_regions h6
      refine ⟨out, cells, hlen ▸ wellFormed_of_regions h6', hlen ▸ h7, h4, h5, by simp, h6',
        fun ry h12 => ?_⟩
      have hcl : (library base I ρ).classes "ProximityCubicalCover" =
          some ⟨coverMembers, baseCubicalInit⟩ := by
        simp [World.classes, library]
      simp only [coverParam, chartsOf, deref, hc, ok_bind, hcls]
      rw [if_neg (by decide), hcl]
      simp only [library, if_true, h12.rowWidth hB]
      rw [if_neg (by decide), if_neg (by decide), if_neg (by decide)]
      simp only [proximityApply, h12.gridRows, ok_bind, h1, h3]
    · obtain ⟨P, h1, h2, rfl⟩ := cubParams_of hk (hat.fresh (.inr rfl))
      obtain ⟨cells, out, h3, h4, h5, h6, h7⟩ := applyProximity_ok defaultOverlap
        ⟨P, none⟩ ρ (realRows B) hY p h2 hb
      have h6' := cub_regions h6
      refine ⟨out, cells, hlen ▸ wellFormed_of_regions h6', hlen ▸ h7, h4, h5, by simp, h6',
        fun ry h12 => ?_⟩
      have hcl : (library base I ρ).classes "CubicalCover" =
          some ⟨coverMembers, cubicalInit⟩ := by
        simp [World.classes, library]
      simp only [coverParam, chartsOf, deref, hc, ok_bind, hcls]
      rw [if_neg (by decide), hcl]
      simp only [library, if_true, h12.rowWidth hB]
      rw [if_neg (by decide), if_neg (by decide)]
      simp only [cubicalApply, h12.gridRows, ok_bind, h1, attrVal_some (ea _ halg), strVal]
      rw [(C28_delegates defaultOverlap ⟨P, "proximity", none⟩ ρ (realRows B)).1 rfl, h3]
  | true =>
    rcases hcls with hcls | ⟨hcls, halg⟩
    · obtain ⟨P, h1, h2, rfl⟩ := cubParams_of hk (hat.fresh (.inl rfl))
      obtain ⟨cells, out, h3, h4, h5, h6, h7⟩ := applyStandard_ok defaultOverlap
        ⟨P, none⟩ ρ (realRows B) hY p h2 hb
      have h6' := cub_regions h6
      refine ⟨out, cells, hlen ▸ wellFormed_of_regions h6', hlen ▸ h7, h4,
        fun cell => (h5 cell).mp, fun _ x hx cell hcell => (h5 cell).mpr ⟨x, hx, hcell⟩, h6',
        fun ry h12 => ?_⟩
      have hcl : (library base I ρ).classes "StandardCubicalCover" =
          some ⟨coverMembers, baseCubicalInit⟩ := by
        simp [World.classes, library]
      simp only [coverParam, chartsOf, deref, hc, ok_bind, hcls]
      rw [if_neg (by decide), hcl]
      simp only [library, if_true, h12.rowWidth hB]
      rw [if_neg (by decide), if_neg (by decide), if_neg (by decide), if_neg (by decide)]
      simp only [standardApply, h12.gridRows, ok_bind, h1, h3]
    · obtain ⟨P, h1, h2, rfl⟩ := cubParams_of hk (hat.fresh (.inr rfl))
      obtain ⟨cells, out, h3, h4, h5, h6, h7⟩ := applyStandard_ok defaultOverlap
        ⟨P, none⟩ ρ (realRows B) hY p h2 hb
      have h6' := cub_regions h6
      refine ⟨out, cells, hlen ▸ wellFormed_of_regions h6', hlen ▸ h7, h4,
        fun cell => (h5 cell).mp, fun _ x hx cell hcell => (h5 cell).mpr ⟨x, hx, hcell⟩, h6',
        fun ry h12 => ?_⟩
      have hcl : (library base I ρ).classes "CubicalCover" =
          some ⟨coverMembers, cubicalInit⟩ := by
        simp [World.classes, library]
      simp only [coverParam, chartsOf, deref, hc, ok_bind, hcls]
      rw [if_neg (by decide), hcl]
      simp only [library, if_true, h12.rowWidth hB]
      rw [if_neg (by decide), if_neg (by decide)]
      simp only [cubicalApply, h12.gridRows, ok_bind, h1, attrVal_some (ea _ halg), strVal]
      rw [(C28_delegates defaultOverlap ⟨P, "standard", none⟩ ρ (realRows B)).2.1 rfl, h3]

/-! ### The graphs -/

variable (hB : Contract base) {n fuel : ℕ} (hn : 2 ≤ n) (hf : n ≤ fuel) (hg : GoodHeap h n)
include hB hf hg

include hn in
/-- **C84 (balls).** `MapperAlgorithm(BallCover(...)).fit_transform(X, y)`, for arrays of numbers
with as many rows, a radius above zero and a pseudo-metric, returns the graph of
open balls of that radius in the lens space around rows of the lens which are not
nearer than the radius to one another, and whose balls contain all rows. -/
theorem C84_ball {r : ℕ} {failsafe : Val}
    (ha : IsAlgorithm (library base I ρ) h r (.obj rc) .none failsafe)
    (hc : h[rc]? = some oc) (hcls : oc.cls = "BallCover")
    {d : RVec k → RVec k → ℝ} {rad : ℝ} (hat : BallAttrs I oc.attrs d rad) (hd : PseudoMetric d)
    (hrad : 0 < rad) (hA : A ≠ []) (hk' : 0 < k') (hk : 0 < k) (hl : B.length = A.length)
    (hy : y.getD (matrixInput A) = matrixInput B) :
    ∃ g centres,
      (mapperFitTransform (library base I ρ) fuel r (matrixInput A) y h).1 = .ok (.graph g) ∧
      IsNet d rad (realRows B) centres ∧
      IsRegionGraph g (realRows B) (centres.map (openBall d rad)) := by
  obtain ⟨charts, centres, h1, h2, h3, h4, h5⟩ := ball_charts (base := base) I ρ hc hcls hat hd hrad
    hA hk' hk hl hy
  obtain ⟨g, h6, h7⟩ := graph_of_charts (library base I ρ) h fuel (.obj rc) failsafe
    (hy ▸ IsLens.matrix B) hA hl hk' hk h1 h5
  refine ⟨g, centres, ?_, h3, regionGraph_of_nerve h7 h4⟩
  rw [(C42_fit_transform (library_contract hB I ρ) hn hf hg ha _ _).2, h6]
  rfl

include hn in
/-- **C84 (boxes).** The same with a cubical cover: the regions are the open boxes around cells
of the grid over the bounding box of the lens, each cell that of some row, none twice,
together containing all rows; with the standard algorithm, the cells of all rows. The
lens may be a one-dimensional array. -/
theorem C84_cubical {r : ℕ} {failsafe : Val}
    (ha : IsAlgorithm (library base I ρ) h r (.obj rc) .none failsafe)
    (hc : h[rc]? = some oc) {std : Bool} (hcls : IsCubObject oc std) {m : ℕ} {p : ℝ}
    (hat : CubAttrs I k oc.attrs m p) (hA : A ≠ []) (hk' : 0 < k') (hk : 0 < k)
    (hl : B.length = A.length) (hy : IsLens (y.getD (matrixInput A)) B) {lo hi : Fin k → ℝ}
    (hb : IsBounds (realRows B) lo hi) :
    ∃ (g : NxGraph) (cells : List (Fin k → ℤ)),
      (mapperFitTransform (library base I ρ) fuel r (matrixInput A) y h).1 = .ok (.graph g) ∧
      cells.Nodup ∧ (∀ cell ∈ cells, ∃ x ∈ realRows B, IsCell lo hi m x cell) ∧
      (std = true → ∀ x ∈ realRows B, ∀ cell, IsCell lo hi m x cell → cell ∈ cells) ∧
      RegionsCover (realRows B) (cells.map (InHypercube lo hi m p)) ∧
      IsRegionGraph g (realRows B) (cells.map (InHypercube lo hi m p)) := by
  have hB' : B ≠ [] := by
    rintro rfl
    exact hA (List.length_eq_zero_iff.mp hl.symm)
  obtain ⟨charts, cells, h1, h2, h3, h4, h5, h6, h7⟩ := cub_charts (base := base) I ρ hc hcls hat hk
    hB' hb
  obtain ⟨g, h8, h9⟩ := graph_of_charts (library base I ρ) h fuel (.obj rc) failsafe
    hy hA hl hk' hk h1 (fun _ ry _ _ h12 => h7 ry h12)
  have hlen : (realRows B).length = B.length := by simp [realRows]
  refine ⟨g, cells, ?_, h3, h4, h5, regionsCover_of h6 (hlen ▸ h2), regionGraph_of_nerve h9 h6⟩
  rw [(C42_fit_transform (library_contract hB I ρ) hn hf hg ha _ _).2, h8]
  rfl

include hn in
/-- **C84 (neighbours).** The same with `KNNCover(neighbors=nb)`, if no row coincides with
`nb` others: one node for each of a list of sets of `nb` nearest neighbours of
rows, together containing all rows. What happens with more coinciding rows
is C20 (`C20_knn_duplicates_violation`). -/
theorem C84_knn {r : ℕ} {failsafe : Val}
    (ha : IsAlgorithm (library base I ρ) h r (.obj rc) .none failsafe)
    (hc : h[rc]? = some oc) (hcls : oc.cls = "KNNCover")
    {d : RVec k → RVec k → ℝ} {nb : ℕ} (hat : KnnAttrs I oc.attrs d nb) (hd : PseudoMetric d)
    (hdup : ∀ x ∈ realRows B, (realRows B).countP (fun z => decide (d x z = 0)) ≤ nb)
    (hA : A ≠ []) (hk' : 0 < k') (hk : 0 < k) (hl : B.length = A.length)
    (hy : y.getD (matrixInput A) = matrixInput B) :
    ∃ g charts,
      (mapperFitTransform (library base I ρ) fuel r (matrixInput A) y h).1 = .ok (.graph g) ∧
      Covers A.length charts ∧
      (∀ chart ∈ charts, ∃ x ∈ realRows B, NearestIndices d x nb (realRows B) chart) ∧
      IsNerve g charts := by
  obtain ⟨charts, h1, h2, h3, h5⟩ := knn_charts (base := base) I ρ hc hcls hat hd hdup
    hA hk' hk hl hy
  obtain ⟨g, h6, h7⟩ := graph_of_charts (library base I ρ) h fuel (.obj rc) failsafe
    (hy ▸ IsLens.matrix B) hA hl hk' hk h1 h5
  refine ⟨g, charts, ?_, hl ▸ h2, h3, h7⟩
  rw [(C42_fit_transform (library_contract hB I ρ) hn hf hg ha _ _).2, h6]
  rfl

/-! ### The labels -/

/-- **C84 (components, balls).** `MapperClustering(BallCover(...)).fit(X, y)` assigns `labels_`, one for each
row, equal exactly for rows linked by a chain of rows such that each
is in one ball with the next, for balls as in `C84_ball`. -/
theorem C84_ball_components (ho : ∀ l L, L ∈ base.setOrder l ↔ L ∈ l) {r : ℕ}
    (ha : IsMapperClustering (library base I ρ) h r (.obj rc) .none)
    (hc : h[rc]? = some oc) (hcls : oc.cls = "BallCover")
    {d : RVec k → RVec k → ℝ} {rad : ℝ} (hat : BallAttrs I oc.attrs d rad) (hd : PseudoMetric d)
    (hrad : 0 < rad) (hA : A ≠ []) (hk' : 0 < k') (hk : 0 < k) (hl : B.length = A.length)
    (hy : y.getD (matrixInput A) = matrixInput B) :
    let run := mapperClusteringFit (library base I ρ) fuel r (matrixInput A) y h
    ∃ l centres, run.1 = .ok () ∧ attrAt run.2 r "labels_" = some (.labels l) ∧
      l.length = A.length ∧ IsNet d rad (realRows B) centres ∧
      ∀ i j, i < A.length → j < A.length → (l[i]? = l[j]? ↔
        Linked (InOneRegion (realRows B) (centres.map (openBall d rad))) i j) := by
  obtain ⟨charts, centres, h1, h2, h3, h4, h5⟩ := ball_charts (base := base) I ρ hc hcls hat hd hrad
    hA hk' hk hl hy
  obtain ⟨l, h6, h7, h8⟩ := labels_of_charts (library base I ρ) h fuel (.obj rc)
    (hy ▸ IsLens.matrix B) hA hl hk' hk h1 h2 ho h5
  obtain ⟨q1, q2, _⟩ := (C42_labels (library_contract hB I ρ) hf hg ha (matrixInput A) y).1 l k' h6
  refine ⟨l, centres, q1, q2, h7, h3, fun i j hi hj => ?_⟩
  rw [h8 i j hi hj]
  have : InOneRegion (realRows B) (centres.map (openBall d rad)) = InOneChart charts := by
    funext a b
    exact propext (inOneRegion_iff h4 a b)
  rw [this]

/-- **C84 (components, boxes).** The same for the cubical covers. -/
theorem C84_cubical_components (ho : ∀ l L, L ∈ base.setOrder l ↔ L ∈ l) {r : ℕ}
    (ha : IsMapperClustering (library base I ρ) h r (.obj rc) .none)
    (hc : h[rc]? = some oc) {std : Bool} (hcls : IsCubObject oc std) {m : ℕ} {p : ℝ}
    (hat : CubAttrs I k oc.attrs m p) (hA : A ≠ []) (hk' : 0 < k') (hk : 0 < k)
    (hl : B.length = A.length) (hy : IsLens (y.getD (matrixInput A)) B) {lo hi : Fin k → ℝ}
    (hb : IsBounds (realRows B) lo hi) :
    let run := mapperClusteringFit (library base I ρ) fuel r (matrixInput A) y h
    ∃ (l : List ℤ) (cells : List (Fin k → ℤ)),
      run.1 = .ok () ∧ attrAt run.2 r "labels_" = some (.labels l) ∧ l.length = A.length ∧
      (∀ cell ∈ cells, ∃ x ∈ realRows B, IsCell lo hi m x cell) ∧
      (std = true → ∀ x ∈ realRows B, ∀ cell, IsCell lo hi m x cell → cell ∈ cells) ∧
      RegionsCover (realRows B) (cells.map (InHypercube lo hi m p)) ∧
      ∀ i j, i < A.length → j < A.length → (l[i]? = l[j]? ↔
        Linked (InOneRegion (realRows B) (cells.map (InHypercube lo hi m p))) i j) := by
  have hB' : B ≠ [] := by
    rintro rfl
    exact hA (List.length_eq_zero_iff.mp hl.symm)
  obtain ⟨charts, cells, h1, h2, h3, h4, h5, h6, h7⟩ := cub_charts (base := base) I ρ hc hcls hat hk
    hB' hb
  obtain ⟨l, h8, h9, h10⟩ := labels_of_charts (library base I ρ) h fuel (.obj rc)
    hy hA hl hk' hk h1 h2 ho (fun _ ry _ _ h12 => h7 ry h12)
  obtain ⟨q1, q2, _⟩ := (C42_labels (library_contract hB I ρ) hf hg ha (matrixInput A) y).1 l k' h8
  have hlen : (realRows B).length = B.length := by simp [realRows]
  refine ⟨l, cells, q1, q2, h9, h4, h5, regionsCover_of h6 (hlen ▸ h2), fun i j hi' hj' => ?_⟩
  rw [h10 i j hi' hj']
  have : InOneRegion (realRows B) (cells.map (InHypercube lo hi m p)) = InOneChart charts := by
    funext a b
    exact propext (inOneRegion_iff h6 a b)
  rw [this]

/-- **C84 (components, neighbourhoods).** The same for `KNNCover`: the labels are those of chains of
rows each of which is in one neighbourhood with the next. A program which meets the hypotheses is
shown beside `C92_knn_labels`. -/
theorem C84_knn_components (ho : ∀ l L, L ∈ base.setOrder l ↔ L ∈ l) {r : ℕ}
    (ha : IsMapperClustering (library base I ρ) h r (.obj rc) .none)
    (hc : h[rc]? = some oc) (hcls : oc.cls = "KNNCover")
    {d : RVec k → RVec k → ℝ} {nb : ℕ} (hat : KnnAttrs I oc.attrs d nb) (hd : PseudoMetric d)
    (hdup : ∀ x ∈ realRows B, (realRows B).countP (fun z => decide (d x z = 0)) ≤ nb)
    (hA : A ≠ []) (hk' : 0 < k') (hk : 0 < k) (hl : B.length = A.length)
    (hy : y.getD (matrixInput A) = matrixInput B) :
    let run := mapperClusteringFit (library base I ρ) fuel r (matrixInput A) y h
    ∃ l charts, run.1 = .ok () ∧ attrAt run.2 r "labels_" = some (.labels l) ∧
      l.length = A.length ∧ Covers A.length charts ∧
      (∀ chart ∈ charts, ∃ x ∈ realRows B, NearestIndices d x nb (realRows B) chart) ∧
      ∀ i j, i < A.length → j < A.length → (l[i]? = l[j]? ↔ Linked (InOneChart charts) i j) := by
  obtain ⟨charts, h1, h2, h3, h5⟩ := knn_charts (base := base) I ρ hc hcls hat hd hdup
    hA hk' hk hl hy
  obtain ⟨l, h6, h7, h8⟩ := labels_of_charts (library base I ρ) h fuel (.obj rc)
    (hy ▸ IsLens.matrix B) hA hl hk' hk h1 h2 ho h5
  obtain ⟨q1, q2, _⟩ := (C42_labels (library_contract hB I ρ) hf hg ha (matrixInput A) y).1 l k' h6
  exact ⟨l, charts, q1, q2, h7, hl ▸ h2, h3, h8⟩

end

/-! ### Examples -/

/-- A `BallCover(radius=2)`, a `CubicalCover(n_intervals=2, algorithm="standard")`, a `KNNCover(neighbors=2)`,
a `MapperAlgorithm` with each, and a `MapperClustering` with the first and one with the second. -/
def libHeap : Heap :=
  [⟨"BallCover", ballInit.set "radius" (.int 2)⟩,
   ⟨"CubicalCover", (cubicalInit.set "n_intervals" (.int 2)).set "algorithm" (.str "standard")⟩,
   ⟨"KNNCover", knnInit.set "neighbors" (.int 2)⟩,
   ⟨"MapperAlgorithm", ⟨[("cover", .obj 0), ("clustering", .none), ("failsafe", .bool true),
      ("verbose", .bool true), ("n_jobs", .int 1)]⟩⟩,
   ⟨"MapperAlgorithm", ⟨[("cover", .obj 1), ("clustering", .none), ("failsafe", .bool false),
      ("verbose", .bool true), ("n_jobs", .int 1)]⟩⟩,
   ⟨"MapperAlgorithm", ⟨[("cover", .obj 2), ("clustering", .none), ("failsafe", .bool true),
      ("verbose", .bool true), ("n_jobs", .int 1)]⟩⟩,
   ⟨"MapperClustering", ⟨[("cover", .obj 0), ("clustering", .none), ("n_jobs", .int 1)]⟩⟩,
   ⟨"MapperClustering", ⟨[("cover", .obj 1), ("clustering", .none), ("n_jobs", .int 1)]⟩⟩]

theorem libHeap_attr {r b : ℕ} {k : String} (hp : PublicAttr libHeap r k (.obj b)) :
    b ≤ 2 ∧ 3 ≤ r := by
  obtain ⟨o, e, hk, _⟩ := hp
  match r, e with
  | 0, e => cases e; have := PyDict.mem_of_get?_eq_some hk; simp [ballInit, PyDict.set, PyDict.setList] at this
  | 1, e => cases e; have := PyDict.mem_of_get?_eq_some hk; simp [cubicalInit, PyDict.set, PyDict.setList] at this
  | 2, e => cases e; have := PyDict.mem_of_get?_eq_some hk; simp [knnInit, PyDict.set, PyDict.setList] at this
  | 3, e => cases e; have := PyDict.mem_of_get?_eq_some hk; simp at this; omega
  | 4, e => cases e; have := PyDict.mem_of_get?_eq_some hk; simp at this; omega
  | 5, e => cases e; have := PyDict.mem_of_get?_eq_some hk; simp at this; omega
  | 6, e => cases e; have := PyDict.mem_of_get?_eq_some hk; simp at this; omega
  | 7, e => cases e; have := PyDict.mem_of_get?_eq_some hk; simp at this; omega
  | r + 8, e => simp [libHeap] at e

theorem libHeap_good : GoodHeap libHeap 2 := by
  refine ⟨?_, ?_, ?_⟩
  · intro r o e
    match r, e with
    | 0, e => cases e; decide +kernel
    | 1, e => cases e; decide +kernel
    | 2, e => cases e; decide +kernel
    | 3, e => cases e; decide +kernel
    | 4, e => cases e; decide +kernel
    | 5, e => cases e; decide +kernel
    | 6, e => cases e; decide +kernel
    | 7, e => cases e; decide +kernel
    | r + 8, e => simp [libHeap] at e
  · intro r k b hp
    have := libHeap_attr hp
    show b < 8
    omega
  · intro r ks b hre
    cases hre with
    | nil => simp
    | cons h1 hre =>
      cases hre with
      | nil => simp
      | cons h2 hre =>
        have := libHeap_attr h1
        have := libHeap_attr h2
        omega

/-- No opaque values. -/
def noInterp : Interp := ⟨fun _ => none, fun _ => none, fun _ => none⟩

/-- The world of the examples. -/
noncomputable def libWorld : World := library exWorld noInterp (fun _ => 0)

theorem libHeap_cloneable (r : ℕ) (hr : r ≤ 2) : Cloneable libWorld libHeap (.obj r) := by
  have hcl : ∀ (r : ℕ) (c : ClassInfo) (o : Obj), libHeap[r]? = some o → libWorld.classes o.cls = some c →
      c.init.keys.Nodup → o.attrs.keys = c.init.keys → Cloneable libWorld libHeap (.obj r) :=
    fun r c o h1 h2 h3 h4 => .inr ⟨r, o, c, rfl, h1, h2, h3, fun k _ => by rw [h4]⟩
  obtain rfl | rfl | rfl : r = 0 ∨ r = 1 ∨ r = 2 := by omega
  · exact hcl _ ⟨coverMembers, ballInit⟩ _ rfl (by simp [World.classes, libWorld, library])
      (by decide +kernel) (by decide +kernel)
  · exact hcl _ ⟨coverMembers, cubicalInit⟩ _ rfl (by simp [World.classes, libWorld, library])
      (by decide +kernel) (by decide +kernel)
  · exact hcl _ ⟨coverMembers, knnInit⟩ _ rfl (by simp [World.classes, libWorld, library])
      (by decide +kernel) (by decide +kernel)

theorem euclidean_param (I : Interp) (k : ℕ) : IsMetricParam I (.str "euclidean") .none
    (fun x y : RVec k => Real.sqrt (∑ i, (x i - y i) ^ 2)) :=
  .name (f := euclidean) .none (by simp [getMetric, callNoArgs, PyDict.empty]) C47_euclidean.1

/-- The array `[[0, 0], [1, 0], [5, 0]]`. -/
def libData : List (Fin 2 → ℚ) := [![0, 0], ![1, 0], ![5, 0]]

/-- Three points of the plane, balls of radius 2, the lens is the data itself. -/
example : ∃ g centres,
    (mapperFitTransform libWorld 2 3 (matrixInput libData) none libHeap).1 = .ok (.graph g) ∧
    IsNet (fun x y : RVec 2 => Real.sqrt (∑ i, (x i - y i) ^ 2)) 2 (realRows libData) centres ∧
    IsRegionGraph g (realRows libData)
      (centres.map (openBall (fun x y => Real.sqrt (∑ i, (x i - y i) ^ 2)) 2)) :=
  C84_ball noInterp (fun _ => 0) exWorld_contract (le_refl 2) (le_refl 2) libHeap_good
    ⟨_, .bool true, .int 1, rfl, rfl, rfl, rfl, rfl, rfl, rfl, (fun _ h => by cases h),
      libHeap_cloneable 0 (by decide), .inl rfl, fun r h => by cases h⟩ rfl rfl
    ⟨_, _, _, "flat", _, _, 1, rfl, rfl, euclidean_param _ _, rfl, by exact_mod_cast IsNum.int 2, rfl,
      .inl rfl, rfl, le_refl 1, rfl, .inl rfl, rfl⟩
    C47_euclidean.2.pseudo (by norm_num) (by simp [libData]) (by decide) (by decide) rfl rfl

/-- The labels of a `MapperClustering` with the same cover. -/
example : ∃ l centres,
    attrAt (mapperClusteringFit libWorld 2 6 (matrixInput libData) none libHeap).2 6 "labels_" =
      some (.labels l) ∧ l.length = 3 ∧
    IsNet (fun x y : RVec 2 => Real.sqrt (∑ i, (x i - y i) ^ 2)) 2 (realRows libData) centres := by
  obtain ⟨l, centres, _, h1, h2, h3, _⟩ :=
    C84_ball_components noInterp (fun _ => 0) exWorld_contract (le_refl 2) libHeap_good
      (y := none) (A := libData) (r := 6) (fun _ _ => Iff.rfl)
      ⟨_, .int 1, rfl, rfl, rfl, rfl, rfl, libHeap_cloneable 0 (by decide), .inl rfl, fun r h => by cases h⟩ rfl rfl
      ⟨_, _, _, "flat", _, _, 1, rfl, rfl, euclidean_param _ _, rfl, by exact_mod_cast IsNum.int 2, rfl,
        .inl rfl, rfl, le_refl 1, rfl, .inl rfl, rfl⟩
      C47_euclidean.2.pseudo (by norm_num) (by simp [libData]) (by decide) (by decide) rfl rfl
  exact ⟨l, centres, h1, h2, h3⟩

/-- The lens `[0, 1, 5]`, a one-dimensional array. -/
def libLens : List ℚ := [0, 1, 5]

theorem libLens_rows : realRows (libLens.map fun x (_ : Fin 1) => x) = [![0], ![1], ![5]] := by
  simp only [realRows, libLens, List.map_cons, List.map_nil]
  congr 1
  · funext j; simp
  congr 1
  · funext j; simp
  congr 1
  funext j; simp

theorem libLens_bounds : IsBounds (realRows (libLens.map fun x (_ : Fin 1) => x)) ![0] ![5] := by
  rw [libLens_rows]
  intro i
  obtain rfl : i = 0 := Subsingleton.elim _ _
  refine ⟨⟨![0], by simp⟩, ⟨![5], by simp⟩, ?_⟩
  intro x hx
  simp only [List.mem_cons, List.not_mem_nil, or_false] at hx
  rcases hx with rfl | rfl | rfl <;> simp

/-- A one-dimensional lens, two intervals, the default overlap. -/
example : ∃ (g : NxGraph) (cells : List (Fin 1 → ℤ)),
    (mapperFitTransform libWorld 2 4 (matrixInput libData) (some (vectorInput libLens)) libHeap).1 =
      .ok (.graph g) ∧
    (∀ x ∈ realRows (libLens.map fun x (_ : Fin 1) => x), ∀ cell, IsCell ![0] ![5] 2 x cell →
      cell ∈ cells) ∧
    IsRegionGraph g (realRows (libLens.map fun x (_ : Fin 1) => x))
      (cells.map (InHypercube ![0] ![5] 2 (defaultOverlap 1))) := by
  obtain ⟨g, cells, h1, _, _, h4, _, h6⟩ :=
    C84_cubical noInterp (fun _ => 0) (y := some (vectorInput libLens)) (A := libData) (r := 4)
      exWorld_contract (le_refl 2) (le_refl 2) libHeap_good
      ⟨_, .bool true, .int 1, rfl, rfl, rfl, rfl, rfl, rfl, rfl, (fun _ h => by cases h),
        libHeap_cloneable 1 (by decide), .inl rfl, fun r h => by cases h⟩ rfl
      (std := true) (.inr ⟨rfl, rfl⟩) (m := 2) (p := defaultOverlap 1)
      ⟨_, "flat", _, _, 1, rfl, by decide, rfl, .inl ⟨rfl, rfl⟩, rfl, .inl rfl, rfl, le_refl 1, rfl,
        .inl rfl, rfl⟩
      (by simp [libData]) (by decide) (by decide) rfl (IsLens.vector libLens) libLens_bounds
  exact ⟨g, cells, h1, h4 rfl, h6⟩

/-- The labels of a `MapperClustering` with the same cover and lens. -/
example : ∃ l : List ℤ,
    attrAt (mapperClusteringFit libWorld 2 7 (matrixInput libData) (some (vectorInput libLens))
      libHeap).2 7 "labels_" = some (.labels l) ∧ l.length = 3 := by
  obtain ⟨l, cells, _, h1, h2, _⟩ :=
    C84_cubical_components noInterp (fun _ => 0) (y := some (vectorInput libLens)) (A := libData)
      (r := 7) exWorld_contract (le_refl 2) libHeap_good (fun _ _ => Iff.rfl)
      ⟨_, .int 1, rfl, rfl, rfl, rfl, rfl, libHeap_cloneable 1 (by decide), .inl rfl, fun r h => by cases h⟩ rfl
      (std := true) (.inr ⟨rfl, rfl⟩) (m := 2) (p := defaultOverlap 1)
      ⟨_, "flat", _, _, 1, rfl, by decide, rfl, .inl ⟨rfl, rfl⟩, rfl, .inl rfl, rfl, le_refl 1, rfl,
        .inl rfl, rfl⟩
      (by simp [libData]) (by decide) (by decide) rfl (IsLens.vector libLens) libLens_bounds
  exact ⟨l, h1, h2⟩

/-- No row of the dataset coincides with another. -/
theorem libData_distinct : ∀ x ∈ realRows libData, (realRows libData).countP
    (fun z => decide (Real.sqrt (∑ i, (x i - z i) ^ 2) = 0)) ≤ 2 := by
  intro x _
  by_contra hcon
  have hall := List.countP_eq_length.mp (le_antisymm List.countP_le_length
    (show (realRows libData).length ≤ _ from not_le.mp hcon))
  have key : ∀ z ∈ realRows libData, x = z := by
    intro z hz
    by_contra hne
    have := C47_euclidean.2.pos x z hne
    have h0 := of_decide_eq_true (hall z hz)
    linarith
  have e1 := key (fun j => ((![0, 0] : Fin 2 → ℚ) j : ℝ)) (by simp [realRows, libData])
  have e2 := key (fun j => ((![1, 0] : Fin 2 → ℚ) j : ℝ)) (by simp [realRows, libData])
  have := congrFun (e1.symm.trans e2) 0
  simp at this

/-- The two nearest neighbours of points of the plane, which are distinct. -/
example : ∃ g charts,
    (mapperFitTransform libWorld 2 5 (matrixInput libData) none libHeap).1 = .ok (.graph g) ∧
    Covers 3 charts ∧ (∀ chart ∈ charts, chart.length = 2) ∧ IsNerve g charts := by
  obtain ⟨g, charts, h1, h2, h3, h4⟩ :=
    C84_knn noInterp (fun _ => 0) (y := none) (A := libData) (r := 5)
      exWorld_contract (le_refl 2) (le_refl 2) libHeap_good
      ⟨_, .bool true, .int 1, rfl, rfl, rfl, rfl, rfl, rfl, rfl, (fun _ h => by cases h),
        libHeap_cloneable 2 (by decide), .inl rfl, fun r h => by cases h⟩ rfl rfl (nb := 2)
      ⟨_, _, "flat", _, _, _, rfl, rfl, euclidean_param _ _, rfl, by decide, rfl, .inl rfl, rfl,
        .inl rfl, rfl, ⟨_, IsNum.int 0⟩, rfl⟩
      C47_euclidean.2.pseudo
      libData_distinct
      (by simp [libData]) (by decide) (by decide) rfl rfl
  refine ⟨g, charts, h1, h2, fun chart hch => ?_, h4⟩
  obtain ⟨x, _, _, h5, _⟩ := h3 chart hch
  rw [h5]
  rfl

end Verif

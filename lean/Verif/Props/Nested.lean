import Verif.Proof.Nested
import Verif.Props.Library

/-!
# C89: a `MapperClustering` as the clustering of another estimator

`MapperAlgorithm(cover, clustering=MapperClustering(...))` clusters the points of every chart by a
Mapper of their own. `fittedLabels`, `graphWith` and `IsClusterGraph` are in `Verif.Spec.Nested`.
-/

set_option autoImplicit false
set_option linter.unusedSectionVars false

namespace Verif

/-- **C89 (graphs).** With a `MapperClustering` as `clustering`, at any depth of nesting,
`MapperAlgorithm.fit_transform` returns the graph obtained by clustering the points of every
chart as that object, fitted alone on these points, would: same labels, same exceptions. -/
theorem C89_graph {W : World} (hW : Contract W) {n fuel : ℕ} (hn : 2 ≤ n) (hf : n ≤ fuel)
    {h : Heap} (hg : GoodHeap h n) {r rk : ℕ} {cover failsafe cover' clust' : Val}
    (ha : IsAlgorithm W h r cover (.obj rk) failsafe)
    (hk : IsMapperClustering W h rk cover' clust') (X : Input) (y : Option Input) :
    (mapperFitTransform W fuel r X y h).1 =
      (graphWith W h cover (if isOn failsafe then failSafe (some (fittedLabels W fuel h rk))
        else fittedLabels W fuel h rk) X y).map .graph := by
  have e : labelsOf W h fuel rk = fittedLabels W fuel h rk := by
    funext Y
    rw [labelsOf_eq_expected hf hg hk, fittedLabels_eq hW hf hg hk]
  rw [(C42_fit_transform hW hn hf hg ha X y).2]
  simp only [expectedGraph, failSafeParam, clustParam, clustOr, e, graphWith]
  cases validateXy X (y.getD X) with
  | error e => rfl
  | ok p =>
    simp only [ok_bind]
    cases rowsOf p.1 with
    | error e => rfl
    | ok rX =>
      simp only [ok_bind]
      cases rowsOf p.2 with
      | error e => rfl
      | ok ry =>
        simp only [ok_bind]
        cases mapperGraph rX ry (coverParam W h cover) _ with
        | error e => rfl
        | ok g =>
          simp only [ok_bind]
          cases nFeatures p.1 <;> rfl

/-- **C89 (labels).** The same for a `MapperClustering` whose `clustering` is a `MapperClustering`. -/
theorem C89_labels {W : World} (hW : Contract W) {n fuel : ℕ} (hf : n ≤ fuel)
    {h : Heap} (hg : GoodHeap h n) {r rk : ℕ} {cover cover' clust' : Val}
    (ha : IsMapperClustering W h r cover (.obj rk))
    (hk : IsMapperClustering W h rk cover' clust') (X : List RealArray) :
    fittedLabels W fuel h r X = (mapperClusteringResult W.setOrder (coverParam W h cover)
      (fittedLabels W fuel h rk) (stackRows X) none).map fun p => p.1 := by
  have e : labelsOf W h fuel rk = fittedLabels W fuel h rk := by
    funext Y
    rw [labelsOf_eq_expected hf hg hk, fittedLabels_eq hW hf hg hk]
  rw [fittedLabels_eq hW hf hg ha, expectedLabels, clustParam, clustOr, e]

section
variable {base : World} (I : Interp) (ρ : ℕ → ℕ) {h : Heap} {rc rc' rk : ℕ} {oc oc' : Obj}
  {k' k : ℕ} {A : List (Fin k' → ℚ)} {B : List (Fin k → ℚ)} {y : Option Input}
variable (hB : Contract base) {n fuel : ℕ} (hn : 2 ≤ n) (hf : n ≤ fuel) (hg : GoodHeap h n)
include hB hf hg hn

/-- **C89 (balls in balls).** `MapperAlgorithm(BallCover(radius=rad), MapperClustering(BallCover(radius=rad')))`
splits every ball of the lens space into clusters: for balls of radius `rad'` of the
data space, around points in the ball of the lens, two points of the ball are in one
node exactly if a chain of points of the ball links them, each in one of the smaller
balls with the next. -/
theorem C89_ball_clusters (ho : ∀ l L, L ∈ base.setOrder l ↔ L ∈ l) {r : ℕ} {failsafe : Val}
    (ha : IsAlgorithm (library base I ρ) h r (.obj rc) (.obj rk) failsafe)
    (hc : h[rc]? = some oc) (hcls : oc.cls = "BallCover")
    {d : RVec k → RVec k → ℝ} {rad : ℝ} (hat : BallAttrs I oc.attrs d rad) (hd : PseudoMetric d)
    (hrad : 0 < rad)
    (hmc : IsMapperClustering (library base I ρ) h rk (.obj rc') .none)
    (hc' : h[rc']? = some oc') (hcls' : oc'.cls = "BallCover")
    {d' : RVec k' → RVec k' → ℝ} {rad' : ℝ} (hat' : BallAttrs I oc'.attrs d' rad')
    (hd' : PseudoMetric d') (hrad' : 0 < rad')
    (hA : A ≠ []) (hk' : 0 < k') (hk : 0 < k) (hl : B.length = A.length)
    (hy : y.getD (matrixInput A) = matrixInput B) :
    ∃ g centres node, ∃ (ids : ℕ → List ℕ) (inner : ℕ → List (RVec k')),
      (mapperFitTransform (library base I ρ) fuel r (matrixInput A) y h).1 = .ok (.graph g) ∧
      IsNet d rad (realRows B) centres ∧
      (∀ c x, centres[c]? = some x → ListsExactly (realRows B) (openBall d rad x) (ids c) ∧
        IsNet d' rad' (pointsOf (realRows A) (ids c)) (inner c)) ∧
      IsClusterGraph g (fun c i => c < centres.length ∧ i ∈ ids c)
        (fun c => Linked fun i j => i ∈ ids c ∧ j ∈ ids c ∧
          InOneRegion (realRows A) ((inner c).map (openBall d' rad')) i j) node := by
  have hB0 : B ≠ [] := by
    rintro rfl
    exact hA (List.length_eq_zero_iff.mp hl.symm)
  obtain ⟨charts, centres, h1, h2, h3, h4, h5⟩ := ball_charts (base := base) I ρ hc hcls hat hd hrad
    hA hk' hk hl hy
  have hwf : WellFormedCharts A.length charts := hl ▸ h1
  -- the clustering of one chart
  have hchart : ∀ ids ∈ charts, ∃ lbls inner,
      labelsOf (library base I ρ) h fuel rk (pointsOf (A.map rowArr) ids) = .ok lbls ∧
      lbls.length = ids.length ∧ (∀ l ∈ lbls, 0 ≤ l) ∧
      IsNet d' rad' (pointsOf (realRows A) ids) inner ∧
      ∀ (a b i j : ℕ), ids[a]? = some i → ids[b]? = some j → (lbls[a]? = lbls[b]? ↔
        Linked (fun i j => i ∈ ids ∧ j ∈ ids ∧
          InOneRegion (realRows A) (inner.map (openBall d' rad')) i j) i j) := by
    intro ids hids
    obtain ⟨hne, hnd, hlt⟩ := hwf ids hids
    have hA' : pointsOf A ids ≠ [] := by
      intro h0
      have := pointsOf_length (X := A) hlt
      rw [h0] at this
      exact hne (List.length_eq_zero_iff.mp this.symm)
    obtain ⟨charts', inner, q1, q2, q3, q4, q5⟩ := ball_charts (base := base) (y := none) I ρ hc' hcls'
      hat' hd' hrad' hA' hk' hk' rfl rfl
    obtain ⟨l, q6, q7, q8, q9⟩ := labels_of_charts_nonneg (library base I ρ) h fuel (.obj rc') hA' hk'
      q1 q2 ho q5
    refine ⟨l, inner, ?_, ?_, q8, realRows_pointsOf A ids ▸ q3, ?_⟩
    · rw [labelsOf_eq_expected hf hg hmc, pointsOf_map, stackRows_matrix hA', q6]
      rfl
    · rw [q7, pointsOf_length hlt]
    · intro a b i j hai hbj
      have ha' : a < (pointsOf A ids).length := by
        rw [pointsOf_length hlt]; exact (List.getElem?_eq_some_iff.mp hai).1
      have hb' : b < (pointsOf A ids).length := by
        rw [pointsOf_length hlt]; exact (List.getElem?_eq_some_iff.mp hbj).1
      have hreg : InOneRegion (pointsOf (realRows A) ids) (inner.map (openBall d' rad')) =
          InOneChart charts' := by
        funext u v
        rw [← realRows_pointsOf]
        exact propext (inOneRegion_iff q4 u v)
      rw [q9 a b ha' hb', ← hreg]
      exact linked_positions hnd (by simpa [realRows] using hlt) _ hai hbj
  have hlen : charts.length = centres.length := by
    rw [← h4.length_eq, List.length_map]
  classical
  choose! lbl inn p1 p2 p3 p4 p5 using hchart
  obtain ⟨aX, ay, ry, v1, v2, v3, v4, v5⟩ := validate_lens (IsLens.matrix B) hA hB0 hk' hk
  have hcov := h5 ay ry ⟨aX, by rw [hy]; exact v1⟩ v4 v5
  have hfs : ∀ ids ∈ charts, failSafeParam (library base I ρ) h fuel failsafe (.obj rk)
      (pointsOf (A.map rowArr) ids) = .ok (lbl ids) := by
    intro ids hids
    unfold failSafeParam
    have e : clustParam (library base I ρ) h fuel (.obj rk) (pointsOf (A.map rowArr) ids) =
        .ok (lbl ids) := p1 ids hids
    split
    · simp only [failSafe, Option.getD_some, e]
    · exact e
  obtain ⟨g, node, g1, g2⟩ := clusterGraph_of_labels (A.map rowArr) ry
    (coverParam (library base I ρ) h (.obj rc))
    (fun _ => failSafeParam (library base I ρ) h fuel failsafe (.obj rk)) charts hcov
    (fun ids hi => by simpa using (hwf ids hi).2)
    (fun c => Linked fun i j => i ∈ charts.getD c [] ∧ j ∈ charts.getD c [] ∧
          InOneRegion (realRows A) ((inn (charts.getD c [])).map (openBall d' rad')) i j)
    (fun c ids hids => by
      have hm := List.mem_of_getElem? hids
      have e : charts.getD c [] = ids := by rw [List.getD_eq_getElem?_getD, hids]; rfl
      refine ⟨lbl ids, ⟨hids, hfs ids hm⟩, p2 ids hm, p3 ids hm, ?_⟩
      rw [e]
      exact p5 ids hm)
  have hmem : (fun c i => c < centres.length ∧ i ∈ charts.getD c []) =
      (fun c i => ∃ ids, charts[c]? = some ids ∧ i ∈ ids) := by
    funext c i
    refine propext ⟨?_, ?_⟩
    · rintro ⟨q1, q2⟩
      have e : charts[c]? = some charts[c] := List.getElem?_eq_getElem (by omega)
      rw [List.getD_eq_getElem?_getD, e] at q2
      exact ⟨_, e, q2⟩
    · rintro ⟨ids, q1, q2⟩
      refine ⟨by rw [← hlen]; exact (List.getElem?_eq_some_iff.mp q1).1, ?_⟩
      rw [List.getD_eq_getElem?_getD, q1]
      exact q2
  refine ⟨g, centres, node, fun c => charts.getD c [], fun c => inn (charts.getD c []), ?_, h3, ?_, ?_⟩
  · rw [(C42_fit_transform (library_contract hB I ρ) hn hf hg ha _ _).2]
    simp only [expectedGraph, hy, v1, ok_bind, v3, v4, g1, v2]
    rfl
  · intro c x hx
    have hlt : c < charts.length := by rw [hlen]; exact (List.getElem?_eq_some_iff.mp hx).1
    have e : charts.getD c [] = charts[c] := by simp [List.getD_eq_getElem?_getD, hlt]
    simp only [e]
    have q := List.forall₂_iff_get.mp h4
    have q2 := q.2 c (by simp; omega) hlt
    obtain ⟨hx1, hx2⟩ := List.getElem?_eq_some_iff.mp hx
    simp only [List.get_eq_getElem, List.getElem_map, hx2] at q2
    exact ⟨q2.1, p4 _ (List.getElem_mem hlt)⟩
  · rw [hmem]
    exact g2

end

/-! ### Examples -/

theorem exObjects_below {b c : ℕ} {ks : List String} (hb : b = 0 ∨ b = 5)
    (hre : Reaches exObjects b ks c) : ks.length + 1 < 3 := by
  cases hre with
  | nil => simp
  | cons h1 hre =>
    have h3 := exObjects_attr h1
    obtain ⟨o, e, hk, _⟩ := h1
    rcases hb with rfl | rfl
    · omega
    · cases e
      have := PyDict.mem_of_get?_eq_some hk
      simp [exMC] at this
      cases hre with
      | nil => simp
      | cons h2 hre =>
        have := exObjects_attr h2
        omega

/-- The objects of C42, and a `MapperAlgorithm` with the `MapperClustering` as clustering. -/
theorem exNested_good : GoodHeap (exObjects ++ [exAlg 5]) 3 ∧
    Evolves exObjects (exObjects ++ [exAlg 5]) (fun _ => False) := by
  refine goodHeap_append exObjects_good (by decide +kernel) (by decide +kernel) ?_
  intro k b hk _
  have := PyDict.mem_of_get?_eq_some hk
  simp [exAlg] at this
  have hb : b = 0 ∨ b = 5 := by omega
  exact ⟨by show b < 6; omega, fun ks c hre => exObjects_below hb hre⟩

theorem exNested_mc : IsMapperClustering exWorld (exObjects ++ [exAlg 5]) 5 (.obj 0) (.obj 1) :=
  exObjects_mc.evolve exObjects_good exNested_good.2

theorem exNested_alg : IsAlgorithm exWorld (exObjects ++ [exAlg 5]) 6 (.obj 0) (.obj 5) (.bool true) :=
  ⟨exAlg 5, .bool true, .int 1, rfl, rfl, rfl, rfl, rfl, rfl, rfl, (fun _ h => by cases h),
    exObjects_cov.evolves exNested_good.2,
    Or.inr ⟨5, exMC, _, rfl, rfl, byInit_mapperClustering _ _ _ _⟩,
    fun r h => by cases h; exact exObjects_ready_mc.evolves exObjects_good exNested_good.2 (by decide)⟩

/-- Of three points, the first and the third are in one node; the clustering given by the user, and
the one inside it, are not touched. -/
example : ∃ g, (mapperFitTransform exWorld 3 6 exInput none (exObjects ++ [exAlg 5])).1 = .ok (.graph g) ∧
    g.nodes.items = [(0, ⟨some 2, some [0, 2]⟩), (1, ⟨some 1, some [1]⟩)] := by
  rw [C89_graph exWorld_contract (by decide) (le_refl 3) exNested_good.1 exNested_alg exNested_mc]
  refine ⟨_, by with_unfolding_all rfl, by with_unfolding_all rfl⟩

example : (mapperFitTransform exWorld 3 6 exInput none (exObjects ++ [exAlg 5])).2[1]? = some exKM ∧
    (mapperFitTransform exWorld 3 6 exInput none (exObjects ++ [exAlg 5])).2[5]? = some exMC := by
  have hcl : ∀ rk, FitCall.Valid exWorld (exObjects ++ [exAlg 5]) ⟨true, 6, exInput, none⟩ (.obj rk) →
      rk = 5 := by
    rintro rk ⟨_, _, o, _, _, eo, _, _, h4, _⟩
    cases eo
    cases h4
    rfl
  have key : ∀ a, a < 6 → (mapperFitTransform exWorld 3 6 exInput none (exObjects ++ [exAlg 5])).2[a]? =
      (exObjects ++ [exAlg 5])[a]? := by
    intro a ha
    rw [(C42_fit_transform exWorld_contract (by decide) (le_refl 3) exNested_good.1 exNested_alg
      exInput none).1]
    have e : runCalls exWorld 3 [⟨true, 6, exInput, none⟩] (exObjects ++ [exAlg 5]) =
        (mapperAlgorithmFit exWorld 3 6 exInput none (exObjects ++ [exAlg 5])).2 := by
      rw [runCalls, runCalls, FitCall.run, if_pos rfl]
    rw [← e, C44_unshared_partial exWorld_contract (by decide) (le_refl 3) exNested_good.1
      [⟨true, 6, exInput, none⟩] ?_ ?_ a (by show a < 7; omega) ?_]
    · intro c hc
      simp only [List.mem_singleton] at hc
      subst hc
      exact ⟨_, _, _, exNested_alg⟩
    · intro c hc rk hv
      simp only [List.mem_singleton] at hc
      subst hc
      obtain rfl := hcl rk hv
      refine .mapper (o := exMC) rfl rfl fun rk h => ?_
      cases h
      exact .other (o := exKM) rfl (by decide) (by decide)
    · intro c hc
      simp only [List.mem_singleton] at hc
      subst hc
      show a ≠ 6
      omega
  rw [key 1 (by decide), key 5 (by decide)]
  exact ⟨rfl, rfl⟩

/-- `MapperClustering(Cov(radius=2), clustering)` with the clustering at address 5. -/
def exMC5 : Obj := ⟨"MapperClustering", ⟨[("cover", .obj 0), ("clustering", .obj 5),
  ("n_jobs", .int 1)]⟩⟩

theorem exNested5_good : GoodHeap (exObjects ++ [exMC5]) 3 ∧
    Evolves exObjects (exObjects ++ [exMC5]) (fun _ => False) := by
  refine goodHeap_append exObjects_good (by decide +kernel) (by decide +kernel) ?_
  intro k b hk _
  have := PyDict.mem_of_get?_eq_some hk
  simp [exMC5] at this
  have hb : b = 0 ∨ b = 5 := by omega
  exact ⟨by show b < 6; omega, fun ks c hre => exObjects_below hb hre⟩

example : fittedLabels exWorld 3 (exObjects ++ [exMC5]) 6 [⟨[1], [.finite 1]⟩, ⟨[1], [.finite 2]⟩,
    ⟨[1], [.finite 3]⟩] = .ok [0, 1, 0] := by
  rw [C89_labels exWorld_contract (le_refl 3) exNested5_good.1 (rk := 5) (cover := .obj 0)
    ⟨exMC5, .int 1, rfl, rfl, rfl, rfl, rfl, exObjects_cov.evolves exNested5_good.2,
      Or.inr ⟨5, exMC, _, rfl, rfl, byInit_mapperClustering _ _ _ _⟩, fun r h => by
        cases h; exact exObjects_ready_mc.evolves exObjects_good exNested5_good.2 (by decide)⟩
    (exObjects_mc.evolve exObjects_good exNested5_good.2)]
  with_unfolding_all rfl

/-- `MapperAlgorithm(BallCover(radius=2), MapperClustering(BallCover(radius=2)))`. -/
def libNested : Obj := ⟨"MapperAlgorithm", ⟨[("cover", .obj 0), ("clustering", .obj 6),
  ("failsafe", .bool true), ("verbose", .bool true), ("n_jobs", .int 1)]⟩⟩

theorem libNested_good : GoodHeap (libHeap ++ [libNested]) 3 ∧
    Evolves libHeap (libHeap ++ [libNested]) (fun _ => False) := by
  refine goodHeap_append ⟨libHeap_good.1, libHeap_good.2.1, fun r ks b hre =>
    Nat.lt_succ_of_lt (libHeap_good.2.2 r ks b hre)⟩ (by decide +kernel) (by decide +kernel) ?_
  intro k b hk _
  have := PyDict.mem_of_get?_eq_some hk
  simp [libNested] at this
  have hb : b = 0 ∨ b = 6 := by omega
  refine ⟨by show b < 8; omega, fun ks c hre => ?_⟩
  have := libHeap_good.2.2 _ _ _ hre
  omega

theorem libNested_mc : IsMapperClustering libWorld (libHeap ++ [libNested]) 6 (.obj 0) .none :=
  ⟨_, .int 1, rfl, rfl, rfl, rfl, rfl, (libHeap_cloneable 0 (by decide)).evolves libNested_good.2,
    .inl rfl, fun r h => by cases h⟩

theorem libNested_ready : MapperReady libWorld (libHeap ++ [libNested]) 6 := by
  refine MapperReady.evolves libHeap_good libNested_good.2 (by decide) ?_
  intro ks a o hre ea hcl
  cases hre with
  | nil =>
    cases ea
    exact ⟨_, _, _, rfl, rfl, rfl, libHeap_cloneable 0 (by decide), .inl rfl⟩
  | cons hp hre =>
    have h1 := libHeap_attr hp
    cases hre with
    | cons hp' _ =>
      have := libHeap_attr hp'
      omega
    | nil =>
      match a, ea, h1 with
      | 0, ea, _ => cases ea; exact absurd hcl (by decide)
      | 1, ea, _ => cases ea; exact absurd hcl (by decide)
      | 2, ea, _ => cases ea; exact absurd hcl (by decide)
      | a + 3, _, h1 => omega

/-- The hypotheses of `C89_ball_clusters` are met by three points of the plane. -/
example : ∃ g, (mapperFitTransform libWorld 3 8 (matrixInput libData) none
    (libHeap ++ [libNested])).1 = .ok (.graph g) := by
  obtain ⟨g, _, _, _, _, h1, _⟩ := C89_ball_clusters noInterp (fun _ => 0) (base := exWorld)
    exWorld_contract (n := 3) (by decide) (le_refl 3) libNested_good.1 (fun _ _ => Iff.rfl)
    (rk := 6) (rc := 0) (rc' := 0) (y := none) (A := libData) (B := libData) (r := 8)
    ⟨libNested, .bool true, .int 1, rfl, rfl, rfl, rfl, rfl, rfl, rfl, (fun _ h => by cases h),
      (libHeap_cloneable 0 (by decide)).evolves libNested_good.2,
      Or.inr ⟨6, _, _, rfl, rfl, byInit_mapperClustering _ _ _ _⟩,
      fun r h => by cases h; exact libNested_ready⟩ rfl rfl
    ⟨_, _, _, "flat", _, _, 1, rfl, rfl, euclidean_param _ _, rfl, by exact_mod_cast IsNum.int 2, rfl,
      .inl rfl, rfl, le_refl 1, rfl, .inl rfl, rfl⟩
    C47_euclidean.2.pseudo (by norm_num) libNested_mc rfl rfl
    ⟨_, _, _, "flat", _, _, 1, rfl, rfl, euclidean_param _ _, rfl, by exact_mod_cast IsNum.int 2, rfl,
      .inl rfl, rfl, le_refl 1, rfl, .inl rfl, rfl⟩
    C47_euclidean.2.pseudo (by norm_num) (by simp [libData]) (by decide) (by decide) rfl rfl
  exact ⟨g, h1⟩

end Verif

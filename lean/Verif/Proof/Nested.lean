import Verif.Spec.Nested
import Verif.Proof.Library
import Verif.Props.Learn

/-!
# Lemmas for C89
-/

set_option autoImplicit false
set_option linter.unusedSectionVars false

namespace Verif

theorem fittedLabels_eq {W : World} (hW : Contract W) {n fuel : ℕ} (hf : n ≤ fuel)
    {h : Heap} (hg : GoodHeap h n) {r : ℕ} {cover clust : Val}
    (ha : IsMapperClustering W h r cover clust) (X : List RealArray) :
    fittedLabels W fuel h r X = (expectedLabels W h fuel cover clust (stackRows X) none).map
      fun p => p.1 := by
  obtain ⟨q1, q2⟩ := C42_labels hW hf hg ha (stackRows X) none
  unfold fittedLabels
  cases he : expectedLabels W h fuel cover clust (stackRows X) none with
  | ok p =>
    obtain ⟨h1, h2, _⟩ := q1 p.1 p.2 he
    generalize mapperClusteringFit W fuel r (stackRows X) none h = run at h1 h2
    obtain ⟨res, h'⟩ := run
    simp only at h1 h2
    subst h1
    simp only [h2]
    rfl
  | error e =>
    obtain ⟨h1, _⟩ := q2 e he
    generalize mapperClusteringFit W fuel r (stackRows X) none h = run at h1
    obtain ⟨res, h'⟩ := run
    simp only at h1
    subst h1
    rfl

theorem labelsOf_eq_expected {W : World} {n fuel : ℕ} (hf : n ≤ fuel)
    {h : Heap} (hg : GoodHeap h n) {r : ℕ} {cover clust : Val}
    (ha : IsMapperClustering W h r cover clust) (X : List RealArray) :
    labelsOf W h fuel r X = (expectedLabels W h fuel cover clust (stackRows X) none).map
      fun p => p.1 := by
  obtain ⟨o, vj, eo, hcls, h1, h2, h5, h7, h8⟩ := ha
  obtain ⟨rank, hr, hlt⟩ := hg.rank
  obtain ⟨m, rfl⟩ : ∃ m, fuel = m + 1 := ⟨fuel - 1, by have := hg.pos; omega⟩
  have hclust : clustOr (labelsOf W h m) clust = clustParam W h (m + 1) clust := by
    cases clust with
    | obj rk =>
      funext Y
      have h3 := (hr r "clustering" rk ⟨o, eo, h2, public_clustering⟩).2
      have h4 := hlt r
      exact labelsOf_fuel hr Y m (m + 1) rk (by omega) (by omega)
    | _ => rfl
  rw [labelsOf_mapper W h m eo hcls, h1, h2]
  simp only [nestedLabels, expectedLabels, hclust]
  rfl

section clusters
variable {S T : Type}

/-- The graph when, in every chart, no point is noise and labels are equal exactly within clusters. -/
theorem clusterGraph_of_labels (X : List S) (y : List T) (cover : CoverFn T) (clust : ClustFn S)
    (charts : List (List ℕ)) (hc : cover y = .ok charts) (hg : GoodCharts X.length charts)
    (same : ℕ → ℕ → ℕ → Prop)
    (hs : ∀ c ids, charts[c]? = some ids → ∃ lbls, ChartLabels X charts clust c ids lbls ∧
      lbls.length = ids.length ∧ (∀ l ∈ lbls, 0 ≤ l) ∧
      ∀ (a b i j : ℕ), ids[a]? = some i → ids[b]? = some j → (lbls[a]? = lbls[b]? ↔ same c i j)) :
    ∃ g node, mapperGraph X y cover clust = .ok g ∧
      IsClusterGraph g (fun c i => ∃ ids, charts[c]? = some ids ∧ i ∈ ids) same node := by
  have hs' : ClusteringSucceeds X charts clust := fun c ids h =>
    let ⟨l, h1, _⟩ := hs c ids h; ⟨l, h1⟩
  obtain ⟨itm, off, e1, _, _, hcar, hinj⟩ := C32_labels_faithful X y cover clust charts hc hg hs'
  obtain ⟨itm2, g, e2, e3, hnode, _, hattr⟩ := C34_graph_nodes X y cover clust charts hc hg hs'
  obtain ⟨itm3, g3, e4, e5, hadj, _⟩ := C35_graph_edges X y cover clust charts hc hg hs'
  rw [e1] at e2 e4
  cases e2
  cases e4
  rw [e3] at e5
  cases e5
  -- the label of a point in a chart
  have hlab : ∀ c i, (∃ ids, charts[c]? = some ids ∧ i ∈ ids) →
      ∃ l, LocalLabel X charts clust c i l ∧ 0 ≤ l := by
    rintro c i ⟨ids, h1, h2⟩
    obtain ⟨lbls, h3, h4, h5, _⟩ := hs c ids h1
    obtain ⟨k, hk, rfl⟩ := List.mem_iff_getElem.mp h2
    exact ⟨lbls[k], ⟨ids, lbls, k, h3, List.getElem?_eq_getElem hk, List.getElem?_eq_getElem _⟩,
      h5 _ (List.getElem_mem _)⟩
  have hmem : ∀ {c i l}, LocalLabel X charts clust c i l → ∃ ids, charts[c]? = some ids ∧ i ∈ ids := by
    rintro c i l ⟨ids, lbls, k, ⟨h1, _⟩, h2, _⟩
    exact ⟨ids, h1, List.mem_of_getElem? h2⟩
  have hnn : ∀ {c i l}, LocalLabel X charts clust c i l → 0 ≤ l := by
    rintro c i l ⟨ids, lbls, k, ⟨h1, h1'⟩, _, h2⟩
    obtain ⟨lbls', ⟨_, h3⟩, _, h5, _⟩ := hs c ids h1
    rw [h1'] at h3
    cases h3
    exact h5 _ (List.mem_of_getElem? h2)
  have hsame : ∀ {c i j l l'}, LocalLabel X charts clust c i l → LocalLabel X charts clust c j l' →
      (l = l' ↔ same c i j) := by
    rintro c i j l l' ⟨ids, lbls, a, ⟨h1, h1'⟩, h2, h3⟩ ⟨ids', lbls', b, ⟨h4, h4'⟩, h5, h6⟩
    rw [h1] at h4
    cases h4
    rw [h1'] at h4'
    cases h4'
    obtain ⟨lbls', ⟨_, h7⟩, _, _, h8⟩ := hs c ids h1
    rw [h1'] at h7
    cases h7
    rw [← h8 a b i j h2 h5, h3, h6, Option.some_inj]
  classical
  let lab : ℕ → ℕ → ℤ := fun c i =>
    if h : ∃ ids, charts[c]? = some ids ∧ i ∈ ids then (hlab c i h).choose else 0
  have hl : ∀ c i, (∃ ids, charts[c]? = some ids ∧ i ∈ ids) → LocalLabel X charts clust c i (lab c i) := by
    intro c i h
    simp only [lab]
    rw [dif_pos h]
    exact (hlab c i h).choose_spec.1
  have hnc : ∀ c i j, (∃ ids, charts[c]? = some ids ∧ i ∈ ids) →
      (Carries itm j (off c + lab c i) ↔ (∃ ids, charts[c]? = some ids ∧ j ∈ ids) ∧ same c i j) := by
    intro c i j hi
    rw [hcar]
    constructor
    · rintro ⟨c', l, h1, h2, h3⟩
      obtain ⟨rfl, h4⟩ := (hinj _ _ _ _ _ _ (hl c i hi) h1 (hnn (hl c i hi)) h2).mp h3
      exact ⟨hmem h1, (hsame (hl c i hi) h1).mp h4⟩
    · rintro ⟨h1, h2⟩
      refine ⟨c, lab c j, hl c j h1, hnn (hl c j h1), ?_⟩
      rw [(hsame (hl c i hi) (hl c j h1)).mpr h2]
  have hself : ∀ c i, (∃ ids, charts[c]? = some ids ∧ i ∈ ids) → same c i i := fun c i hi =>
    (hsame (hl c i hi) (hl c i hi)).mp rfl
  refine ⟨g, fun c i => off c + lab c i, e3, ?_, ?_, ?_, ?_⟩
  · intro u
    rw [hnode]
    constructor
    · rintro ⟨i, hi⟩
      obtain ⟨c, l, h1, h2, rfl⟩ := (hcar i u).mp hi
      refine ⟨c, i, hmem h1, ?_⟩
      rw [(hsame h1 (hl c i (hmem h1))).mpr (hself c i (hmem h1))]
    · rintro ⟨c, i, h1, rfl⟩
      exact ⟨i, (hnc c i i h1).mpr ⟨h1, hself c i h1⟩⟩
  · intro c i c' i' h1 h2
    rw [hinj _ _ _ _ _ _ (hl c i h1) (hl c' i' h2) (hnn (hl c i h1)) (hnn (hl c' i' h2))]
    constructor
    · rintro ⟨rfl, h3⟩
      exact ⟨rfl, (hsame (hl c i h1) (hl c i' h2)).mp h3⟩
    · rintro ⟨rfl, h3⟩
      exact ⟨rfl, (hsame (hl c i h1) (hl c i' h2)).mpr h3⟩
  · intro c i h1
    obtain ⟨size, ids, h2, rfl, _, h3, h4⟩ := hattr (off c + lab c i)
      ((hnode _).mpr ⟨i, (hnc c i i h1).mpr ⟨h1, hself c i h1⟩⟩)
    exact ⟨ids, h2, h3, fun j => (h4 j).trans (hnc c i j h1)⟩
  · intro c i c' i' h1 h2
    rw [hadj]
    refine and_congr ?_ ?_
    · rw [Ne, hinj _ _ _ _ _ _ (hl c i h1) (hl c' i' h2) (hnn (hl c i h1)) (hnn (hl c' i' h2))]
      refine not_congr ⟨?_, ?_⟩
      · rintro ⟨rfl, h3⟩
        exact ⟨rfl, (hsame (hl c i h1) (hl c i' h2)).mp h3⟩
      · rintro ⟨rfl, h3⟩
        exact ⟨rfl, (hsame (hl c i h1) (hl c i' h2)).mpr h3⟩
    · exact exists_congr fun j => and_congr (hnc c i j h1) (hnc c' i' j h2)

/-- Labels are not negative. -/
theorem carries_nonneg (X : List S) (y : List T) (cover : CoverFn T) (clust : ClustFn S)
    (charts : List (List ℕ)) (hc : cover y = .ok charts) (hg : GoodCharts X.length charts)
    (hs : ClusteringSucceeds X charts clust) {itm : List (List ℤ)}
    (e : mapperLabels X y cover clust = .ok itm) {i : ℕ} {L : ℤ} (h : Carries itm i L) : 0 ≤ L := by
  obtain ⟨itm', off, e1, h0, hstep, hcar, _⟩ := C32_labels_faithful X y cover clust charts hc hg hs
  rw [e] at e1
  cases e1
  have hoff : ∀ c, c ≤ charts.length → 0 ≤ off c := by
    intro c
    induction c with
    | zero => intro _; rw [h0]
    | succ c ih =>
      intro hlt
      obtain ⟨lbls, hl⟩ := hs c _ (List.getElem?_eq_getElem (by omega : c < charts.length))
      rw [hstep c _ lbls hl]
      have h1 : ∀ (l : List ℤ) (a : ℤ), 0 ≤ a → 0 ≤ l.foldl max a := by
        intro l
        induction l with
        | nil => exact fun a ha => ha
        | cons x l ihl => exact fun a ha => ihl _ (le_max_of_le_left ha)
      have := ih (by omega)
      have := h1 (lbls.take (charts[c]).length) 0 le_rfl
      omega
  obtain ⟨c, l, h1, h2, rfl⟩ := (hcar i L).mp h
  obtain ⟨ids, _, _, ⟨h3, _⟩, _⟩ := h1
  have := hoff c (by have := (List.getElem?_eq_some_iff.mp h3).1; omega)
  omega

/-- With the trivial clustering and charts that contain all points, no point is noise. -/
theorem components_nonneg (X : List S) (y : List T) (cover : CoverFn T) (charts : List (List ℕ))
    (hc : cover y = .ok charts) (hg : WellFormedCharts X.length charts)
    (hcov : Covers X.length charts) (order : List ℤ → List ℤ) (ho : ∀ l L, L ∈ order l ↔ L ∈ l)
    {out : List ℤ} (e : mapperConnectedComponents order X y cover (fun _ => trivialClustering) = .ok out) :
    ∀ L ∈ out, 0 ≤ L := by
  have hg' : GoodCharts X.length charts := fun ids h => (hg ids h).2
  have hs := trivial_succeeds X charts
  obtain ⟨itm, g, out', e1, e2, e3, hlen, _, hnode, _⟩ := C36_connected_components X y cover
    (fun _ => trivialClustering) charts hc hg' hs order ho
  obtain ⟨itm2, off, e4, _, _, hcar, _⟩ := C32_labels_faithful X y cover
    (fun _ => trivialClustering) charts hc hg' hs
  obtain ⟨itm5, g5, e5, e6, hnd, _⟩ := C34_graph_nodes X y cover
    (fun _ => trivialClustering) charts hc hg' hs
  rw [e1] at e4 e5
  cases e4
  cases e5
  rw [e2] at e6
  cases e6
  rw [e] at e3
  cases e3
  intro L hL
  obtain ⟨i, hi, rfl⟩ := List.mem_iff_getElem.mp hL
  obtain ⟨chart, h1, h2⟩ := hcov i (by omega)
  obtain ⟨c, hc', rfl⟩ := List.mem_iff_getElem.mp h1
  have h3 : Carries itm i (off c + 0) := (hcar _ _).mpr ⟨c, 0, (trivial_localLabel X hg').mpr
    ⟨_, List.getElem?_eq_getElem hc', h2, rfl⟩, le_rfl, rfl⟩
  obtain ⟨h4, _⟩ := hnode i _ _ h3 (List.getElem?_eq_getElem hi)
  obtain ⟨j, hj⟩ := (hnd _).mp h4
  exact carries_nonneg X y cover _ charts hc hg' hs e1 hj

end clusters

/-- A chart of the rows of a matrix, as an array. -/
theorem stackRows_matrix {k : ℕ} {A : List (Fin k → ℚ)} (hA : A ≠ []) :
    stackRows (A.map rowArr) = matrixInput A := by
  cases A with
  | nil => exact absurd rfl hA
  | cons a A =>
    have : ((A.map rowArr).all fun b => b.shape == (rowArr a).shape) = true := by
      simp [rowArr]
    simp only [stackRows, List.map_cons, matrixInput]
    rw [if_pos this]
    simp [rowArr, List.flatMap_map]

theorem pointsOf_map {S T : Type} (f : S → T) (X : List S) (ids : List ℕ) :
    pointsOf (X.map f) ids = (pointsOf X ids).map f := by
  simp [pointsOf, List.map_filterMap]

theorem pointsOf_get {S : Type} {X : List S} {ids : List ℕ} (h : ∀ i ∈ ids, i < X.length) (a : ℕ) :
    (pointsOf X ids)[a]? = (ids[a]?).bind fun i => X[i]? := by
  induction ids generalizing a with
  | nil => simp [pointsOf]
  | cons i ids ih =>
    have hi : X[i]? = some (X[i]'(h i (by simp))) := List.getElem?_eq_getElem (h i (by simp))
    have e : pointsOf X (i :: ids) = X[i]'(h i (by simp)) :: pointsOf X ids := by
      simp [pointsOf, hi]
    rw [e]
    cases a with
    | zero => simp [hi]
    | succ a => simpa using ih (fun j hj => h j (by simp [hj])) a

theorem pointsOf_length {S : Type} {X : List S} {ids : List ℕ} (h : ∀ i ∈ ids, i < X.length) :
    (pointsOf X ids).length = ids.length := by
  induction ids with
  | nil => simp [pointsOf]
  | cons i ids ih =>
    have hi : X[i]? = some (X[i]'(h i (by simp))) := List.getElem?_eq_getElem (h i (by simp))
    have e : pointsOf X (i :: ids) = X[i]'(h i (by simp)) :: pointsOf X ids := by
      simp [pointsOf, hi]
    rw [e, List.length_cons, List.length_cons, ih fun j hj => h j (by simp [hj])]

theorem realRows_pointsOf {k : ℕ} (A : List (Fin k → ℚ)) (ids : List ℕ) :
    realRows (pointsOf A ids) = pointsOf (realRows A) ids := by
  rw [realRows, realRows, pointsOf_map]

/-- Chains of positions in a chart are chains of points of the chart. -/
theorem linked_positions {T : Type} {Y : List T} {ids : List ℕ} (hnd : ids.Nodup)
    (hlt : ∀ i ∈ ids, i < Y.length) (R : List (T → Prop)) {a b i j : ℕ} (ha : ids[a]? = some i)
    (hb : ids[b]? = some j) :
    Linked (InOneRegion (pointsOf Y ids) R) a b ↔
      Linked (fun i j => i ∈ ids ∧ j ∈ ids ∧ InOneRegion Y R i j) i j := by
  constructor
  · intro h
    induction h using Relation.ReflTransGen.head_induction_on generalizing i with
    | refl =>
      rw [ha] at hb
      cases hb
      exact .refl
    | @head a c hac _ ih =>
      obtain ⟨P, hP, zi, zj, h1, h2, h3, h4⟩ := hac
      rw [pointsOf_get hlt] at h1 h2
      rw [ha] at h1
      cases hc : ids[c]? with
      | none => rw [hc] at h2; cases h2
      | some i' =>
        rw [hc] at h2
        exact .head ⟨List.mem_of_getElem? ha, List.mem_of_getElem? hc, P, hP, zi, zj, h1, h2, h3, h4⟩
          (ih hc)
  · intro h
    induction h using Relation.ReflTransGen.head_induction_on generalizing a with
    | refl =>
      obtain ⟨h1, h2⟩ := List.getElem?_eq_some_iff.mp ha
      obtain ⟨h3, h4⟩ := List.getElem?_eq_some_iff.mp hb
      obtain rfl := (hnd.getElem_inj_iff (hi := h1) (hj := h3)).mp (h2.trans h4.symm)
      exact .refl
    | @head i i' hii _ ih =>
      obtain ⟨_, hi', P, hP, zi, zj, h1, h2, h3, h4⟩ := hii
      obtain ⟨c, hc, rfl⟩ := List.mem_iff_getElem.mp hi'
      have hc' : ids[c]? = some ids[c] := List.getElem?_eq_getElem hc
      refine .head ⟨P, hP, zi, zj, ?_, ?_, h3, h4⟩ (ih hc')
      · rw [pointsOf_get hlt, ha]; exact h1
      · rw [pointsOf_get hlt, hc']; exact h2

/-- The labels of a `MapperClustering` without a clustering, fitted on the data alone. -/
theorem labels_of_charts_nonneg (W : World) (h : Heap) (fuel : ℕ) (cover : Val)
    {k : ℕ} {A : List (Fin k → ℚ)} (hA : A ≠ [])
    (hk : 0 < k) {charts : List (List ℕ)} (hw : WellFormedCharts A.length charts)
    (hcov : Covers A.length charts) (ho : ∀ l L, L ∈ W.setOrder l ↔ L ∈ l)
    (hc : ∀ ay ry, (∃ aX, validateXy (matrixInput A) (matrixInput A) = .ok (aX, ay)) →
      rowsOf ay = .ok ry → LensRows ry A → coverParam W h cover ry = .ok charts) :
    ∃ l, expectedLabels W h fuel cover .none (matrixInput A) none = .ok (l, k) ∧
      l.length = A.length ∧ (∀ L ∈ l, 0 ≤ L) ∧ ∀ i j, i < A.length → j < A.length →
        (l[i]? = l[j]? ↔ Linked (InOneChart charts) i j) := by
  obtain ⟨l, h1, h2, h3⟩ := labels_of_charts W h fuel cover (y := none) (IsLens.matrix A) hA rfl hk hk
    hw hcov ho hc
  refine ⟨l, h1, h2, ?_, h3⟩
  obtain ⟨aX, ay, ry, h4, h5, h6, h7, h8⟩ := validate_lens (IsLens.matrix A) hA hA hk hk
  have h9 := hc ay ry ⟨aX, h4⟩ h7 h8
  have h10 : clustParam W h fuel .none = trivialClustering := rfl
  simp only [expectedLabels, mapperClusteringResult, Option.getD_none, h4, ok_bind, h6, h7, h10] at h1
  obtain ⟨l', h11, h12⟩ := bind_eq_ok.mp h1
  simp only [h5, ok_bind] at h12
  cases h12
  exact components_nonneg (A.map rowArr) ry (coverParam W h cover) charts h9 (by simpa using hw)
    (by simpa using hcov) W.setOrder ho h11

theorem byInit_mapperClustering (W : World) (a b c : Val) : ParamsByInit W.classes
    ⟨"MapperClustering", ⟨[("cover", a), ("clustering", b), ("n_jobs", c)]⟩⟩
    ⟨commonMembers, ⟨[("cover", .none), ("clustering", .none), ("n_jobs", .int 1)]⟩⟩ := by
  refine ⟨by rw [World.classes]; rfl, by simp [PyDict.keys], fun _ _ => ?_⟩
  simp [PyDict.keys]

end Verif

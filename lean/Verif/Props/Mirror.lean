import Verif.Proof.Mirror
import Verif.Props.Columns
import Verif.Props.Isometry

/-!
# C123: the signs of the columns of the lens
-/

set_option autoImplicit false
set_option linter.unusedSectionVars false

namespace Verif

variable {S : Type}

section cubical
variable {R : Type} [Field R] [LinearOrder R] [IsStrictOrderedRing R] [FloorRing R] {m : ℕ}

/-- **C123 (hypercubes, part that holds).** Reversing the signs of any columns of the lens leaves the
charts of `CubicalCover`, the Mapper graph and the connected components as they are, for both
algorithms, whatever the trees and random draws, if every reversed column is constant or has
no entry exactly where two intervals meet. Missing: columns with such entries, see
`C123_cubical_violation`. -/
theorem C123_cubical_partial (dflt dflt' : ℕ → R) (w w' : CubicalCover m R) (p : R)
    (H : CubOK dflt m w.params p) (H' : CubOK dflt' m w'.params p)
    (hn : w.params.nIntervals = w'.params.nIntervals) (ha : w.algorithm = w'.algorithm)
    (hk : w.algorithm = "proximity" ∨ w.algorithm = "standard") (ρ ρ' : ℕ → ℕ)
    (y : List (Fin m → R)) (flip : Fin m → Bool)
    (hoff : ∀ i, flip i = true → FlatColumn y i ∨ OffEnds y w.params.nIntervals i)
    (X : List S) (hlen : X.length = y.length) (clust : ClustFn S)
    (ho : OrderInsensitive clust) (hs : ∀ k xs, ∃ lbls, clust k xs = .ok lbls)
    (order order' : List ℤ → List ℤ)
    (hord : ∀ l L, L ∈ order l ↔ L ∈ l) (hord' : ∀ l L, L ∈ order' l ↔ L ∈ l) :
    (∃ out out', w.apply dflt ρ y = .ok out ∧
      w'.apply dflt' ρ' (y.map (mirror flip)) = .ok out' ∧ SameCharts out out') ∧
    ∃ f g g' out out', mapperGraph X y (w.apply dflt ρ) clust = .ok g ∧
      mapperGraph X (y.map (mirror flip)) (w'.apply dflt' ρ') clust = .ok g' ∧
      RenamedGraph id f g g' ∧ (∀ L, g.IsNode L → g'.nodes.get? (f L) = g.nodes.get? L) ∧
      mapperConnectedComponents order X y (w.apply dflt ρ) clust = .ok out ∧
      mapperConnectedComponents order' X (y.map (mirror flip)) (w'.apply dflt' ρ') clust =
        .ok out' ∧ SameComponents id X.length out out' := by
  have key : ∃ out out', w.apply dflt ρ y = .ok out ∧
      w'.apply dflt' ρ' (y.map (mirror flip)) = .ok out' ∧ SameCharts out out' := by
    by_cases hy : y = []
    · subst hy
      exact (C93_cubical dflt dflt' w w' p H H' hn ha hk ρ ρ' [] [] ⟨rfl, fun _ => .inl
        (fun _ h => by cases h), fun _ => .inl (fun _ h => by cases h)⟩ X hlen clust ho hs order
        order' hord hord').1
    · rcases hk with hk | hk
      · rw [(C28_delegates dflt w ρ y).1 hk, (C28_delegates dflt' w' ρ' _).1 (ha ▸ hk)]
        exact applyProximity_mirror dflt dflt' ⟨w.params, none⟩ ⟨w'.params, none⟩ ρ ρ' y hy p H
          H' hn flip hoff
      · rw [(C28_delegates dflt w ρ y).2.1 hk, (C28_delegates dflt' w' ρ' _).2.1 (ha ▸ hk)]
        exact applyStandard_mirror dflt dflt' ⟨w.params, none⟩ ⟨w'.params, none⟩ ρ ρ' y hy p H
          H' hn flip hoff
  refine ⟨key, ?_⟩
  obtain ⟨a, b, h1, h2, h3⟩ := key
  obtain ⟨a', e, hwf, _⟩ := (C22_cubical_cover dflt ⟨w.params, none⟩ p H ρ y).2.2 _ hk
  have e' : w.apply dflt ρ y = .ok a' := e
  rw [h1] at e'
  cases e'
  refine C93_graph X y _ _ _ clust a b h1 h2 h3 ?_ ho (fun k ids h => ?_) order order' hord hord'
  · intro ids h
    rw [hlen]
    exact (hwf ids h).2
  · obtain ⟨l, hl⟩ := hs k (pointsOf X ids)
    exact ⟨l, h, hl⟩

end cubical

/-- Three intervals of one column with overlap fraction `1/4`. -/
def thirds (algorithm : String) : CubicalCover 1 ℚ :=
  ⟨⟨3, some (1 / 4), "flat", 1, none, "disabled"⟩, algorithm, none⟩

/-- **C123 (hypercubes, violation).** The column `1, 0, 3` with three intervals and overlap fraction
`1/4`: the interval that begins at `1` gives a chart, but with the sign reversed the entry is at
the beginning of the next interval, and there is one chart less. The Mapper graphs, for both
algorithms, have three nodes and two. -/
theorem C123_cubical_violation (algorithm : String)
    (h : algorithm = "proximity" ∨ algorithm = "standard") :
    ∃ (y : List (Fin 1 → ℚ)) (g g' : NxGraph),
      CubOK (fun _ => 1 / 4) 1 (thirds algorithm).params (1 / 4) ∧
      mapperGraph [0, 1, 2] y ((thirds algorithm).apply (fun _ => 1 / 4) fun _ => 0)
        (fun _ => trivialClustering) = .ok g ∧
      mapperGraph [0, 1, 2] (y.map (mirror fun _ => true))
        ((thirds algorithm).apply (fun _ => 1 / 4) fun _ => 0)
        (fun _ => trivialClustering) = .ok g' ∧
      g.nodes.items.length = 3 ∧ g'.nodes.items.length = 2 := by
  have graph : ∀ (y : List (Fin 1 → ℚ)) (cover : CoverFn (Fin 1 → ℚ)) (charts : List (List ℕ)),
      cover y = .ok charts → mapperGraph [0, 1, 2] y cover (fun _ => trivialClustering) =
        mapperGraph [0, 1, 2] [()] (fun _ => .ok charts) (fun _ => trivialClustering) := by
    intro y cover charts h
    unfold mapperGraph mapperLabels
    rw [h]
  have ok : ∀ a, CubOK (fun _ => 1 / 4) 1 (thirds a).params (1 / 4) := fun a =>
    ⟨rfl, by norm_num, by norm_num, by simp [thirds], Or.inl rfl, by simp [thirds]⟩
  rcases h with rfl | rfl
  · exact ⟨[fun _ => 1, fun _ => 0, fun _ => 3], _, _, ok _,
      (graph _ _ [[0], [0, 1], [2]] (by decide +kernel)).trans rfl,
      (graph _ _ [[0, 1], [2]] (by decide +kernel)).trans rfl, rfl, rfl⟩
  · exact ⟨[fun _ => 1, fun _ => 0, fun _ => 3], _, _, ok _,
      (graph _ _ [[2], [0, 1], [0]] (by decide +kernel)).trans rfl,
      (graph _ _ [[2], [0, 1]] (by decide +kernel)).trans rfl, rfl, rfl⟩

/-- Non-vacuity: the column `0, 1, 4` with two intervals has no entry at `2`, and the second column is
constant. -/
example : ∃ out out',
    defaultCub.apply (fun _ => 1 / 3) (fun _ => 0) [pt2 0 7, pt2 1 7, pt2 4 7] = .ok out ∧
    otherCub.apply (fun _ => 1 / 3) (fun n => n) ([pt2 0 7, pt2 1 7, pt2 4 7].map
      (mirror fun _ => true)) = .ok out' ∧ SameCharts out out' := by
  refine (C123_cubical_partial (fun _ => 1 / 3) (fun _ => 1 / 3) defaultCub otherCub (1 / 3)
    ⟨rfl, by norm_num, by norm_num, by decide, Or.inl rfl, by decide⟩
    ⟨rfl, by norm_num, by norm_num, by decide, Or.inr rfl, by decide⟩ rfl rfl (Or.inr rfl)
    (fun _ => 0) (fun n => n) [pt2 0 7, pt2 1 7, pt2 4 7] (fun _ => true) ?_ ([5, 6, -7] : List ℤ)
    rfl parity parity_insensitive (fun _ _ => ⟨_, rfl⟩) id id (fun _ _ => Iff.rfl)
    (fun _ _ => Iff.rfl)).1
  intro i _
  match i with
  | 1 =>
    left
    intro x hx z hz
    simp only [List.mem_cons, List.not_mem_nil, or_false] at hx hz
    rcases hx with rfl | rfl | rfl <;> rcases hz with rfl | rfl | rfl <;> norm_num [pt2]
  | 0 =>
    right
    intro lo hlo hi hhi h x hx k h0 hk
    have hk1 : k = 1 := by
      have : k < 2 := hk
      omega
    subst hk1
    have a := (h (pt2 0 7) (by simp)).1
    have b := (h (pt2 4 7) (by simp)).2
    simp only [List.mem_cons, List.not_mem_nil, or_false] at hlo hhi hx
    rcases hlo with rfl | rfl | rfl <;> rcases hhi with rfl | rfl | rfl <;>
      rcases hx with rfl | rfl | rfl <;> first | (exfalso; revert a; norm_num [pt2]; done) |
      (exfalso; revert b; norm_num [pt2]; done) | norm_num [pt2, defaultCub]

section metrics
variable {m : ℕ}

/-- **C123 (distances).** No metric of the library depends on the signs of the coordinates: reversing
the signs of the same coordinates of both vectors gives the same distance, or the same
exception. -/
theorem C123_distance (flip : Fin m → Bool) (s : String) (kw : PyDict String KwVal) (d : Dist m)
    (hd : getMetric (.name s) kw = .ok d) (x z : RVec m) :
    d (mirror flip x) (mirror flip z) = d x z := by
  have call : ∀ {f g : Dist m}, callNoArgs f kw = .ok g → g = f := by
    intro f g h
    unfold callNoArgs at h
    split at h
    · exact (Except.ok.inj h).symm
    · cases h
  have eu : euclidean (mirror flip x) (mirror flip z) = euclidean x z := by
    simp only [euclidean, mirror_sub, npNorm2_mirror]
  have mi : ∀ q, (Except.ok (npNorm q (mirror flip x - mirror flip z)) : Py ℝ) =
      .ok (npNorm q (x - z)) := by
    intro q
    rw [mirror_sub, npNorm_mirror]
  have co : cosine (mirror flip x) (mirror flip z) = cosine x z := by
    simp only [cosine, npNorm2_mirror, npDot_mirror]
  unfold getMetric at hd
  simp only at hd
  split at hd
  · rw [call hd]; exact eu
  split at hd
  · rw [call hd]; exact mi _
  split at hd
  · unfold callMinkowski at hd
    split at hd
    · split at hd
      · rename_i v _ _
        cases v with
        | other => cases hd
        | num p =>
          cases hd
          cases p with
          | posInf => exact mi _
          | negInf => exact mi _
          | real p =>
            unfold minkowski
            simp only
            split
            · exact mi _
            split
            · exact eu
            exact mi _
      · cases hd
    · cases hd
  split at hd
  · rw [call hd]; exact mi _
  split at hd
  · rw [call hd]; exact co
  cases hd

/-- **C123 (balls and neighbours).** With any metric of the library that does not raise for the rows of
the lens, reversing the signs of any columns of the lens leaves the charts of `BallCover` and
`KNNCover` exactly as they are, for the same random draws, and with them the labels, the Mapper graph
and the connected components. -/
theorem C123_metric (c : BallCover (RVec m) ℝ) (k : KnnCover (RVec m) ℝ) (s : String)
    (kw : PyDict String KwVal) (d : Dist m) (hd : getMetric (.name s) kw = .ok d)
    (hc : ∀ x z v, d x z = .ok v → c.params.metric x z = v ∧ k.params.metric x z = v)
    (flip : Fin m → Bool) (ρ : ℕ → ℕ) (y : List (RVec m))
    (hy : ∀ x ∈ y, ∀ z ∈ y, ∃ v, d x z = .ok v)
    (X : List S) (clust : ClustFn S) (order : List ℤ → List ℤ) (cover : CoverFn (RVec m))
    (hcover : cover = c.apply ρ ∨ cover = k.apply ρ) :
    cover (y.map (mirror flip)) = cover y ∧
      mapperLabels X (y.map (mirror flip)) cover clust = mapperLabels X y cover clust ∧
      mapperGraph X (y.map (mirror flip)) cover clust = mapperGraph X y cover clust ∧
      mapperConnectedComponents order X (y.map (mirror flip)) cover clust =
        mapperConnectedComponents order X y cover clust := by
  have hr : ∀ δ : RVec m → RVec m → ℝ, (∀ x z v, d x z = .ok v → δ x z = v) →
      RowsAgree y (y.map (mirror flip)) fun x z x' z' => δ x' z' = id (δ x z) := by
    refine fun δ h => ⟨by simp, fun i j xi xj xi' xj' h1 h2 h3 h4 => ?_⟩
    rw [List.getElem?_map, h1] at h3
    rw [List.getElem?_map, h2] at h4
    cases h3
    cases h4
    obtain ⟨v, hv⟩ := hy xi (List.mem_of_getElem? h1) xj (List.mem_of_getElem? h2)
    have := C123_distance flip s kw d hd xi xj
    rw [h _ _ v (this.trans hv), h _ _ v hv]
    rfl
  have hcov : cover (y.map (mirror flip)) = cover y := by
    rcases hcover with rfl | rfl
    · exact C121_ball unitChange_id c c ⟨rfl, rfl, rfl, by simp, rfl⟩ ρ y _
        (hr _ fun x z v h => (hc x z v h).1)
    · exact C121_knn unitChange_id k k ⟨rfl, rfl, rfl, rfl, rfl⟩ ρ y _
        (hr _ fun x z v h => (hc x z v h).2)
  have hl : mapperLabels X (y.map (mirror flip)) cover clust = mapperLabels X y cover clust := by
    unfold mapperLabels
    rw [hcov]
  unfold mapperGraph mapperConnectedComponents
  rw [hl]
  exact ⟨hcov, rfl, rfl, rfl⟩

/-- Non-vacuity: the cosine distance, which raises for zero vectors, and a lens with the sign of the
first of two columns reversed. -/
example (ρ : ℕ → ℕ) (c : BallCover (RVec 2) ℝ) (k : KnnCover (RVec 2) ℝ)
    (hc : c.params.metric = fun x z => ((cosine x z).toOption).getD 0)
    (hk : k.params.metric = fun x z => ((cosine x z).toOption).getD 0) :
    c.apply ρ ([![1, 0], ![3, 4]].map (mirror fun i => i == 0)) = c.apply ρ [![1, 0], ![3, 4]] := by
  refine (C123_metric c k "cosine" PyDict.empty cosine rfl ?_ (fun i => i == 0) ρ _ ?_ ([] : List ℤ)
    parity id _ (.inl rfl)).1
  · intro x z v h
    rw [hc, hk]
    simp [h, Except.toOption]
  · have hpos : ∀ x ∈ [![1, 0], ![3, 4]], npNorm2 (x : RVec 2) ≠ 0 := by
      intro x hx
      simp only [List.mem_cons, List.not_mem_nil, or_false] at hx
      rcases hx with rfl | rfl <;> norm_num [npNorm2, Fin.sum_univ_two]
    intro x hx z hz
    unfold cosine
    simp only [mul_eq_zero, hpos x hx, hpos z hz, or_self, if_false]
    exact ⟨_, rfl⟩

end metrics

end Verif

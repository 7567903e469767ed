import Verif.Proof.Reproducible
import Mathlib.Tactic.IntervalCases

/-!
# C70–C72: which inputs the result depends on

`SameCharts`, `Shuffled`, `OrderInsensitive`, `RenamedGraph` and `SameComponents` are in
`Verif.Spec.Reproducible`.
-/

set_option autoImplicit false

namespace Verif

variable {S T : Type}

/-- Clusterings that look only at one point at a time do not depend on the order of the
points: among them the trivial clustering. -/
theorem orderInsensitive_map (h : S → ℤ) : OrderInsensitive (fun _ xs => .ok (xs.map h)) := by
  rintro c xs lbls e
  cases e
  refine ⟨by simp, fun π xs' hS => ⟨_, rfl, by simp [hS.length], ?_⟩⟩
  intro m m' l k l' k' h1 h2 h3 h4
  rw [List.getElem?_map] at h1 h2 h3 h4
  have key : ∀ (m : ℕ) (l l' : ℤ), (xs[π m]?).map h = some l → (xs'[m]?).map h = some l' →
      l = l' := by
    intro m l l' h1 h3
    obtain ⟨x, hx, _⟩ := Option.map_eq_some_iff.mp h3
    have hm := getElem?_lt hx
    rw [hS.length] at hm
    rw [(hS.entry m hm).2, h1] at h3
    exact Option.some_inj.mp h3
  rw [key m l l' h1 h3, key m' k k' h2 h4]
  exact ⟨Iff.rfl, fun _ _ => Iff.rfl⟩

/-- The clustering that puts the even numbers in one cluster, the odd ones in another and
takes negative numbers for noise. -/
def parity : ClustFn ℤ := fun _ xs => .ok (xs.map fun x => if x < 0 then -1 else x % 2)

theorem parity_insensitive : OrderInsensitive parity :=
  orderInsensitive_map fun x => if x < 0 then -1 else x % 2

/-! ### C70 -/

/-- **C70 (graph).** If two covers give the same charts in the same order, up to the order of
the indices within charts, and the clustering finds the same clusters in whatever order it is
given the points, then the two Mapper graphs are the same up to the numbers of the nodes: same
`size` and `ids` for corresponding nodes, same edges; and the connected components are the
same sets of points. -/
theorem C70_graph (X : List S) (y : List T) (cover cover' : CoverFn T)
    (clust : ClustFn S) (charts charts' : List (List ℕ)) (hc : cover y = .ok charts)
    (hc' : cover' y = .ok charts') (hsame : SameCharts charts charts')
    (hg : GoodCharts X.length charts) (ho : OrderInsensitive clust)
    (hs : ClusteringSucceeds X charts clust) (order order' : List ℤ → List ℤ)
    (hord : ∀ l L, L ∈ order l ↔ L ∈ l) (hord' : ∀ l L, L ∈ order' l ↔ L ∈ l) :
    ∃ f g g' out out', mapperGraph X y cover clust = .ok g ∧
      mapperGraph X y cover' clust = .ok g' ∧ RenamedGraph id f g g' ∧
      (∀ L, g.IsNode L → g'.nodes.get? (f L) = g.nodes.get? L) ∧
      mapperConnectedComponents order X y cover clust = .ok out ∧
      mapperConnectedComponents order' X y cover' clust = .ok out' ∧
      SameComponents id X.length out out' := by
  obtain ⟨f, g, g', out, out', h1, h2, h3, h4, h5, h6, h7, h8⟩ :=
    (hsame.sameRuns (X := X)).result hc hc' hg ho (fun _ _ => rfl) hs order order' hord hord'
  refine ⟨f, g, g', out, out', h1, h2, h3, ?_, h4, h5, h6⟩
  intro L hL
  obtain ⟨size, ids, ids', e1, e2, hp⟩ := h3.attr L hL
  rw [List.map_id] at hp
  have s1 := h7 L hL _ e1 ids rfl
  have s2 := h8 (f L) ((h3.nodes _).mpr ⟨L, hL, rfl⟩) _ e2 ids' rfl
  rw [e1, e2, sorted_eq s2 s1 fun i => hp.mem_iff]

/-- Non-vacuity: the same charts listed differently. The clusters of the first chart get other
numbers only if the clustering chooses so; the theorem applies to both runs. -/
example : ∃ f g g' out out',
    mapperGraph [5, 6, -7] [0, 0, 0] (fun _ : List ℕ => .ok [[0, 1], [2, 1]]) parity = .ok g ∧
      mapperGraph [5, 6, -7] [0, 0, 0] (fun _ : List ℕ => .ok [[1, 0], [1, 2]]) parity = .ok g' ∧
      RenamedGraph id f g g' ∧ (∀ L, g.IsNode L → g'.nodes.get? (f L) = g.nodes.get? L) ∧
      mapperConnectedComponents id [5, 6, -7] [0, 0, 0]
        (fun _ : List ℕ => .ok [[0, 1], [2, 1]]) parity = .ok out ∧
      mapperConnectedComponents List.reverse [5, 6, -7] [0, 0, 0]
        (fun _ : List ℕ => .ok [[1, 0], [1, 2]]) parity = .ok out' ∧ SameComponents id 3 out out' :=
  C70_graph [5, 6, -7] [0, 0, 0] _ _ parity [[0, 1], [2, 1]] [[1, 0], [1, 2]] rfl rfl
    (.cons (.swap 1 0 []) (.cons (.swap 1 2 []) .nil))
    (by intro ids h
        simp only [List.mem_cons, List.not_mem_nil, or_false] at h
        rcases h with rfl | rfl <;> decide)
    parity_insensitive (fun c ids h => ⟨_, h, rfl⟩) id List.reverse (fun _ _ => Iff.rfl)
    (fun _ _ => List.mem_reverse)

section metric
variable {R : Type} [AddCommGroup R] [LinearOrder R] [IsOrderedAddMonoid R]

/-- **C70 (balls).** The charts of `BallCover.apply` depend only on the data, the metric and
the radius: not on the kind of tree, the leaf capacity, the leaf radius, the pivoting strategy,
the random draws, nor on what the object was fitted on before. -/
theorem C70_ball (c c' : BallCover T R) (H : BallOK c.params) (H' : BallOK c'.params)
    (hm : c.params.metric = c'.params.metric) (hr : c.params.radius = c'.params.radius)
    (ρ ρ' : ℕ → ℕ) (y : List T) :
    ∃ out out', c.apply ρ y = .ok out ∧ c'.apply ρ' y = .ok out' ∧ SameCharts out out' := by
  obtain ⟨d, h1, h2⟩ := ballFit_ok c H.metric H.kind H.capacity ρ y
  obtain ⟨d', h1', h2'⟩ := ballFit_ok c' H'.metric H'.kind H'.capacity ρ' y
  refine proximityNet_same h1 h1' fun x hx => ?_
  have hy : y ≠ [] := List.ne_nil_of_mem hx
  obtain ⟨a, ha, hla⟩ := h2 hy x
  obtain ⟨b, hb, hlb⟩ := h2' hy x
  rw [← hm, ← hr] at hlb
  exact ⟨a, b, ha, hb, hla.perm hlb⟩

/-- The balls of `demoBall 2`, searched in a hierarchical tree with random pivots. -/
def otherBall : BallCover ℤ ℤ := ⟨⟨2, absDist, "hierarchical", 3, some 1, "random"⟩, none⟩

theorem otherBall_ok : BallOK otherBall.params := ⟨absDist_pseudo, Or.inr rfl, by decide⟩

/-- Non-vacuity: a flat tree without pivoting and a hierarchical one with random pivots. -/
example : ∃ out out', (demoBall 2).apply (fun _ => 0) [5, 1, 3, 4, 9] = .ok out ∧
    otherBall.apply
      (fun n => n * n) [5, 1, 3, 4, 9] = .ok out' ∧ SameCharts out out' :=
  C70_ball (demoBall 2) otherBall (demoBall_ok 2) otherBall_ok rfl rfl _ _ _

/-- **C70 (balls, graph).** Hence the Mapper graph of a `BallCover` with a positive radius, and
its connected components, depend only on the data, the lens, the metric, the radius and the
clustering. -/
theorem C70_ball_graph (c c' : BallCover T R) (H : BallOK c.params) (H' : BallOK c'.params)
    (hm : c.params.metric = c'.params.metric) (hr : c.params.radius = c'.params.radius)
    (h0 : 0 < c.params.radius) (ρ ρ' : ℕ → ℕ) (X : List S) (y : List T)
    (hlen : X.length = y.length) (clust : ClustFn S) (ho : OrderInsensitive clust)
    (hs : ∀ k xs, ∃ lbls, clust k xs = .ok lbls) (order order' : List ℤ → List ℤ)
    (hord : ∀ l L, L ∈ order l ↔ L ∈ l) (hord' : ∀ l L, L ∈ order' l ↔ L ∈ l) :
    ∃ f g g' out out', mapperGraph X y (c.apply ρ) clust = .ok g ∧
      mapperGraph X y (c'.apply ρ') clust = .ok g' ∧ RenamedGraph id f g g' ∧
      (∀ L, g.IsNode L → g'.nodes.get? (f L) = g.nodes.get? L) ∧
      mapperConnectedComponents order X y (c.apply ρ) clust = .ok out ∧
      mapperConnectedComponents order' X y (c'.apply ρ') clust = .ok out' ∧
      SameComponents id X.length out out' := by
  obtain ⟨a, b, ha, hb, hab⟩ := C70_ball c c' H H' hm hr ρ ρ' y
  obtain ⟨a', _, ha', hwf, _⟩ := C18_ball_cover c H h0 ρ y
  rw [ha] at ha'
  cases ha'
  refine C70_graph X y _ _ clust a b ha hb hab ?_ ho (fun k ids h => ?_) order order' hord hord'
  · intro ids h
    rw [hlen]
    exact (hwf ids h).2
  · obtain ⟨l, hl⟩ := hs k (pointsOf X ids)
    exact ⟨l, h, hl⟩

example : ∃ f g g' out out', mapperGraph [5, 1, 3, 4, 9] [5, 1, 3, 4, 9]
      ((demoBall 2).apply fun _ => 0) parity = .ok g ∧
    mapperGraph [5, 1, 3, 4, 9] [5, 1, 3, 4, 9]
      (otherBall.apply
        fun n => n * n) parity = .ok g' ∧
      RenamedGraph id f g g' ∧ (∀ L, g.IsNode L → g'.nodes.get? (f L) = g.nodes.get? L) ∧
      mapperConnectedComponents id [5, 1, 3, 4, 9] [5, 1, 3, 4, 9]
        ((demoBall 2).apply fun _ => 0) parity = .ok out ∧
      mapperConnectedComponents id [5, 1, 3, 4, 9] [5, 1, 3, 4, 9]
        (otherBall.apply
          fun n => n * n) parity = .ok out' ∧ SameComponents id 5 out out' :=
  C70_ball_graph (demoBall 2) otherBall (demoBall_ok 2) otherBall_ok rfl rfl (by decide)
    (fun _ => 0) (fun n => n * n) [5, 1, 3, 4, 9] [5, 1, 3, 4, 9] rfl parity parity_insensitive (fun _ _ => ⟨_, rfl⟩) id id
    (fun _ _ => Iff.rfl) (fun _ _ => Iff.rfl)

/-- **C71 (neighbours, part that holds).** The charts of `KNNCover.apply` do not depend on the
tree either, if no two points are at the same distance from a third. Missing: data with ties,
see `C71_knn_violation`. -/
theorem C71_knn_partial (c c' : KnnCover T R) (H : KnnOK c.params) (H' : KnnOK c'.params)
    (hm : c.params.metric = c'.params.metric) (hk : c.params.neighbors = c'.params.neighbors)
    (ρ ρ' : ℕ → ℕ) (y : List T)
    (hties : ∀ q ∈ y, ∀ (i j : ℕ) xi xj, y[i]? = some xi → y[j]? = some xj →
      c.params.metric q xi = c.params.metric q xj → i = j) :
    ∃ out out', c.apply ρ y = .ok out ∧ c'.apply ρ' y = .ok out' ∧ SameCharts out out' := by
  obtain ⟨d, h1, h2⟩ := knnFit_ok c H.metric H.kind H.neighbors ρ y
  obtain ⟨d', h1', h2'⟩ := knnFit_ok c' H'.metric H'.kind H'.neighbors ρ' y
  refine proximityNet_same h1 h1' fun x hx => ?_
  have hy : y ≠ [] := List.ne_nil_of_mem hx
  obtain ⟨a, ha, hla⟩ := h2 hy x
  obtain ⟨b, hb, hlb⟩ := h2' hy x
  rw [← hm, ← hk] at hlb
  exact ⟨a, b, ha, hb, NearestIndices.perm (hties x hx) hla hlb⟩

theorem knn_goodCharts (c : KnnCover T R) (H : KnnOK c.params) (ρ : ℕ → ℕ) (y : List T)
    {charts : List (List ℕ)} (h : c.apply ρ y = .ok charts) : GoodCharts y.length charts := by
  obtain ⟨c', h1, h2⟩ := knnFit_ok c H.metric H.kind H.neighbors ρ y
  cases y with
  | nil =>
    simp only [KnnCover.apply, proximityNet, h1, ok_bind, proximityLoop, Except.ok.injEq] at h
    subst h
    intro ids h; cases h
  | cons x₀ xs =>
    choose f hf hl using h2 (by simp)
    obtain ⟨out, cs, e, _, _, ho⟩ := C29_proximity_net (c.fit ρ) KnnCover.search (x₀ :: xs) c' h1
      (fun i => f (((x₀ :: xs)[i]?).getD x₀)) (fun i x hx => by rw [hx]; exact hf x)
    have : charts = out := Except.ok.inj (h.symm.trans e)
    subst this
    intro ids hids
    rw [ho] at hids
    obtain ⟨i, _, rfl⟩ := List.mem_map.mp (List.mem_filter.mp hids).1
    obtain ⟨a, _, b, _⟩ := hl (((x₀ :: xs)[i]?).getD x₀)
    exact ⟨a, b⟩

/-- **C71 (neighbours, graph, part that holds).** Hence, without ties, the Mapper graph of a `KNNCover`
and its connected components depend only on the data, the lens, the metric, the number of neighbours
and the clustering. Missing: data with ties, see `C71_knn_violation`. -/
theorem C71_knn_graph_partial (c c' : KnnCover T R) (H : KnnOK c.params) (H' : KnnOK c'.params)
    (hm : c.params.metric = c'.params.metric) (hk : c.params.neighbors = c'.params.neighbors)
    (ρ ρ' : ℕ → ℕ) (X : List S) (y : List T) (hlen : X.length = y.length)
    (hties : ∀ q ∈ y, ∀ (i j : ℕ) xi xj, y[i]? = some xi → y[j]? = some xj →
      c.params.metric q xi = c.params.metric q xj → i = j)
    (clust : ClustFn S) (ho : OrderInsensitive clust)
    (hs : ∀ k xs, ∃ lbls, clust k xs = .ok lbls) (order order' : List ℤ → List ℤ)
    (hord : ∀ l L, L ∈ order l ↔ L ∈ l) (hord' : ∀ l L, L ∈ order' l ↔ L ∈ l) :
    ∃ f g g' out out', mapperGraph X y (c.apply ρ) clust = .ok g ∧
      mapperGraph X y (c'.apply ρ') clust = .ok g' ∧ RenamedGraph id f g g' ∧
      (∀ L, g.IsNode L → g'.nodes.get? (f L) = g.nodes.get? L) ∧
      mapperConnectedComponents order X y (c.apply ρ) clust = .ok out ∧
      mapperConnectedComponents order' X y (c'.apply ρ') clust = .ok out' ∧
      SameComponents id X.length out out' := by
  obtain ⟨a, b, ha, hb, hab⟩ := C71_knn_partial c c' H H' hm hk ρ ρ' y hties
  refine C70_graph X y _ _ clust a b ha hb hab ?_ ho (fun k ids h => ?_) order order' hord hord'
  · rw [hlen]; exact knn_goodCharts c H ρ y ha
  · obtain ⟨l, hl⟩ := hs k (pointsOf X ids)
    exact ⟨l, h, hl⟩

/-- The parameters of `demoKnn 2` with another tree. -/
def otherKnn : KnnCover ℤ ℤ := ⟨⟨2, absDist, "hierarchical", some 1, 0, "furthest"⟩, none⟩

theorem otherKnn_ok : KnnOK otherKnn.params := ⟨absDist_pseudo, Or.inr rfl, by decide⟩

/-- Numbers with distinct differences. -/
theorem distinct_differences : ∀ q ∈ ([0, 1, 4, 9] : List ℤ), ∀ (i j : ℕ) xi xj,
    ([0, 1, 4, 9] : List ℤ)[i]? = some xi → ([0, 1, 4, 9] : List ℤ)[j]? = some xj →
    absDist q xi = absDist q xj → i = j := by
  intro q hq i j xi xj hi hj
  have hi' := getElem?_lt hi
  have hj' := getElem?_lt hj
  simp only [List.length_cons, List.length_nil] at hi' hj'
  simp only [List.mem_cons, List.not_mem_nil, or_false] at hq
  interval_cases i <;> interval_cases j <;> simp at hi hj <;> subst hi <;> subst hj <;>
    rcases hq with rfl | rfl | rfl | rfl <;> decide

/-- Non-vacuity: numbers with distinct differences. -/
example : ∃ out out', (demoKnn 2).apply (fun _ => 0) [0, 1, 4, 9] = .ok out ∧
    otherKnn.apply
      (fun n => n) [0, 1, 4, 9] = .ok out' ∧ SameCharts out out' :=
  C71_knn_partial (demoKnn 2) otherKnn (demoKnn_ok 2 (by decide)) otherKnn_ok rfl rfl (fun _ => 0)
    (fun n => n) [0, 1, 4, 9] distinct_differences

example : ∃ f g g' out out',
    mapperGraph [5, 1, 3, -4] [0, 1, 4, 9] ((demoKnn 2).apply fun _ => 0) parity = .ok g ∧
    mapperGraph [5, 1, 3, -4] [0, 1, 4, 9] (otherKnn.apply fun n => n) parity = .ok g' ∧
      RenamedGraph id f g g' ∧ (∀ L, g.IsNode L → g'.nodes.get? (f L) = g.nodes.get? L) ∧
      mapperConnectedComponents id [5, 1, 3, -4] [0, 1, 4, 9] ((demoKnn 2).apply fun _ => 0) parity =
        .ok out ∧
      mapperConnectedComponents id [5, 1, 3, -4] [0, 1, 4, 9] (otherKnn.apply fun n => n) parity =
        .ok out' ∧ SameComponents id 4 out out' :=
  C71_knn_graph_partial (demoKnn 2) otherKnn (demoKnn_ok 2 (by decide)) otherKnn_ok rfl rfl
    (fun _ => 0) (fun n => n) ([5, 1, 3, -4] : List ℤ) [0, 1, 4, 9] rfl distinct_differences parity
    parity_insensitive (fun _ _ => ⟨_, rfl⟩) id id (fun _ _ => Iff.rfl) (fun _ _ => Iff.rfl)

/-- Two neighbours on the line, one point per leaf, random pivots. -/
def randomKnn : KnnCover ℤ ℤ := ⟨⟨2, absDist, "flat", some 1, 0, "random"⟩, none⟩

/-- **C71 (neighbours, violation).** With ties, `KNNCover` is not reproducible: on the points
`0, 2, -2, 3` with two neighbours and random pivots, two runs of the same code with the same
parameters and other random draws give Mapper graphs with two and with three nodes, and other
connected components. -/
theorem C71_knn_violation :
    ∃ (X : List ℤ) (ρ ρ' : ℕ → ℕ) (g g' : NxGraph) (out out' : List ℤ),
      KnnOK randomKnn.params ∧
      mapperGraph X X (randomKnn.apply ρ) (fun _ => trivialClustering) = .ok g ∧
      mapperGraph X X (randomKnn.apply ρ') (fun _ => trivialClustering) = .ok g' ∧
      g.nodes.items.length = 2 ∧ g'.nodes.items.length = 3 ∧
      mapperConnectedComponents id X X (randomKnn.apply ρ) (fun _ => trivialClustering) = .ok out ∧
      mapperConnectedComponents id X X (randomKnn.apply ρ') (fun _ => trivialClustering) =
        .ok out' ∧ ¬ SameComponents id X.length out out' := by
  refine ⟨[0, 2, -2, 3], fun _ => 0, fun _ => 1, _, _, _, _,
    ⟨absDist_pseudo, Or.inl rfl, by decide⟩, rfl, rfl, by rfl, by rfl, rfl, rfl, ?_⟩
  rintro ⟨_, _, _, h⟩
  exact absurd ((h 0 1 (by decide) (by decide)).mpr (by decide +kernel)) (by decide +kernel)

end metric

section cubical
variable {R : Type} [Field R] [LinearOrder R] [IsStrictOrderedRing R] [FloorRing R] {m : ℕ}

/-- **C70 (hypercubes).** The charts of `CubicalCover.apply` depend only on the data, the
algorithm, the number of intervals and the overlap fraction (given or default): not on the
kind of tree, the leaf capacity, the leaf radius, the pivoting strategy, the random draws, nor
on earlier fits. -/
theorem C70_cubical (dflt : ℕ → R) (w w' : CubicalCover m R) (p : R)
    (H : CubOK dflt m w.params p) (H' : CubOK dflt m w'.params p)
    (hn : w.params.nIntervals = w'.params.nIntervals) (ha : w.algorithm = w'.algorithm)
    (hk : w.algorithm = "proximity" ∨ w.algorithm = "standard") (ρ ρ' : ℕ → ℕ)
    (y : List (Fin m → R)) (hy : y ≠ []) :
    ∃ out out', w.apply dflt ρ y = .ok out ∧ w'.apply dflt ρ' y = .ok out' ∧
      SameCharts out out' := by
  rcases hk with hk | hk
  · rw [(C28_delegates dflt w ρ y).1 hk, (C28_delegates dflt w' ρ' y).1 (ha ▸ hk)]
    exact applyProximity_same dflt dflt ⟨w.params, none⟩ ⟨w'.params, none⟩ ρ ρ' y hy p H H' hn
  · rw [(C28_delegates dflt w ρ y).2.1 hk, (C28_delegates dflt w' ρ' y).2.1 (ha ▸ hk)]
    exact applyStandard_same dflt dflt ⟨w.params, none⟩ ⟨w'.params, none⟩ ρ ρ' y hy p H H' hn

/-- **C70 (hypercubes, graph).** Hence the Mapper graph of a `CubicalCover`, and its connected
components, depend only on the data, the lens, the algorithm, the number of intervals, the overlap
fraction and the clustering. -/
theorem C70_cubical_graph (dflt : ℕ → R) (w w' : CubicalCover m R) (p : R)
    (H : CubOK dflt m w.params p) (H' : CubOK dflt m w'.params p)
    (hn : w.params.nIntervals = w'.params.nIntervals) (ha : w.algorithm = w'.algorithm)
    (hk : w.algorithm = "proximity" ∨ w.algorithm = "standard") (ρ ρ' : ℕ → ℕ) (X : List S)
    (y : List (Fin m → R)) (hy : y ≠ []) (hlen : X.length = y.length) (clust : ClustFn S)
    (ho : OrderInsensitive clust) (hs : ∀ k xs, ∃ lbls, clust k xs = .ok lbls)
    (order order' : List ℤ → List ℤ)
    (hord : ∀ l L, L ∈ order l ↔ L ∈ l) (hord' : ∀ l L, L ∈ order' l ↔ L ∈ l) :
    ∃ f g g' out out', mapperGraph X y (w.apply dflt ρ) clust = .ok g ∧
      mapperGraph X y (w'.apply dflt ρ') clust = .ok g' ∧ RenamedGraph id f g g' ∧
      (∀ L, g.IsNode L → g'.nodes.get? (f L) = g.nodes.get? L) ∧
      mapperConnectedComponents order X y (w.apply dflt ρ) clust = .ok out ∧
      mapperConnectedComponents order' X y (w'.apply dflt ρ') clust = .ok out' ∧
      SameComponents id X.length out out' := by
  obtain ⟨a, b, hca, hcb, hab⟩ := C70_cubical dflt w w' p H H' hn ha hk ρ ρ' y hy
  obtain ⟨lo, hi, hbd⟩ := exists_bounds y hy
  have hwf : WellFormedCharts y.length a := by
    rcases hk with hk | hk
    · obtain ⟨_, out, e, _, _, h, _⟩ := applyProximity_ok dflt ⟨w.params, none⟩ ρ y hy p H hbd
      rw [(C28_delegates dflt w ρ y).1 hk] at hca
      have : a = out := Except.ok.inj (hca.symm.trans e)
      exact this ▸ wellFormed_of_forall₂ h
    · obtain ⟨_, out, e, _, _, h, _⟩ := applyStandard_ok dflt ⟨w.params, none⟩ ρ y hy p H hbd
      rw [(C28_delegates dflt w ρ y).2.1 hk] at hca
      have : a = out := Except.ok.inj (hca.symm.trans e)
      exact this ▸ wellFormed_of_forall₂ h
  refine C70_graph X y _ _ clust a b hca hcb hab ?_ ho (fun k ids h => ?_) order order' hord hord'
  · intro ids h
    rw [hlen]
    exact (hwf ids h).2
  · obtain ⟨l, hl⟩ := hs k (pointsOf X ids)
    exact ⟨l, h, hl⟩

/-- Two covers with the same overlap, by default and given, and other trees. -/
def defaultCub : CubicalCover 2 ℚ := ⟨⟨2, none, "flat", 1, none, "disabled"⟩, "standard", none⟩

def otherCub : CubicalCover 2 ℚ :=
  ⟨⟨2, some (1 / 3), "hierarchical", 2, some 1, "random"⟩, "standard", none⟩

/-- Non-vacuity: the default overlap and the same overlap given explicitly, other trees. -/
example : ∃ out out',
    defaultCub.apply (fun _ => 1 / 3) (fun _ => 0) [pt2 0 7, pt2 2 7, pt2 4 8] = .ok out ∧
    otherCub.apply (fun _ => 1 / 3) (fun n => n) [pt2 0 7, pt2 2 7, pt2 4 8] = .ok out' ∧
    SameCharts out out' :=
  C70_cubical (fun _ => 1 / 3) defaultCub otherCub (1 / 3)
    ⟨rfl, by norm_num, by norm_num, by decide, Or.inl rfl, by decide⟩
    ⟨rfl, by norm_num, by norm_num, by decide, Or.inr rfl, by decide⟩ rfl rfl (Or.inr rfl)
    (fun _ => 0) (fun n => n) [pt2 0 7, pt2 2 7, pt2 4 8] (by simp)

example : ∃ f g g' out out',
    mapperGraph [5, 1, -3] [pt2 0 7, pt2 2 7, pt2 4 8] (defaultCub.apply (fun _ => 1 / 3) fun _ => 0)
      parity = .ok g ∧
    mapperGraph [5, 1, -3] [pt2 0 7, pt2 2 7, pt2 4 8] (otherCub.apply (fun _ => 1 / 3) fun n => n)
      parity = .ok g' ∧ RenamedGraph id f g g' ∧
    (∀ L, g.IsNode L → g'.nodes.get? (f L) = g.nodes.get? L) ∧
    mapperConnectedComponents id [5, 1, -3] [pt2 0 7, pt2 2 7, pt2 4 8]
      (defaultCub.apply (fun _ => 1 / 3) fun _ => 0) parity = .ok out ∧
    mapperConnectedComponents id [5, 1, -3] [pt2 0 7, pt2 2 7, pt2 4 8]
      (otherCub.apply (fun _ => 1 / 3) fun n => n) parity = .ok out' ∧ SameComponents id 3 out out' :=
  C70_cubical_graph (fun _ => 1 / 3) defaultCub otherCub (1 / 3)
    ⟨rfl, by norm_num, by norm_num, by decide, Or.inl rfl, by decide⟩
    ⟨rfl, by norm_num, by norm_num, by decide, Or.inr rfl, by decide⟩ rfl rfl (Or.inr rfl)
    (fun _ => 0) (fun n => n) ([5, 1, -3] : List ℤ) [pt2 0 7, pt2 2 7, pt2 4 8] (by simp) rfl parity
    parity_insensitive (fun _ _ => ⟨_, rfl⟩) id id (fun _ _ => Iff.rfl) (fun _ _ => Iff.rfl)

/-! ### C72 -/

/-- **C72 (part that holds).** With the standard cubical cover and a clustering that treats all
charts alike and does not look at the order of points, the order of the rows does not matter:
shuffling the rows of the data and of the lens alike gives the same Mapper graph up to the
numbers of nodes and the names of the points, and the same connected components. Missing: the
covers that choose centres greedily, see `C72_ball_violation` and
`C72_proximity_violation`. -/
theorem C72_standard_partial (dflt : ℕ → R) (c : CubCover m R) (p : R)
    (H : CubOK dflt m c.params p) (ρ ρ' : ℕ → ℕ) (π : ℕ → ℕ) (X X' : List S)
    (y y' : List (Fin m → R)) (hX : Shuffled π X X') (hy : Shuffled π y y')
    (hlen : X.length = y.length) (hne : y ≠ []) (clust : ClustFn S)
    (ho : OrderInsensitive clust) (halike : ∀ k k' xs, clust k xs = clust k' xs)
    (hs : ∀ k xs, ∃ lbls, clust k xs = .ok lbls) (order order' : List ℤ → List ℤ)
    (hord : ∀ l L, L ∈ order l ↔ L ∈ l) (hord' : ∀ l L, L ∈ order' l ↔ L ∈ l) :
    ∃ f g g' out out', mapperGraph X' y' (c.applyStandard dflt ρ') clust = .ok g' ∧
      mapperGraph X y (c.applyStandard dflt ρ) clust = .ok g ∧ RenamedGraph π f g' g ∧
      mapperConnectedComponents order' X' y' (c.applyStandard dflt ρ') clust = .ok out' ∧
      mapperConnectedComponents order X y (c.applyStandard dflt ρ) clust = .ok out ∧
      SameComponents π X.length out' out := by
  obtain ⟨lo, hi, hb⟩ := exists_bounds y hne
  have hne' : y' ≠ [] := by
    intro h
    have := hy.length
    rw [h] at this
    exact hne (List.length_eq_zero_iff.mp this.symm)
  have hb' : IsBounds y' lo hi := by
    intro i
    obtain ⟨⟨x1, h1, e1⟩, ⟨x2, h2, e2⟩, h3⟩ := hb i
    exact ⟨⟨x1, (hy.mem_iff _).mpr h1, e1⟩, ⟨x2, (hy.mem_iff _).mpr h2, e2⟩,
      fun x hx => h3 x ((hy.mem_iff _).mp hx)⟩
  obtain ⟨cells, charts, e, hnd, hm, hl, _⟩ := applyStandard_ok dflt c ρ y hne p H hb
  obtain ⟨cells', charts', e', hnd', hm', hl', _⟩ := applyStandard_ok dflt c ρ' y' hne' p H hb'
  obtain ⟨κ, hR⟩ := sameRuns_of_cells hX hy hnd hnd'
    (fun cell => by
      rw [hm, hm']
      exact ⟨fun ⟨x, h1, h2⟩ => ⟨x, (hy.mem_iff _).mpr h1, h2⟩,
        fun ⟨x, h1, h2⟩ => ⟨x, (hy.mem_iff _).mp h1, h2⟩⟩)
    (hl.imp fun _ _ h => h.1) (hl'.imp fun _ _ h => h.1)
  have hgood : GoodCharts X'.length charts' := by
    intro ids h
    obtain ⟨h1, h2, h3⟩ := wellFormed_of_forall₂ hl' ids h
    exact ⟨h2, fun i hi => by rw [hX.length, hlen, ← hy.length]; exact h3 i hi⟩
  obtain ⟨f, g', g, out', out, h1, h2, h3, h4, h5, h6, _⟩ := hR.result e' e hgood ho
    (fun k xs => halike _ _ _) (fun k ids h => by
      obtain ⟨l, hl⟩ := hs k (pointsOf X' ids)
      exact ⟨l, h, hl⟩) order' order hord' hord
  rw [hX.length] at h6
  exact ⟨f, g, g', out, out', h1, h2, h3, h4, h5, h6⟩

end cubical

/-- The first two of three rows exchanged. -/
def swap01 : ℕ → ℕ
  | 0 => 1
  | 1 => 0
  | n => n

theorem shuffled_swap01 {α : Type} (a b c : α) : Shuffled swap01 [a, b, c] [b, a, c] := by
  refine ⟨rfl, ?_, ?_⟩
  · intro m hm
    simp only [List.length_cons, List.length_nil] at hm
    interval_cases m <;> exact ⟨by simp [swap01], rfl⟩
  · intro m m' hm hm'
    simp only [List.length_cons, List.length_nil] at hm hm'
    interval_cases m <;> interval_cases m' <;> decide

/-- The rows `0`, `9/10` and `3`. -/
def rows3 : List (Fin 1 → ℚ) := [fun _ => 0, fun _ => 9 / 10, fun _ => 3]

/-- The first two of them exchanged. -/
def rows3' : List (Fin 1 → ℚ) := [fun _ => 9 / 10, fun _ => 0, fun _ => 3]

/-- Non-vacuity of C72. -/
example : ∃ f g g' out out',
    mapperGraph [6, 5, -7] rows3' (demoCub1.applyStandard (fun _ => 0) fun _ => 0) parity =
      .ok g' ∧
    mapperGraph [5, 6, -7] rows3 (demoCub1.applyStandard (fun _ => 0) fun _ => 0) parity =
      .ok g ∧
    RenamedGraph swap01 f g' g ∧
    mapperConnectedComponents id [6, 5, -7] rows3'
      (demoCub1.applyStandard (fun _ => 0) fun _ => 0) parity = .ok out' ∧
    mapperConnectedComponents id [5, 6, -7] rows3
      (demoCub1.applyStandard (fun _ => 0) fun _ => 0) parity = .ok out ∧
    SameComponents swap01 3 out' out :=
  C72_standard_partial (fun _ => 0) demoCub1 (1 / 2)
    ⟨rfl, by norm_num, by norm_num, by decide, Or.inl rfl, le_refl _⟩ (fun _ => 0) (fun _ => 0)
    swap01 [5, 6, -7] [6, 5, -7] rows3 rows3' (shuffled_swap01 (5 : ℤ) 6 (-7))
    (shuffled_swap01 _ _ _) rfl (by simp [rows3]) parity parity_insensitive (fun _ _ _ => rfl)
    (fun _ _ => ⟨_, rfl⟩) id id (fun _ _ => Iff.rfl) (fun _ _ => Iff.rfl)

/-- A renamed graph has at least as many nodes. -/
theorem RenamedGraph.length_le {τ : ℕ → ℕ} {f : ℤ → ℤ} {g g' : NxGraph}
    (h : RenamedGraph τ f g g') (hnd : g.nodes.keys.Nodup) :
    g.nodes.keys.length ≤ g'.nodes.keys.length := by
  have h1 : (g.nodes.keys.map f).Nodup := by
    rw [List.nodup_map_iff_inj_on hnd]
    exact fun a ha b hb e => h.inj a b ha hb e
  have h2 : ∀ L ∈ g.nodes.keys.map f, L ∈ g'.nodes.keys := by
    intro L hL
    obtain ⟨a, ha, e⟩ := List.mem_map.mp hL
    exact (h.nodes L).mpr ⟨a, ha, e⟩
  have := (List.subperm_of_subset h1 h2).length_le
  rwa [List.length_map] at this

theorem map_keys_ok {r : Py NxGraph} {ks : List ℤ} (h : r.map (·.nodes.keys) = .ok ks) :
    ∃ g, r = .ok g ∧ g.nodes.keys = ks := by
  cases r with
  | error e => cases h
  | ok g => exact ⟨g, rfl, by cases h; rfl⟩

/-- **C72 (violation for balls).** Exchanging two rows changes the graph of a `BallCover`: the
points `0, 1, 2` with radius 2 give two nodes, the points `1, 0, 2` only one. -/
theorem C72_ball_violation :
    ∃ (X X' : List ℤ) (π : ℕ → ℕ) (g g' : NxGraph), Shuffled π X X' ∧
      BallOK (demoBall 2).params ∧
      mapperGraph X X ((demoBall 2).apply fun _ => 0) (fun _ => trivialClustering) = .ok g ∧
      mapperGraph X' X' ((demoBall 2).apply fun _ => 0) (fun _ => trivialClustering) = .ok g' ∧
      ∀ τ f, ¬ RenamedGraph τ f g g' := by
  obtain ⟨g, e, hk⟩ := map_keys_ok (ks := [0, 1]) (r := mapperGraph [(0 : ℤ), 1, 2] [(0 : ℤ), 1, 2]
    ((demoBall 2).apply fun _ => 0) (fun _ => trivialClustering)) (by decide +kernel)
  obtain ⟨g', e', hk'⟩ := map_keys_ok (ks := [0]) (r := mapperGraph [(1 : ℤ), 0, 2] [(1 : ℤ), 0, 2]
    ((demoBall 2).apply fun _ => 0) (fun _ => trivialClustering)) (by decide +kernel)
  refine ⟨[0, 1, 2], [1, 0, 2], swap01, g, g', shuffled_swap01 _ _ _, demoBall_ok 2, e, e', ?_⟩
  intro τ f h
  have := h.length_le (by rw [hk]; decide)
  rw [hk, hk'] at this
  exact absurd this (by decide)

/-- The points `0, 6/5, 3`. -/
def rowsA : List (Fin 1 → ℚ) := [fun _ => 0, fun _ => 6 / 5, fun _ => 3]

/-- The points `6/5, 0, 3`. -/
def rowsB : List (Fin 1 → ℚ) := [fun _ => 6 / 5, fun _ => 0, fun _ => 3]

/-- **C72 (violation for the proximity cubical cover).** With three intervals and overlap 1/2
the points `0, 6/5, 3` give two nodes and the points `6/5, 0, 3` give three. -/
theorem C72_proximity_violation :
    ∃ (X X' : List (Fin 1 → ℚ)) (π : ℕ → ℕ) (g g' : NxGraph), Shuffled π X X' ∧
      CubOK (fun _ => 0) 1 demoCub1.params (1 / 2) ∧
      mapperGraph X X (demoCub1.applyProximity (fun _ => 0) fun _ => 0)
        (fun _ => trivialClustering) = .ok g ∧
      mapperGraph X' X' (demoCub1.applyProximity (fun _ => 0) fun _ => 0)
        (fun _ => trivialClustering) = .ok g' ∧
      ∀ τ f, ¬ RenamedGraph τ f g g' := by
  obtain ⟨g, e, hk⟩ := map_keys_ok (ks := [0, 1, 2])
    (r := mapperGraph rowsB rowsB (demoCub1.applyProximity (fun _ => 0) fun _ => 0) (fun _ => trivialClustering))
    (by decide +kernel)
  obtain ⟨g', e', hk'⟩ := map_keys_ok (ks := [0, 1])
    (r := mapperGraph rowsA rowsA (demoCub1.applyProximity (fun _ => 0) fun _ => 0) (fun _ => trivialClustering))
    (by decide +kernel)
  refine ⟨rowsB, rowsA, swap01, g, g', shuffled_swap01 _ _ _,
    ⟨rfl, by norm_num, by norm_num, by decide, Or.inl rfl, le_refl _⟩, e, e', ?_⟩
  intro τ f h
  have := h.length_le (by rw [hk]; decide)
  rw [hk, hk'] at this
  exact absurd this (by decide)

end Verif

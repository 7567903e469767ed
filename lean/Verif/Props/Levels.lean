import Verif.Proof.Levels

/-!
# C131: Mapper graphs over a line

Every node of a Mapper graph is of one chart, and joined nodes are of different charts that meet. Over
a lens with one column this makes the graph look like a Reeb graph: nodes have levels, and edges lead
from a level to the next one.
-/

set_option autoImplicit false
set_option linter.unusedSectionVars false

namespace Verif

variable {S T : Type}

/-- **C131 (any cover, any clustering).** The Mapper graph lies over the cover: all rows of a node are
in one chart, nodes of one chart have no row in common, and joined nodes are of different charts that
have a row in common. -/
theorem C131_charts (X : List S) (y : List T) (cover : CoverFn T) (clust : ClustFn S)
    (charts : List (List ℕ)) (hc : cover y = .ok charts) (hg : GoodCharts X.length charts)
    (hs : ClusteringSucceeds X charts clust) :
    ∃ g chart, mapperGraph X y cover clust = .ok g ∧ OverCharts g charts chart :=
  overCharts X y cover clust charts hc hg hs

section cubical
variable {R : Type} [Field R] [LinearOrder R] [IsStrictOrderedRing R] [FloorRing R] {m : ℕ}

/-- **C131 (cubical covers).** With `CubicalCover` of either algorithm and any clustering, every node
has a cell of the grid, and its rows are in the hypercube around it. Joined nodes have different cells,
less than `K` apart in each column, where `K` is `1 / (1 - overlap_frac)` rounded up. -/
theorem C131_cubical (dflt : ℕ → R) (c : CubicalCover m R) (p : R) (H : CubOK dflt m c.params p)
    (ha : c.algorithm = "proximity" ∨ c.algorithm = "standard") (ρ : ℕ → ℕ) (X : List S)
    (y : List (Fin m → R)) (hlen : X.length = y.length) {lo hi : Fin m → R} (hb : IsBounds y lo hi)
    (hy : y ≠ []) (clust : ClustFn S) (hs : ∀ k xs, ∃ lbls, clust k xs = .ok lbls) :
    ∃ g, ∃ cell : ℤ → Fin m → ℤ, mapperGraph X y (c.apply dflt ρ) clust = .ok g ∧
      (∀ u, g.IsNode u → (∃ x ∈ y, IsCell lo hi c.params.nIntervals x (cell u)) ∧
        ∀ i yi, g.HasRow u i → y[i]? = some yi → InHypercube lo hi c.params.nIntervals p (cell u) yi) ∧
      ∀ u v, g.Adj u v → g.IsNode u ∧ g.IsNode v ∧ cell u ≠ cell v ∧
        ∀ k, |cell u k - cell v k| < maxIntervals p := by
  obtain ⟨cells, charts, h1, h2, h3, h4⟩ := cubical_cells dflt c p H ha ρ y hb hy
  obtain ⟨g, chart, eg, hg⟩ := overCharts X y (c.apply dflt ρ) clust charts h1
    (fun ids h => hlen ▸ (wellFormed_of_forall₂ h4 ids h).2) (fun k ids h => by
      obtain ⟨l, hl⟩ := hs k (pointsOf X ids)
      exact ⟨l, h, hl⟩)
  have node : ∀ u, g.IsNode u → ∃ q, ∃ hq : q < cells.length, chart u = q ∧
      ∀ i yi, g.HasRow u i → y[i]? = some yi → InHypercube lo hi c.params.nIntervals p cells[q] yi := by
    intro u hu
    obtain ⟨ids, h5, h6⟩ := hg.rows u hu
    obtain ⟨hq, h7⟩ := List.getElem?_eq_some_iff.mp h5
    refine ⟨chart u, h4.length_eq ▸ hq, rfl, fun i yi hi hyi => ?_⟩
    obtain ⟨h8, _⟩ := h4.get (h4.length_eq ▸ hq) hq
    have hm : i ∈ charts.get ⟨chart u, hq⟩ := by rw [List.get_eq_getElem, h7]; exact h6 i hi
    obtain ⟨z, hz, hz1⟩ := (h8.2 i).mp hm
    rw [hyi] at hz; cases hz
    exact hz1
  refine ⟨g, fun u => (cells[chart u]?).getD fun _ => 0, eg, fun u hu => ?_, fun u v h => ?_⟩
  · obtain ⟨q, hq, he, h5⟩ := node u hu
    simp only [he, List.getElem?_eq_getElem hq, Option.getD_some]
    exact ⟨h3 _ (List.getElem_mem hq), h5⟩
  · obtain ⟨hu, hv, hne, i, hi1, hi2⟩ := hg.edge u v h
    obtain ⟨q, hq, he, h5⟩ := node u hu
    obtain ⟨q', hq', he', h5'⟩ := node v hv
    simp only [he, he', List.getElem?_eq_getElem hq, List.getElem?_eq_getElem hq', Option.getD_some]
    refine ⟨hu, hv, fun h => hne ?_, fun k => ?_⟩
    · rw [he, he']; exact (List.Nodup.getElem_inj_iff h2).mp h
    · obtain ⟨ids, h6, h7⟩ := hg.rows u hu
      have hil : i < y.length :=
        hlen ▸ (wellFormed_of_forall₂ h4 ids (List.mem_of_getElem? h6)).2.2 i (h7 i hi1)
      by_cases hk : Spread lo hi k
      · exact cells_near H.intervals H.lt_one (h5 i _ hi1 (List.getElem?_eq_getElem hil))
          (h5' i _ hi2 (List.getElem?_eq_getElem hil)) hk
      · obtain ⟨x, _, hx⟩ := h3 _ (List.getElem_mem hq)
        obtain ⟨x', _, hx'⟩ := h3 _ (List.getElem_mem hq')
        rw [(hx k).2 hk, (hx' k).2 hk]
        simpa using maxIntervals_pos H.lt_one

/-- **C131 (cubical covers of a line).** If one column of the lens is not constant and
`overlap_frac` is at most one half, every node has a level, the number of its interval, and edges lead
to the next level, up or down. -/
theorem C131_cubical_line (dflt : ℕ → R) (c : CubicalCover m R) (p : R) (H : CubOK dflt m c.params p)
    (hp : p ≤ 1 / 2) (ha : c.algorithm = "proximity" ∨ c.algorithm = "standard") (ρ : ℕ → ℕ)
    (X : List S) (y : List (Fin m → R)) (hlen : X.length = y.length) {lo hi : Fin m → R}
    (hb : IsBounds y lo hi) (hy : y ≠ []) (k : Fin m) (hk : ∀ i, Spread lo hi i ↔ i = k)
    (clust : ClustFn S) (hs : ∀ k xs, ∃ lbls, clust k xs = .ok lbls) :
    ∃ g level, mapperGraph X y (c.apply dflt ρ) clust = .ok g ∧ NextLevels g level ∧
      ∀ u, g.IsNode u → 0 ≤ level u ∧ level u < c.params.nIntervals ∧
        ∀ i yi, g.HasRow u i → y[i]? = some yi →
          InBox (lo k) (hi k) c.params.nIntervals p (level u) (yi k) := by
  obtain ⟨g, cell, eg, h1, h2⟩ := C131_cubical dflt c p H ha ρ X y hlen hb hy clust hs
  have hsk := (hk k).mpr rfl
  refine ⟨g, fun u => cell u k, eg, fun u v h => ?_, fun u hu => ?_⟩
  · obtain ⟨hu, hv, hne, h3⟩ := h2 u v h
    obtain ⟨⟨x, _, hx⟩, _⟩ := h1 u hu
    obtain ⟨⟨x', _, hx'⟩, _⟩ := h1 v hv
    have hk2 : cell u k ≠ cell v k := by
      intro he
      apply hne
      funext i
      by_cases hi' : i = k
      · rw [hi']; exact he
      · rw [(hx i).2 fun hc => hi' ((hk i).mp hc), (hx' i).2 fun hc => hi' ((hk i).mp hc)]
    have h4 := h3 k
    rw [C113_half H.pos hp, abs_lt] at h4
    simp only
    omega
  · obtain ⟨⟨x, _, hx⟩, h3⟩ := h1 u hu
    have := (hx k).1 hsk
    exact ⟨this.1, this.2.1, fun i yi hi' hyi => h3 i yi hi' hyi k hsk⟩

end cubical

section ball
variable {R : Type} [Field R] [LinearOrder R] [IsStrictOrderedRing R]

/-- **C131 (balls on a line).** With `BallCover` on points of a line, every node has a level, the
number of centres to the left of its own, and edges lead to the next level, up or down. The rows of a
node are within the radius of its centre. -/
theorem C131_ball_line (c : BallCover T R) (H : BallOK c.params) (hr : 0 < c.params.radius)
    (pos : T → R) (hpos : ∀ a b, c.params.metric a b = |pos a - pos b|) (ρ : ℕ → ℕ) (X : List S)
    (y : List T) (hlen : X.length = y.length) (clust : ClustFn S)
    (hs : ∀ k xs, ∃ lbls, clust k xs = .ok lbls) :
    ∃ g level, ∃ centre : ℤ → R, mapperGraph X y (c.apply ρ) clust = .ok g ∧ NextLevels g level ∧
      (∀ u, g.IsNode u → ∀ i yi, g.HasRow u i → y[i]? = some yi →
        |centre u - pos yi| < c.params.radius) ∧
      ∀ u v, g.IsNode u → g.IsNode v → (level u < level v ↔ centre u < centre v) := by
  obtain ⟨charts, centres, h1, h2, _, h4, h5, h6⟩ := C18_ball_cover c H hr ρ y
  obtain ⟨g, chart, eg, hg⟩ := overCharts X y (c.apply ρ) clust charts h1
    (fun ids h => hlen ▸ (h2 ids h).2) (fun k ids h => by
      obtain ⟨l, hl⟩ := hs k (pointsOf X ids)
      exact ⟨l, h, hl⟩)
  obtain ⟨level, centre, k1, k2, k3, _⟩ := ball_levels hr hpos h2 h4 h5 h6 hg
  exact ⟨g, level, centre, eg, k1, k2, k3⟩

end ball

/-- **C131 (levels).** Where edges lead to the next level, every closed walk has an even number of
edges: the graph has no triangles, and its nodes fall into two sides with edges only between them. The
nodes of a connected component fill all levels between any two of its levels. -/
theorem C131_levels {g : NxGraph} {level : ℤ → ℤ} (h : NextLevels g level) :
    (∀ n u, g.Walk n u u → Even n) ∧
    (∃ side : ℤ → Bool, ∀ u v, g.Adj u v → side u ≠ side v) ∧
    ∀ u v, g.Reachable u v → ∀ l, (level u ≤ l ∧ l ≤ level v ∨ level v ≤ l ∧ l ≤ level u) →
      ∃ w, g.Reachable u w ∧ g.Reachable w v ∧ level w = l := by
  refine ⟨fun n u w => ?_, ⟨fun u => decide (2 ∣ level u), fun u v ha he => ?_⟩,
    fun u v hr => level_between h hr⟩
  · have := walk_parity h w
    rw [Nat.even_iff]
    omega
  · have he : 2 ∣ level u ↔ 2 ∣ level v := by simpa using he
    rcases h u v ha with h1 | h1 <;> omega

/-! ### Examples -/

/-- Three intervals with overlap `p`. -/
def threeOf (p : ℚ) : CubicalCover 1 ℚ := ⟨(cubOf 3 p).params, "standard", none⟩

theorem column_bounds (l : List ℚ) (a b : ℚ) (ha : a ∈ l) (hb : b ∈ l) (h : ∀ x ∈ l, a ≤ x ∧ x ≤ b) :
    IsBounds (column l) (fun _ => a) (fun _ => b) := by
  intro i
  refine ⟨⟨fun _ => a, List.mem_map.mpr ⟨a, ha, rfl⟩, rfl⟩, ⟨fun _ => b, List.mem_map.mpr ⟨b, hb, rfl⟩, rfl⟩, ?_⟩
  intro x hx
  obtain ⟨z, hz, rfl⟩ := List.mem_map.mp hx
  exact h z hz

/-- The hypotheses are met: values from 0 to 6, three intervals, overlap `1/2`, clusters by parity. -/
example : ∃ g level, mapperGraph ([4, 7, 9, 2, 6] : List ℤ) (column [0, 2, 3, 4, 6])
      ((threeOf (1 / 2)).apply (fun _ => 0) fun _ => 0) parity = .ok g ∧ NextLevels g level ∧
      ∀ n u, g.Walk n u u → Even n := by
  obtain ⟨g, level, h1, h2, _⟩ := C131_cubical_line (fun _ => 0) (threeOf (1 / 2)) (1 / 2)
    (cubOf_ok 3 (1 / 2) (by decide) (by norm_num) (by norm_num)) (le_refl _) (Or.inr rfl) (fun _ => 0)
    ([4, 7, 9, 2, 6] : List ℤ) (column [0, 2, 3, 4, 6]) rfl
    (column_bounds [0, 2, 3, 4, 6] 0 6 (by simp) (by simp) (by decide +kernel)) (by simp [column]) 0
    (fun i => ⟨fun _ => Subsingleton.elim _ _, fun _ => by norm_num [Spread]⟩) parity
    (fun _ _ => ⟨_, rfl⟩)
  exact ⟨g, level, h1, h2, (C131_levels h2).1⟩

/-- The neighbours of the nodes of a graph that was computed. -/
theorem graph_of_adj {r : Py NxGraph} {l : List (ℤ × List ℤ)}
    (h : (r.toOption.map fun g => g.adj.items) = some l) : ∃ g, r = .ok g ∧ g.adj.items = l := by
  cases r with
  | error e => cases h
  | ok g => exact ⟨g, rfl, Option.some.inj h⟩

theorem adj_of_items {g : NxGraph} {l : List (ℤ × List ℤ)} (h : g.adj.items = l) {u v : ℤ}
    (hv : ((PyDict.mk l).get? u).any (fun nb => decide (v ∈ nb)) = true) : g.Adj u v := by
  subst h
  obtain ⟨nb, h1, h2⟩ := (Option.any_eq_true _ _).mp hv
  exact ⟨nb, h1, of_decide_eq_true h2⟩

/-- That graph has edges, between nodes of the first and second and of the second and third
interval. -/
example : ∃ g, mapperGraph ([4, 7, 9, 2, 6] : List ℤ) (column [0, 2, 3, 4, 6])
      ((threeOf (1 / 2)).apply (fun _ => 0) fun _ => 0) parity = .ok g ∧ g.Adj 0 1 ∧ g.Adj 2 4 := by
  obtain ⟨g, h1, h2⟩ := graph_of_adj (r := mapperGraph ([4, 7, 9, 2, 6] : List ℤ) (column [0, 2, 3, 4, 6])
      ((threeOf (1 / 2)).apply (fun _ => 0) fun _ => 0) parity)
    (l := [(3, []), (2, [4]), (4, [2]), (0, [1]), (1, [0])]) (by decide +kernel)
  exact ⟨g, h1, adj_of_items h2 (by decide +kernel), adj_of_items h2 (by decide +kernel)⟩

/-- The hypotheses are met: points of a line with radius 5. -/
example : ∃ g level, mapperGraph ([5, 6, -7, 8] : List ℤ) [20, 24, 28, 32]
      ((ratBall 5 "flat").apply fun _ => 0) parity = .ok g ∧ NextLevels g level := by
  obtain ⟨g, level, _, h1, h2, _⟩ := C131_ball_line (ratBall 5 "flat") (ratBall_ok _ _ (Or.inl rfl))
    (by norm_num [ratBall]) id (fun _ _ => rfl) (fun _ => 0) ([5, 6, -7, 8] : List ℤ)
    [20, 24, 28, 32] rfl parity (fun _ _ => ⟨_, rfl⟩)
  exact ⟨g, level, h1, h2⟩

/-- **C131, violation (larger overlaps).** With three intervals and overlap `3/4` three rows on a line
give a triangle. -/
theorem C131_overlap_violation : ∃ g, mapperGraph (column [0, 3, 6]) (column [0, 3, 6])
      ((threeOf (3 / 4)).apply (fun _ => 0) fun _ => 0) (fun _ => trivialClustering) = .ok g ∧
    g.Adj 0 1 ∧ g.Adj 1 2 ∧ g.Adj 2 0 := by
  obtain ⟨g, h1, h2⟩ := graph_of_adj (r := mapperGraph (column [0, 3, 6]) (column [0, 3, 6])
      ((threeOf (3 / 4)).apply (fun _ => 0) fun _ => 0) (fun _ => trivialClustering))
    (l := [(1, [2, 0]), (2, [1, 0]), (0, [1, 2])]) (by decide +kernel)
  exact ⟨g, h1, adj_of_items h2 (by decide +kernel), adj_of_items h2 (by decide +kernel),
    adj_of_items h2 (by decide +kernel)⟩

/-- **C131, violation (nearest neighbours).** With three neighbours, and no ties, five rows on a line
give a triangle. -/
theorem C131_knn_violation : ∃ g, mapperGraph ([2, 0, 1, 3, 4] : List ℤ) [2, 0, 1, 3, 4]
      ((demoKnn 3).apply fun _ => 0) (fun _ => trivialClustering) = .ok g ∧
    g.Adj 0 1 ∧ g.Adj 1 2 ∧ g.Adj 2 0 := by
  obtain ⟨g, h1, h2⟩ := graph_of_adj (r := mapperGraph ([2, 0, 1, 3, 4] : List ℤ) [2, 0, 1, 3, 4]
      ((demoKnn 3).apply fun _ => 0) (fun _ => trivialClustering))
    (l := [(0, [1, 2]), (1, [0, 2]), (2, [0, 1])]) (by decide +kernel)
  exact ⟨g, h1, adj_of_items h2 (by decide +kernel), adj_of_items h2 (by decide +kernel),
    adj_of_items h2 (by decide +kernel)⟩

end Verif

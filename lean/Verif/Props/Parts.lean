import Verif.Proof.Parts
import Verif.Props.Append
import Verif.Props.Reproducible

/-!
# C112: parts of the data that are far apart do not affect one another
-/

set_option autoImplicit false
set_option linter.unusedSectionVars false

namespace Verif

variable {S T R : Type} [AddCommGroup R] [LinearOrder R] [IsOrderedAddMonoid R]

/-- **C112 (balls, part that holds).** Let some rows of the data, in order, be further than the radius of a `BallCover` from
all others. The Mapper graph of these rows alone is what the Mapper graph of all rows is on them: the same
nodes, with the same rows of the same data, the same edges, no edge to a node of other rows, and no node with
rows of both kinds. Their connected components are the same, too, and none of them contains other rows. The
trees and the random draws of the two runs may differ. The clustering may be any that always succeeds and finds
the same clusters in whatever order it gets the points. Missing: the other covers, see below. -/
theorem C112_ball_partial (c c' : BallCover T R) (H : BallOK c.params) (H' : BallOK c'.params)
    (hm : c.params.metric = c'.params.metric) (hrad : c.params.radius = c'.params.radius)
    (h0 : 0 < c.params.radius) (ρ ρ' : ℕ → ℕ) (τ : ℕ → ℕ) (X X' : List S) (y y' : List T)
    (hX : X.length = y.length) (hX' : X'.length = y'.length)
    (hpX : PartOf τ X X') (hp : PartOf τ y y')
    (hfar : ∀ i j xi xj, i < y.length → NotOfPart τ y.length j → y'[τ i]? = some xi → y'[j]? = some xj →
      c.params.radius ≤ c.params.metric xi xj)
    (clust : List S → Py (List ℤ)) (ho : OrderInsensitive fun _ => clust)
    (hs : ∀ xs, ∃ lbls, clust xs = .ok lbls)
    (order order' : List ℤ → List ℤ)
    (hord : ∀ l L, L ∈ order l ↔ L ∈ l) (hord' : ∀ l L, L ∈ order' l ↔ L ∈ l) :
    ∃ f g g' out out', mapperGraph X y (c.apply ρ) (fun _ => clust) = .ok g ∧
      mapperGraph X' y' (c'.apply ρ') (fun _ => clust) = .ok g' ∧ PartGraph τ X.length f g g' ∧
      mapperConnectedComponents order X y (c.apply ρ) (fun _ => clust) = .ok out ∧
      mapperConnectedComponents order' X' y' (c'.apply ρ') (fun _ => clust) = .ok out' ∧
      PartComponents τ X.length out out' := by
  obtain ⟨charts, charts', κ, e, e', hg, hg', hR⟩ :=
    ball_part c c' H H' hm hrad h0 ρ ρ' y y' hp hpX hX hfar
  exact hR.result e e' (hX ▸ hg) (hX' ▸ hg') ho (fun _ _ _ => rfl)
    (fun k ids h => by obtain ⟨l, hl⟩ := hs (pointsOf X ids); exact ⟨l, h, hl⟩)
    (fun k ids h => by obtain ⟨l, hl⟩ := hs (pointsOf X' ids); exact ⟨l, h, hl⟩) order order' hord hord'

/-- **C112 (neighbours, part that holds).** The same with `KNNCover`, if every row is nearer to all rows of its
own group than to those of the other, both groups have at least `neighbors` rows, and no two rows of the part
are at the same distance from a third. Missing: groups with fewer rows, see `C112_knn_violation`, and ties, with
which the charts depend on the tree (`C71_knn_violation`). -/
theorem C112_knn_partial (c c' : KnnCover T R) (H : KnnOK c.params) (H' : KnnOK c'.params)
    (hm : c.params.metric = c'.params.metric) (hk : c.params.neighbors = c'.params.neighbors)
    (ρ ρ' : ℕ → ℕ) (τ : ℕ → ℕ) (X X' : List S) (y y' : List T)
    (hX : X.length = y.length) (hX' : X'.length = y'.length)
    (hpX : PartOf τ X X') (hp : PartOf τ y y')
    (hsize : c.params.neighbors ≤ y.length) (hsize' : y.length + c.params.neighbors ≤ y'.length)
    (hnear : ∀ i j k xi xj xk, i < y.length → j < y.length → NotOfPart τ y.length k → y'[τ i]? = some xi →
      y'[τ j]? = some xj → y'[k]? = some xk → c.params.metric xi xj < c.params.metric xi xk)
    (hnear' : ∀ i j k xi xj xk, NotOfPart τ y.length i → NotOfPart τ y.length j → k < y.length →
      y'[i]? = some xi → y'[j]? = some xj → y'[τ k]? = some xk →
      c.params.metric xi xj < c.params.metric xi xk)
    (hties : ∀ q ∈ y, ∀ (i j : ℕ) xi xj, y[i]? = some xi → y[j]? = some xj →
      c.params.metric q xi = c.params.metric q xj → i = j)
    (clust : List S → Py (List ℤ)) (ho : OrderInsensitive fun _ => clust)
    (hs : ∀ xs, ∃ lbls, clust xs = .ok lbls)
    (order order' : List ℤ → List ℤ)
    (hord : ∀ l L, L ∈ order l ↔ L ∈ l) (hord' : ∀ l L, L ∈ order' l ↔ L ∈ l) :
    ∃ f g g' out out', mapperGraph X y (c.apply ρ) (fun _ => clust) = .ok g ∧
      mapperGraph X' y' (c'.apply ρ') (fun _ => clust) = .ok g' ∧ PartGraph τ X.length f g g' ∧
      mapperConnectedComponents order X y (c.apply ρ) (fun _ => clust) = .ok out ∧
      mapperConnectedComponents order' X' y' (c'.apply ρ') (fun _ => clust) = .ok out' ∧
      PartComponents τ X.length out out' := by
  obtain ⟨charts, charts', κ, e, e', hg, hg', hR⟩ :=
    knn_part c c' H H' hm hk ρ ρ' y y' hp hpX hX hsize hsize' hnear hnear' hties
  exact hR.result e e' (hX ▸ hg) (hX' ▸ hg') ho (fun _ _ _ => rfl)
    (fun k ids h => by obtain ⟨l, hl⟩ := hs (pointsOf X ids); exact ⟨l, h, hl⟩)
    (fun k ids h => by obtain ⟨l, hl⟩ := hs (pointsOf X' ids); exact ⟨l, h, hl⟩) order order' hord hord'

/-! ### Examples -/

/-- The even rows. -/
theorem even_part : PartOf (fun i => 2 * i) ([0, 1, 3] : List ℤ) [0, 90, 1, 91, 3, 95] where
  order := by intro i j h _; show 2 * i < 2 * j; omega
  entry := by
    intro i hi
    simp only [List.length_cons, List.length_nil] at hi
    interval_cases i <;> rfl

/-- Rows of the example that are not even. -/
theorem even_outside {j : ℕ} {x : ℤ} (h : NotOfPart (fun i => 2 * i) 3 j)
    (hx : ([0, 90, 1, 91, 3, 95] : List ℤ)[j]? = some x) : x = 90 ∨ x = 91 ∨ x = 95 := by
  have hj := getElem?_lt hx
  simp only [List.length_cons, List.length_nil] at hj
  have h0 := h 0 (by decide)
  have h1 := h 1 (by decide)
  have h2 := h 2 (by decide)
  interval_cases j <;> simp at h0 h1 h2 hx <;> omega

theorem even_inside {i : ℕ} {x : ℤ} (h : i < 3)
    (hx : ([0, 90, 1, 91, 3, 95] : List ℤ)[2 * i]? = some x) : x = 0 ∨ x = 1 ∨ x = 3 := by
  interval_cases i <;> simp at hx <;> omega

/-- Non-vacuity: two groups of rows, in turn, another tree, clusters by parity. -/
example : ∃ f g g' out out',
    mapperGraph [0, 1, 3] [0, 1, 3] ((demoBall 2).apply fun _ => 0) parity = .ok g ∧
      mapperGraph [0, 90, 1, 91, 3, 95] [0, 90, 1, 91, 3, 95] (otherBall.apply fun n => n * n) parity
        = .ok g' ∧ PartGraph (fun i => 2 * i) 3 f g g' ∧
      mapperConnectedComponents id [0, 1, 3] [0, 1, 3] ((demoBall 2).apply fun _ => 0) parity = .ok out ∧
      mapperConnectedComponents List.reverse [0, 90, 1, 91, 3, 95] [0, 90, 1, 91, 3, 95]
        (otherBall.apply fun n => n * n) parity = .ok out' ∧
      PartComponents (fun i => 2 * i) 3 out out' :=
  C112_ball_partial (demoBall 2) otherBall (demoBall_ok 2) otherBall_ok rfl rfl (by decide) (fun _ => 0)
    (fun n => n * n) (fun i => 2 * i) [0, 1, 3] [0, 90, 1, 91, 3, 95] [0, 1, 3] [0, 90, 1, 91, 3, 95] rfl
    rfl even_part even_part
    (by
      intro i j xi xj hi hj h1 h2
      rcases even_inside hi h1 with rfl | rfl | rfl <;>
        rcases even_outside hj h2 with rfl | rfl | rfl <;> decide)
    (parity 0) parity_insensitive (fun _ => ⟨_, rfl⟩) id List.reverse (fun _ _ => Iff.rfl)
    (fun _ _ => List.mem_reverse)

/-- The components of this example: 0 and 1 are in one ball but not in one cluster, so no row shares a
component with another. With the trivial clustering, there are two components in each group. -/
example : mapperConnectedComponents id [0, 1, 3] [0, 1, 3] ((demoBall 2).apply fun _ => 0)
      (fun _ => trivialClustering) = .ok [0, 0, 1] ∧
    mapperConnectedComponents id [0, 90, 1, 91, 3, 95] [0, 90, 1, 91, 3, 95]
      ((demoBall 2).apply fun _ => 0) (fun _ => trivialClustering) = .ok [0, 1, 0, 1, 2, 3] := by
  decide +kernel

/-- Non-vacuity for neighbours. -/
example : ∃ f g g' out out',
    mapperGraph [0, 1, 3] [0, 1, 3] ((demoKnn 2).apply fun _ => 0) parity = .ok g ∧
      mapperGraph [0, 90, 1, 91, 3, 95] [0, 90, 1, 91, 3, 95] (otherKnn.apply fun n => n) parity
        = .ok g' ∧ PartGraph (fun i => 2 * i) 3 f g g' ∧
      mapperConnectedComponents id [0, 1, 3] [0, 1, 3] ((demoKnn 2).apply fun _ => 0) parity = .ok out ∧
      mapperConnectedComponents id [0, 90, 1, 91, 3, 95] [0, 90, 1, 91, 3, 95]
        (otherKnn.apply fun n => n) parity = .ok out' ∧
      PartComponents (fun i => 2 * i) 3 out out' :=
  C112_knn_partial (demoKnn 2) otherKnn (demoKnn_ok 2 (by decide)) ⟨absDist_pseudo, Or.inr rfl, by decide⟩
    rfl rfl (fun _ => 0) (fun n => n) (fun i => 2 * i) [0, 1, 3] [0, 90, 1, 91, 3, 95] [0, 1, 3]
    [0, 90, 1, 91, 3, 95] rfl rfl even_part even_part (by decide) (by decide)
    (by
      intro i j k xi xj xk hi hj hk h1 h2 h3
      rcases even_inside hi h1 with rfl | rfl | rfl <;> rcases even_inside hj h2 with rfl | rfl | rfl <;>
        rcases even_outside hk h3 with rfl | rfl | rfl <;> decide)
    (by
      intro i j k xi xj xk hi hj hk h1 h2 h3
      rcases even_outside hi h1 with rfl | rfl | rfl <;> rcases even_outside hj h2 with rfl | rfl | rfl <;>
        rcases even_inside hk h3 with rfl | rfl | rfl <;> decide)
    (by
      intro q hq i j xi xj hi hj
      have hi' := getElem?_lt hi
      have hj' := getElem?_lt hj
      simp only [List.length_cons, List.length_nil] at hi' hj'
      simp only [List.mem_cons, List.not_mem_nil, or_false] at hq
      interval_cases i <;> interval_cases j <;> simp at hi hj <;> subst hi <;> subst hj <;>
        rcases hq with rfl | rfl | rfl <;> decide)
    (parity 0) parity_insensitive (fun _ => ⟨_, rfl⟩) id id (fun _ _ => Iff.rfl) (fun _ _ => Iff.rfl)

/-- The first two rows. -/
theorem first_part {α : Type} (a b : α) (l : List α) : PartOf id [a, b] (a :: b :: l) where
  order := fun _ _ h _ => h
  entry := by
    intro i hi
    simp only [List.length_cons, List.length_nil] at hi
    interval_cases i <;> rfl

/-- **C112 (violation for small groups).** With `KNNCover`, rows of a group with fewer than `neighbors` rows can
be in one component with rows of another group, although these are much further away than the rows of their own
group: here 0 and 1 with three neighbours. -/
theorem C112_knn_violation :
    ∃ (y y' : List ℤ) (out out' : List ℤ), KnnOK (demoKnn 3).params ∧ PartOf id y y' ∧
      (∀ a ∈ y, ∀ b ∈ y, ∀ z ∈ y'.drop y.length, absDist a b ≤ 1 ∧ 99 ≤ absDist a z) ∧
      mapperConnectedComponents id y y ((demoKnn 3).apply fun _ => 0) (fun _ => trivialClustering)
        = .ok out ∧
      mapperConnectedComponents id y' y' ((demoKnn 3).apply fun _ => 0) (fun _ => trivialClustering)
        = .ok out' ∧ ¬ PartComponents id y.length out out' := by
  refine ⟨[0, 1], [0, 1, 100, 101, 102], [0, 0], [0, 0, 0, 0, 0], demoKnn_ok 3 (by decide),
    first_part _ _ _, by decide, by decide +kernel, by decide +kernel, ?_⟩
  rintro ⟨_, _, _, h⟩
  exact absurd (h 0 2 (by decide) (by decide) (by intro i hi e; simp at hi e; omega) rfl) (by decide)

/-- **C112 (violation for hypercubes).** With cubical covers, rows far away widen the bounding box and with it the
hypercubes: here 0 and 4 are in two components until the row 100 is added. -/
theorem C112_cubical_violation :
    ∃ (y y' : List (Fin 1 → ℚ)) (out out' : List ℤ), CubOK (fun _ => 0) 1 demoCub2.params (1 / 3) ∧
      PartOf id y y' ∧
      (∀ a ∈ y, ∀ b ∈ y, ∀ z ∈ y'.drop y.length, |a 0 - b 0| ≤ 4 ∧ 96 ≤ |a 0 - z 0|) ∧
      mapperConnectedComponents id y y (demoCub2.applyStandard (fun _ => 0) fun _ => 0)
        (fun _ => trivialClustering) = .ok out ∧
      mapperConnectedComponents id y' y' (demoCub2.applyStandard (fun _ => 0) fun _ => 0)
        (fun _ => trivialClustering) = .ok out' ∧ ¬ PartComponents id y.length out out' := by
  refine ⟨[fun _ => 0, fun _ => 4], [fun _ => 0, fun _ => 4, fun _ => 100], [1, 0], [1, 1, 0],
    ⟨rfl, by norm_num [demoCub2], by norm_num, by decide, Or.inl rfl, le_refl _⟩,
    first_part _ _ _, ?_, by decide +kernel, by decide +kernel, ?_⟩
  · intro a ha b hb z hz
    simp only [List.mem_cons, List.not_mem_nil, or_false, List.length_cons, List.length_nil,
      List.drop_succ_cons, List.drop_zero] at ha hb hz
    subst hz
    rcases ha with rfl | rfl <;> rcases hb with rfl | rfl <;> norm_num
  · rintro ⟨_, _, h, _⟩
    exact absurd ((h 0 1 (by decide) (by decide)).mpr rfl) (by decide)

end Verif

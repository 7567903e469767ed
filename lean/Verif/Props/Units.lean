import Verif.Proof.Units
import Verif.Props.Reproducible

/-!
# C86: changing the units of the data

The covers look at the data only through comparisons, so a change of units that is carried
over to the radius does not change the Mapper graph.
-/

set_option autoImplicit false
set_option linter.unusedSectionVars false

namespace Verif

variable {S T T' : Type}

/-- **C86 (graph).** If two covers, each given its own lens, give the same charts in the same
order, the Mapper graphs are the same up to the numbers of the nodes, with the same `size` and
`ids`, and the connected components are the same. -/
theorem C86_graph (X : List S) (y y' : List T) (cover cover' : CoverFn T) (clust : ClustFn S)
    (charts charts' : List (List ℕ)) (hc : cover y = .ok charts) (hc' : cover' y' = .ok charts')
    (hsame : SameCharts charts charts') (hg : GoodCharts X.length charts)
    (ho : OrderInsensitive clust) (hs : ClusteringSucceeds X charts clust)
    (order order' : List ℤ → List ℤ) (hord : ∀ l L, L ∈ order l ↔ L ∈ l)
    (hord' : ∀ l L, L ∈ order' l ↔ L ∈ l) :
    ∃ f g g' out out', mapperGraph X y cover clust = .ok g ∧
      mapperGraph X y' cover' clust = .ok g' ∧ RenamedGraph id f g g' ∧
      (∀ L, g.IsNode L → g'.nodes.get? (f L) = g.nodes.get? L) ∧
      mapperConnectedComponents order X y cover clust = .ok out ∧
      mapperConnectedComponents order' X y' cover' clust = .ok out' ∧
      SameComponents id X.length out out' := by
  obtain ⟨f, g, g', out, out', h1, h2, h⟩ := C70_graph X y cover (fun _ => cover' y') clust charts
    charts' hc hc' hsame hg ho hs order order' hord hord'
  exact ⟨f, g, g', out, out', h1, h2, h⟩

section metric
variable {R R' : Type} [AddCommGroup R] [LinearOrder R] [IsOrderedAddMonoid R]
  [AddCommGroup R'] [LinearOrder R'] [IsOrderedAddMonoid R']

/-- **C86 (balls).** The charts of `BallCover.apply` depend on the data, the metric and the
radius only through which pairs of rows are nearer than the radius: two datasets, with any two
metrics and radii, for which these are the same pairs, have the same charts. -/
theorem C86_ball (c : BallCover T R) (c' : BallCover T' R') (H : BallOK c.params)
    (H' : BallOK c'.params) (ρ ρ' : ℕ → ℕ) (y : List T) (y' : List T')
    (hsame : RowsAgree y y' fun x z x' z' =>
      c.params.metric x z < c.params.radius ↔ c'.params.metric x' z' < c'.params.radius) :
    ∃ out out', c.apply ρ y = .ok out ∧ c'.apply ρ' y' = .ok out' ∧ SameCharts out out' := by
  obtain ⟨d, h1, h2⟩ := ballFit_ok c H.metric H.kind H.capacity ρ y
  obtain ⟨d', h1', h2'⟩ := ballFit_ok c' H'.metric H'.kind H'.capacity ρ' y'
  refine proximityNet_pair h1 h1' hsame.1 fun i x x' hx hx' => ?_
  obtain ⟨a, ha, hla⟩ := h2 (List.ne_nil_of_mem (List.mem_of_getElem? hx)) x
  obtain ⟨b, hb, hlb⟩ := h2' (List.ne_nil_of_mem (List.mem_of_getElem? hx')) x'
  exact ⟨a, b, ha, hb, hla.perm_pair hlb hsame.1 fun j z z' hz hz' =>
    hsame.2 i j x z x' z' hx hz hx' hz'⟩

/-- Non-vacuity: the numbers `5, 1, 3, 4, 9` with radius 2 and their tenfold shifted by 7 with
radius 15 in another tree: the pairs nearer than 2 and nearer than 15 are the same. -/
example : ∃ out out', (demoBall 2).apply (fun _ => 0) [5, 1, 3, 4, 9] = .ok out ∧
    BallCover.apply (⟨⟨15, absDist, "hierarchical", 3, some 1, "random"⟩, none⟩ : BallCover ℤ ℤ)
      (fun n => n * n) [57, 17, 37, 47, 97] = .ok out' ∧ SameCharts out out' := by
  refine C86_ball (demoBall 2) _ (demoBall_ok 2) ⟨absDist_pseudo, Or.inr rfl, by decide⟩
    (fun _ => 0) (fun n => n * n) _ _ ⟨rfl, ?_⟩
  intro i j xi xj xi' xj' hi hj hi' hj'
  have h1 := getElem?_lt hi
  have h2 := getElem?_lt hj
  simp only [List.length_cons, List.length_nil] at h1 h2
  interval_cases i <;> interval_cases j <;> simp at hi hj hi' hj' <;> subst hi <;> subst hj <;>
    subst hi' <;> subst hj' <;> decide

/-- **C86 (neighbours, part that holds).** The charts of `KNNCover.apply` depend on the data and
the metric only through the order of the distances from each row, if no two rows are at the same
distance from a third. Missing: ties, see `C71_knn_violation`. -/
theorem C86_knn_partial (c : KnnCover T R) (c' : KnnCover T' R') (H : KnnOK c.params)
    (H' : KnnOK c'.params) (hk : c.params.neighbors = c'.params.neighbors) (ρ ρ' : ℕ → ℕ)
    (y : List T) (y' : List T') (hlen : y.length = y'.length)
    (hsame : ∀ q q' (k : ℕ), y[k]? = some q → y'[k]? = some q' → RowsAgree y y' fun x z x' z' =>
      c.params.metric q x ≤ c.params.metric q z ↔ c'.params.metric q' x' ≤ c'.params.metric q' z')
    (hties : ∀ q ∈ y, ∀ (i j : ℕ) xi xj, y[i]? = some xi → y[j]? = some xj →
      c.params.metric q xi = c.params.metric q xj → i = j) :
    ∃ out out', c.apply ρ y = .ok out ∧ c'.apply ρ' y' = .ok out' ∧ SameCharts out out' := by
  obtain ⟨d, h1, h2⟩ := knnFit_ok c H.metric H.kind H.neighbors ρ y
  obtain ⟨d', h1', h2'⟩ := knnFit_ok c' H'.metric H'.kind H'.neighbors ρ' y'
  refine proximityNet_pair h1 h1' hlen fun k x x' hx hx' => ?_
  have hxy := List.mem_of_getElem? hx
  obtain ⟨a, ha, hla⟩ := h2 (List.ne_nil_of_mem hxy) x
  obtain ⟨b, hb, hlb⟩ := h2' (List.ne_nil_of_mem (List.mem_of_getElem? hx')) x'
  rw [← hk] at hlb
  refine ⟨a, b, ha, hb, NearestIndices.perm (hties x hxy) hla (hlb.transfer hlen ?_)⟩
  intro i j xi xj xi' xj' hi hj hi' hj'
  exact (hsame x x' k hx hx').2 i j xi xj xi' xj' hi hj hi' hj'

/-- Non-vacuity: `0, 1, 4, 9` and its threefold. -/
example : ∃ out out', (demoKnn 2).apply (fun _ => 0) [0, 1, 4, 9] = .ok out ∧
    otherKnn.apply (fun n => n) [0, 3, 12, 27] = .ok out' ∧ SameCharts out out' := by
  refine C86_knn_partial (demoKnn 2) otherKnn (demoKnn_ok 2 (by decide))
    ⟨absDist_pseudo, Or.inr rfl, by decide⟩ rfl (fun _ => 0) (fun n => n) _ _ rfl ?_ ?_
  · intro q q' k hq hq'
    refine ⟨rfl, ?_⟩
    intro i j xi xj xi' xj' hi hj hi' hj'
    have h0 := getElem?_lt hq
    have h1 := getElem?_lt hi
    have h2 := getElem?_lt hj
    simp only [List.length_cons, List.length_nil] at h0 h1 h2
    interval_cases k <;> interval_cases i <;> interval_cases j <;>
      simp at hq hq' hi hj hi' hj' <;> subst hq <;> subst hq' <;> subst hi <;> subst hj <;>
      subst hi' <;> subst hj' <;> decide
  · intro q hq i j xi xj hi hj
    have hi' := getElem?_lt hi
    have hj' := getElem?_lt hj
    simp only [List.length_cons, List.length_nil] at hi' hj'
    simp only [List.mem_cons, List.not_mem_nil, or_false] at hq
    interval_cases i <;> interval_cases j <;> simp at hi hj <;> subst hi <;> subst hj <;>
      rcases hq with rfl | rfl | rfl | rfl <;> decide

end metric

section scaling
variable {R : Type} [Field R] [LinearOrder R] [IsStrictOrderedRing R]

/-- **C86 (balls, scaling).** If a transformation of the lens multiplies all distances by
`s > 0` - an isometry, for `s = 1` - and the radius is multiplied by `s` too, the Mapper graph
and the connected components stay the same, whatever the trees and random draws. -/
theorem C86_ball_scaled (c c' : BallCover T R) (H : BallOK c.params) (H' : BallOK c'.params)
    (φ : T → T) (s : R) (hs0 : 0 < s)
    (hm : ∀ x z, c'.params.metric (φ x) (φ z) = s * c.params.metric x z)
    (hr : c'.params.radius = s * c.params.radius) (h0 : 0 < c.params.radius) (ρ ρ' : ℕ → ℕ)
    (X : List S) (y : List T) (hlen : X.length = y.length) (clust : ClustFn S)
    (ho : OrderInsensitive clust) (hs : ∀ k xs, ∃ lbls, clust k xs = .ok lbls)
    (order order' : List ℤ → List ℤ)
    (hord : ∀ l L, L ∈ order l ↔ L ∈ l) (hord' : ∀ l L, L ∈ order' l ↔ L ∈ l) :
    ∃ f g g' out out', mapperGraph X y (c.apply ρ) clust = .ok g ∧
      mapperGraph X (y.map φ) (c'.apply ρ') clust = .ok g' ∧ RenamedGraph id f g g' ∧
      (∀ L, g.IsNode L → g'.nodes.get? (f L) = g.nodes.get? L) ∧
      mapperConnectedComponents order X y (c.apply ρ) clust = .ok out ∧
      mapperConnectedComponents order' X (y.map φ) (c'.apply ρ') clust = .ok out' ∧
      SameComponents id X.length out out' := by
  obtain ⟨a, b, ha, hb, hab⟩ := C86_ball c c' H H' ρ ρ' y (y.map φ) ⟨by simp, by
    intro i j xi xj xi' xj' hi hj hi' hj'
    rw [List.getElem?_map, hi] at hi'
    rw [List.getElem?_map, hj] at hj'
    simp only [Option.map_some, Option.some.injEq] at hi' hj'
    rw [← hi', ← hj', hm, hr, mul_lt_mul_iff_right₀ hs0]⟩
  obtain ⟨a', _, ha', hwf, _⟩ := C18_ball_cover c H h0 ρ y
  rw [ha] at ha'
  cases ha'
  refine C86_graph X y (y.map φ) _ _ clust a b ha hb hab ?_ ho (fun k ids h => ?_) order order'
    hord hord'
  · intro ids h
    rw [hlen]
    exact (hwf ids h).2
  · obtain ⟨l, hl⟩ := hs k (pointsOf X ids)
    exact ⟨l, h, hl⟩

/-- Balls of the given radius on the rational line. -/
def ratBall (r : ℚ) (kind : String) : BallCover ℚ ℚ :=
  ⟨⟨r, fun x y => |x - y|, kind, 1, none, "furthest"⟩, none⟩

theorem ratBall_ok (r : ℚ) (kind : String) (h : IsKind kind) : BallOK (ratBall r kind).params :=
  ⟨⟨fun x => by simp [ratBall], fun x y => abs_sub_comm x y, fun x y z => abs_sub_le x y z⟩, h,
    le_refl 1⟩

/-- Non-vacuity: temperatures in degrees Celsius with radius 5 and in Fahrenheit with radius 9. -/
example : ∃ f g g' out out',
    mapperGraph [5, 6, -7] [20, 24, 30] ((ratBall 5 "flat").apply fun _ => 0) parity = .ok g ∧
    mapperGraph [5, 6, -7] ([20, 24, 30].map fun x : ℚ => 9 / 5 * x + 32)
      ((ratBall 9 "hierarchical").apply fun _ => 3) parity = .ok g' ∧ RenamedGraph id f g g' ∧
    (∀ L, g.IsNode L → g'.nodes.get? (f L) = g.nodes.get? L) ∧
    mapperConnectedComponents id [5, 6, -7] [20, 24, 30] ((ratBall 5 "flat").apply fun _ => 0)
      parity = .ok out ∧
    mapperConnectedComponents id [5, 6, -7] ([20, 24, 30].map fun x : ℚ => 9 / 5 * x + 32)
      ((ratBall 9 "hierarchical").apply fun _ => 3) parity = .ok out' ∧
    SameComponents id 3 out out' :=
  C86_ball_scaled (ratBall 5 "flat") (ratBall 9 "hierarchical") (ratBall_ok _ _ (Or.inl rfl))
    (ratBall_ok _ _ (Or.inr rfl)) (S := ℤ) (fun x : ℚ => 9 / 5 * x + 32) (9 / 5) (by norm_num)
    (fun x z => by
      show |9 / 5 * x + 32 - (9 / 5 * z + 32)| = 9 / 5 * |x - z|
      rw [show 9 / 5 * x + 32 - (9 / 5 * z + 32) = 9 / 5 * (x - z) by ring, abs_mul,
        abs_of_pos (by norm_num : (0 : ℚ) < 9 / 5)])
    (by norm_num [ratBall]) (by norm_num [ratBall]) _ _ ([5, 6, -7] : List ℤ) [20, 24, 30] rfl parity
    parity_insensitive (fun _ _ => ⟨_, rfl⟩) id id (fun _ _ => Iff.rfl) (fun _ _ => Iff.rfl)

end scaling

section cubical
variable {R : Type} [Field R] [LinearOrder R] [IsStrictOrderedRing R] [FloorRing R] {m : ℕ}

/-- **C86 (hypercubes, part that holds).** The charts of `CubicalCover.apply` do not depend on
the units of the columns: multiplying each column by a positive number and shifting it gives the
same charts, for both algorithms, whatever the trees and random draws, as long as no column gets
narrower than the machine epsilon of double precision, or ceases to be. Missing: columns for
which that happens, see `C86_cubical_violation`. -/
theorem C86_cubical_partial (dflt : ℕ → R) (w w' : CubicalCover m R) (p : R)
    (H : CubOK dflt m w.params p) (H' : CubOK dflt m w'.params p)
    (hn : w.params.nIntervals = w'.params.nIntervals) (ha : w.algorithm = w'.algorithm)
    (hk : w.algorithm = "proximity" ∨ w.algorithm = "standard") (ρ ρ' : ℕ → ℕ)
    (y : List (Fin m → R)) (hy : y ≠ []) (a b : Fin m → R) (hpos : ∀ i, 0 < a i)
    (hspread : ∀ lo hi, IsBounds y lo hi → ∀ i,
      (1 / 2 ^ 52 < hi i - lo i ↔ 1 / 2 ^ 52 < a i * (hi i - lo i))) :
    ∃ out out', w.apply dflt ρ y = .ok out ∧ w'.apply dflt ρ' (y.map (otherUnits a b)) = .ok out' ∧
      SameCharts out out' := by
  obtain ⟨lo, hi, hb⟩ := exists_bounds y hy
  have hs := hspread lo hi hb
  rcases hk with hk | hk
  · rw [(C28_delegates dflt w ρ y).1 hk, (C28_delegates dflt w' ρ' _).1 (ha ▸ hk)]
    exact applyProximity_units dflt dflt ⟨w.params, none⟩ ⟨w'.params, none⟩ ρ ρ' y hy p H H' hn
      hpos hb hs
  · rw [(C28_delegates dflt w ρ y).2.1 hk, (C28_delegates dflt w' ρ' _).2.1 (ha ▸ hk)]
    exact applyStandard_units dflt dflt ⟨w.params, none⟩ ⟨w'.params, none⟩ ρ ρ' y hy p H H' hn
      hpos hb hs

/-- Non-vacuity: metres to millimetres in the first column, Celsius to Fahrenheit in the
second, which is constant on the data. -/
example : ∃ out out',
    defaultCub.apply (fun _ => 1 / 3) (fun _ => 0) [pt2 0 7, pt2 2 7, pt2 4 7] = .ok out ∧
    otherCub.apply (fun _ => 1 / 3) (fun n => n) ([pt2 0 7, pt2 2 7, pt2 4 7].map
      (otherUnits (pt2 1000 (9 / 5)) (pt2 0 32))) = .ok out' ∧ SameCharts out out' := by
  have hb : IsBounds [pt2 0 7, pt2 2 7, pt2 4 7] (pt2 0 7) (pt2 4 7) := by
    intro i
    refine ⟨⟨pt2 0 7, by simp, rfl⟩, ⟨pt2 4 7, by simp, rfl⟩, ?_⟩
    intro x hx
    simp only [List.mem_cons, List.not_mem_nil, or_false] at hx
    match i with
    | 0 => rcases hx with rfl | rfl | rfl <;> norm_num [pt2]
    | 1 => rcases hx with rfl | rfl | rfl <;> norm_num [pt2]
  refine C86_cubical_partial (fun _ => 1 / 3) defaultCub otherCub (1 / 3)
    ⟨rfl, by norm_num, by norm_num, by decide, Or.inl rfl, by decide⟩
    ⟨rfl, by norm_num, by norm_num, by decide, Or.inr rfl, by decide⟩ rfl rfl (Or.inr rfl)
    (fun _ => 0) (fun n => n) [pt2 0 7, pt2 2 7, pt2 4 7] (by simp) _ _ ?_ ?_
  · intro i
    match i with
    | 0 => norm_num [pt2]
    | 1 => norm_num [pt2]
  · intro lo hi h
    obtain ⟨rfl, rfl⟩ := h.unique hb
    intro i
    match i with
    | 0 => norm_num [pt2]
    | 1 => norm_num [pt2]

end cubical

/-- Two intervals of one column with overlap fraction `1/4`. -/
def unitCub : CubicalCover 1 ℚ := ⟨⟨2, some (1 / 4), "flat", 1, none, "disabled"⟩, "standard", none⟩

/-- **C86 (hypercubes, violation).** A column whose entries span less than `2^-52` counts as
constant, whatever the order of magnitude of the entries: the rows `0` and `2^-53` are in one
chart, but measured in units of `2^-53`, as `0` and `1`, they are in two. -/
theorem C86_cubical_violation : ∃ (y : List (Fin 1 → ℚ)) (a : ℚ), 0 < a ∧
    CubOK (fun _ => 1 / 4) 1 unitCub.params (1 / 4) ∧
    unitCub.apply (fun _ => 1 / 4) (fun _ => 0) y = .ok [[0, 1]] ∧
    unitCub.apply (fun _ => 1 / 4) (fun _ => 0) (y.map (otherUnits (fun _ => a) fun _ => 0)) =
      .ok [[1], [0]] :=
  ⟨[fun _ => 0, fun _ => 1 / 2 ^ 53], 2 ^ 53, by norm_num,
    ⟨rfl, by norm_num, by norm_num, by decide, Or.inl rfl, by decide⟩,
    by decide +kernel, by decide +kernel⟩

end Verif

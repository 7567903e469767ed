import Verif.Props.Reproducible

/-!
# C72: the order of the rows, for the trivial cover, balls and nearest neighbours

`Shuffled`, `OrderInsensitive`, `RenamedGraph` and `SameComponents` are in
`Verif.Spec.Reproducible`.
-/

set_option autoImplicit false
set_option linter.unusedSectionVars false

namespace Verif

variable {S T : Type}

/-- From the charts to the graph: charts that belong to the same cells, over shuffled rows. -/
theorem shuffled_result {C : Type} [DecidableEq C] {π : ℕ → ℕ} {X X' : List S} {y y' : List T}
    (hX : Shuffled π X X') (hy : Shuffled π y y') (hlen : X.length = y.length)
    {P : C → T → Prop} {cells cells' : List C} {charts charts' : List (List ℕ)}
    {cover cover' : CoverFn T} (hc : cover y = .ok charts) (hc' : cover' y' = .ok charts')
    (hnd : cells.Nodup) (hnd' : cells'.Nodup) (hm : ∀ c, c ∈ cells ↔ c ∈ cells')
    (h : List.Forall₂ (fun c chart => ListsExactly y (P c) chart) cells charts)
    (h' : List.Forall₂ (fun c chart => ListsExactly y' (P c) chart) cells' charts')
    {clust : ClustFn S} (ho : OrderInsensitive clust)
    (halike : ∀ k k' xs, clust k xs = clust k' xs)
    (hs : ∀ k xs, ∃ lbls, clust k xs = .ok lbls) (order order' : List ℤ → List ℤ)
    (hord : ∀ l L, L ∈ order l ↔ L ∈ l) (hord' : ∀ l L, L ∈ order' l ↔ L ∈ l) :
    ∃ f g g' out out', mapperGraph X' y' cover' clust = .ok g' ∧
      mapperGraph X y cover clust = .ok g ∧ RenamedGraph π f g' g ∧
      mapperConnectedComponents order' X' y' cover' clust = .ok out' ∧
      mapperConnectedComponents order X y cover clust = .ok out ∧
      SameComponents π X.length out' out := by
  obtain ⟨κ, hR⟩ := sameRuns_of_cells hX hy hnd hnd' hm h h'
  have hgood : GoodCharts X'.length charts' := by
    intro ids hids
    obtain ⟨k, hk, e⟩ := List.mem_iff_getElem.mp hids
    have hk' : k < cells'.length := by rw [h'.length_eq]; exact hk
    have hl := h'.get hk' hk
    rw [List.get_eq_getElem, List.get_eq_getElem, e] at hl
    refine ⟨hl.1, fun i hi => ?_⟩
    obtain ⟨z, hz, _⟩ := (hl.2 i).mp hi
    rw [hX.length, hlen, ← hy.length]
    exact getElem?_lt hz
  obtain ⟨f, g', g, out', out, h1, h2, h3, h4, h5, h6, _⟩ := hR.result hc' hc hgood ho
    (fun k xs => halike _ _ _) (fun k ids h => by
      obtain ⟨l, hl⟩ := hs k (pointsOf X' ids)
      exact ⟨l, h, hl⟩) order' order hord' hord
  rw [hX.length] at h6
  exact ⟨f, g, g', out, out', h1, h2, h3, h4, h5, h6⟩

theorem trivialCover_cells (y : List T) : ∃ (cells : List Unit) (charts : List (List ℕ)),
    trivialCover y = .ok charts ∧ cells.Nodup ∧ (∀ c, c ∈ cells ↔ 0 < y.length) ∧
    List.Forall₂ (fun _ chart => ListsExactly y (fun _ => True) chart) cells charts := by
  by_cases h : y.length > 0
  · refine ⟨[()], [List.range y.length], by rw [trivialCover, if_pos h], by simp, ?_,
      .cons ⟨List.nodup_range, fun i => ?_⟩ .nil⟩
    · intro c; simp [h]
    · rw [List.mem_range]
      constructor
      · intro hi
        obtain ⟨a, ha⟩ := lt_getElem? hi
        exact ⟨a, ha, trivial⟩
      · rintro ⟨a, ha, _⟩; exact getElem?_lt ha
  · refine ⟨[], [], by rw [trivialCover, if_neg h], by simp, ?_, .nil⟩
    intro c; simp [Nat.not_lt.mp h]

/-- **C72 (trivial cover).** With the trivial cover, and a clustering that treats all charts
alike and does not look at the order of points, the order of the rows does not matter, on any
data. -/
theorem C72_trivial (π : ℕ → ℕ) (X X' : List S) (y y' : List T) (hX : Shuffled π X X')
    (hy : Shuffled π y y') (hlen : X.length = y.length) (clust : ClustFn S)
    (ho : OrderInsensitive clust) (halike : ∀ k k' xs, clust k xs = clust k' xs)
    (hs : ∀ k xs, ∃ lbls, clust k xs = .ok lbls) (order order' : List ℤ → List ℤ)
    (hord : ∀ l L, L ∈ order l ↔ L ∈ l) (hord' : ∀ l L, L ∈ order' l ↔ L ∈ l) :
    ∃ f g g' out out', mapperGraph X' y' trivialCover clust = .ok g' ∧
      mapperGraph X y trivialCover clust = .ok g ∧ RenamedGraph π f g' g ∧
      mapperConnectedComponents order' X' y' trivialCover clust = .ok out' ∧
      mapperConnectedComponents order X y trivialCover clust = .ok out ∧
      SameComponents π X.length out' out := by
  obtain ⟨cells, charts, e, hnd, hm, hl⟩ := trivialCover_cells y
  obtain ⟨cells', charts', e', hnd', hm', hl'⟩ := trivialCover_cells y'
  exact shuffled_result hX hy hlen (P := fun _ _ => True) e e' hnd hnd'
    (fun c => by rw [hm, hm', hy.length]) hl hl' ho halike hs order order' hord hord'

/-- Non-vacuity: three numbers, the clustering of even, odd and negative numbers. -/
example : ∃ f g g' out out',
    mapperGraph [6, 5, -7] [6, 5, -7] trivialCover parity = .ok g' ∧
    mapperGraph [5, 6, -7] [5, 6, -7] trivialCover parity = .ok g ∧
    RenamedGraph swap01 f g' g ∧
    mapperConnectedComponents id [6, 5, -7] [6, 5, -7] trivialCover parity = .ok out' ∧
    mapperConnectedComponents id [5, 6, -7] [5, 6, -7] trivialCover parity = .ok out ∧
    SameComponents swap01 3 out' out :=
  C72_trivial swap01 [5, 6, -7] [6, 5, -7] [5, 6, -7] [6, 5, -7] (shuffled_swap01 (5 : ℤ) 6 (-7))
    (shuffled_swap01 (5 : ℤ) 6 (-7)) rfl parity parity_insensitive (fun _ _ _ => rfl)
    (fun _ _ => ⟨_, rfl⟩) id id (fun _ _ => Iff.rfl) (fun _ _ => Iff.rfl)

section metric
variable {R : Type} [AddCommGroup R] [LinearOrder R] [IsOrderedAddMonoid R]

open Classical in
/-- If nearness is transitive on the rows, the charts of `BallCover.apply` are the classes. -/
theorem ball_cells (c : BallCover T R) (H : BallOK c.params) (h0 : 0 < c.params.radius)
    (ρ : ℕ → ℕ) (y : List T)
    (htr : ∀ a ∈ y, ∀ b ∈ y, ∀ z ∈ y, c.params.metric a b < c.params.radius →
      c.params.metric b z < c.params.radius → c.params.metric a z < c.params.radius) :
    ∃ (cells : List (Set T)) (charts : List (List ℕ)), c.apply ρ y = .ok charts ∧ cells.Nodup ∧
      (∀ A, A ∈ cells ↔ ∃ a ∈ y, A = {z | z ∈ y ∧ c.params.metric a z < c.params.radius}) ∧
      List.Forall₂ (fun A chart => ListsExactly y (fun z => z ∈ A) chart) cells charts := by
  obtain ⟨out, cs, e, hw, hcov, hsort, hb, hsep⟩ := C18_ball_cover c H h0 ρ y
  let ball : T → Set T := fun a => {z | z ∈ y ∧ c.params.metric a z < c.params.radius}
  let cell : ℕ → Set T := fun i => {z | z ∈ y ∧ ∃ a, y[i]? = some a ∧
    c.params.metric a z < c.params.radius}
  have hcell : ∀ (i : ℕ) a, y[i]? = some a → cell i = ball a := by
    intro i a ha
    ext z
    constructor
    · rintro ⟨h1, b, h2, h3⟩
      rw [ha] at h2; cases h2
      exact ⟨h1, h3⟩
    · rintro ⟨h1, h2⟩
      exact ⟨h1, a, ha, h2⟩
  have hself : ∀ a ∈ y, a ∈ ball a := fun a ha => ⟨ha, by rw [H.metric.self]; exact h0⟩
  have hcs : ∀ i ∈ cs, ∃ a, y[i]? = some a := by
    intro i hi
    obtain ⟨k, hk, e⟩ := List.mem_iff_getElem.mp hi
    have hk' : k < out.length := by rw [← hb.length_eq]; exact hk
    have := hb.get hk hk'
    rw [List.get_eq_getElem, List.get_eq_getElem, e] at this
    obtain ⟨a, ha, _⟩ := this
    exact ⟨a, ha⟩
  have heq : ∀ a ∈ y, ∀ b ∈ y, c.params.metric a b < c.params.radius → ball a = ball b := by
    intro a ha b hb' hab
    ext z
    constructor
    · rintro ⟨hz, h⟩
      exact ⟨hz, htr b hb' a ha z hz (by rw [H.metric.symm]; exact hab) h⟩
    · rintro ⟨hz, h⟩
      exact ⟨hz, htr a ha b hb' z hz hab h⟩
  refine ⟨cs.map cell, out, e, ?_, ?_, ?_⟩
  · rw [List.nodup_map_iff_inj_on (hsort.imp fun h => ne_of_lt h)]
    intro i hi j hj hij
    by_contra hne
    obtain ⟨a, ha⟩ := hcs i hi
    obtain ⟨b, hb'⟩ := hcs j hj
    rw [hcell i a ha, hcell j b hb'] at hij
    have : b ∈ ball a := hij ▸ hself b (List.mem_of_getElem? hb')
    exact absurd this.2 (not_lt.mpr (hsep i hi j hj hne a b ha hb'))
  · intro A
    rw [List.mem_map]
    constructor
    · rintro ⟨i, hi, rfl⟩
      obtain ⟨a, ha⟩ := hcs i hi
      exact ⟨a, List.mem_of_getElem? ha, hcell i a ha⟩
    · rintro ⟨a, ha, rfl⟩
      obtain ⟨n, hn⟩ := List.getElem?_of_mem ha
      obtain ⟨chart, hch, hnc⟩ := hcov n (getElem?_lt hn)
      obtain ⟨k, hk, e⟩ := List.mem_iff_getElem.mp hch
      have hk' : k < cs.length := by rw [hb.length_eq]; exact hk
      have := hb.get hk' hk
      rw [List.get_eq_getElem, List.get_eq_getElem, e] at this
      obtain ⟨b, hb', hl⟩ := this
      obtain ⟨z, hz, hlt⟩ := (hl.2 n).mp hnc
      rw [hn] at hz; cases hz
      exact ⟨cs[k], List.getElem_mem _, (hcell _ b hb').trans
        (heq b (List.mem_of_getElem? hb') a ha hlt)⟩
  · rw [List.forall₂_map_left_iff]
    refine hb.imp fun i chart h => ?_
    obtain ⟨a, ha, hl⟩ := h
    rw [hcell i a ha]
    refine ⟨hl.1, fun j => (hl.2 j).trans ?_⟩
    constructor
    · rintro ⟨z, hz, h⟩; exact ⟨z, hz, List.mem_of_getElem? hz, h⟩
    · rintro ⟨z, hz, _, h⟩; exact ⟨z, hz, h⟩

/-- **C72 (balls, part that holds).** With a `BallCover` the order of the rows does not matter
if being nearer than the radius is transitive on the rows of the lens, that is if the rows
fall into groups of which each is narrower than the radius and which are at least the radius
apart. Missing: rows for which it is not, see `C72_ball_violation`. -/
theorem C72_ball_partial (c c' : BallCover T R) (H : BallOK c.params) (H' : BallOK c'.params)
    (hm : c.params.metric = c'.params.metric) (hr : c.params.radius = c'.params.radius)
    (h0 : 0 < c.params.radius) (ρ ρ' π : ℕ → ℕ) (X X' : List S) (y y' : List T)
    (hX : Shuffled π X X') (hy : Shuffled π y y') (hlen : X.length = y.length)
    (htr : ∀ a ∈ y, ∀ b ∈ y, ∀ z ∈ y, c.params.metric a b < c.params.radius →
      c.params.metric b z < c.params.radius → c.params.metric a z < c.params.radius)
    (clust : ClustFn S)
    (ho : OrderInsensitive clust) (halike : ∀ k k' xs, clust k xs = clust k' xs)
    (hs : ∀ k xs, ∃ lbls, clust k xs = .ok lbls) (order order' : List ℤ → List ℤ)
    (hord : ∀ l L, L ∈ order l ↔ L ∈ l) (hord' : ∀ l L, L ∈ order' l ↔ L ∈ l) :
    ∃ f g g' out out', mapperGraph X' y' (c'.apply ρ') clust = .ok g' ∧
      mapperGraph X y (c.apply ρ) clust = .ok g ∧ RenamedGraph π f g' g ∧
      mapperConnectedComponents order' X' y' (c'.apply ρ') clust = .ok out' ∧
      mapperConnectedComponents order X y (c.apply ρ) clust = .ok out ∧
      SameComponents π X.length out' out := by
  classical
  obtain ⟨cells, charts, e, hnd, hmem, hl⟩ := ball_cells c H h0 ρ y htr
  obtain ⟨cells', charts', e', hnd', hmem', hl'⟩ := ball_cells c' H' (hr ▸ h0) ρ' y'
    (fun a ha b hb z hz h1 h2 => by
      rw [← hm, ← hr] at h1 h2 ⊢
      exact htr a ((hy.mem_iff _).mp ha) b ((hy.mem_iff _).mp hb) z ((hy.mem_iff _).mp hz) h1 h2)
  refine shuffled_result hX hy hlen (P := fun A z => z ∈ A) e e' hnd hnd' (fun A => ?_) hl hl' ho
    halike hs order order' hord hord'
  rw [hmem, hmem', ← hm, ← hr]
  have : ∀ a, {z | z ∈ y' ∧ c.params.metric a z < c.params.radius} =
      {z | z ∈ y ∧ c.params.metric a z < c.params.radius} := by
    intro a; ext z; exact and_congr (hy.mem_iff z) Iff.rfl
  constructor
  · rintro ⟨a, ha, rfl⟩
    exact ⟨a, (hy.mem_iff _).mpr ha, (this a).symm⟩
  · rintro ⟨a, ha, rfl⟩
    exact ⟨a, (hy.mem_iff _).mp ha, this a⟩

end metric

/-- Non-vacuity: the groups `5, 6` and `-7`, with radius 2, searched in two kinds of tree. -/
example : ∃ f g g' out out',
    mapperGraph [6, 5, -7] [6, 5, -7] (otherBall.apply fun n => n) parity = .ok g' ∧
    mapperGraph [5, 6, -7] [5, 6, -7] ((demoBall 2).apply fun _ => 0) parity = .ok g ∧
    RenamedGraph swap01 f g' g ∧
    mapperConnectedComponents id [6, 5, -7] [6, 5, -7] (otherBall.apply fun n => n) parity =
      .ok out' ∧
    mapperConnectedComponents id [5, 6, -7] [5, 6, -7] ((demoBall 2).apply fun _ => 0) parity =
      .ok out ∧
    SameComponents swap01 3 out' out :=
  C72_ball_partial (demoBall 2) otherBall (demoBall_ok 2) otherBall_ok rfl rfl (by decide)
    (fun _ => 0) (fun n => n) swap01 [5, 6, -7] [6, 5, -7] [5, 6, -7] [6, 5, -7]
    (shuffled_swap01 (5 : ℤ) 6 (-7)) (shuffled_swap01 (5 : ℤ) 6 (-7)) rfl
    (by
      intro a ha b hb z hz
      simp only [List.mem_cons, List.not_mem_nil, or_false] at ha hb hz
      rcases ha with rfl | rfl | rfl <;> rcases hb with rfl | rfl | rfl <;>
        rcases hz with rfl | rfl | rfl <;> decide)
    parity parity_insensitive (fun _ _ _ => rfl)
    (fun _ _ => ⟨_, rfl⟩) id id (fun _ _ => Iff.rfl) (fun _ _ => Iff.rfl)

/-- The first and the last of four rows exchanged. -/
def swap03 : ℕ → ℕ
  | 0 => 3
  | 3 => 0
  | n => n

theorem shuffled_swap03 {α : Type} (a b c d : α) :
    Shuffled swap03 [a, b, c, d] [d, b, c, a] := by
  refine ⟨rfl, ?_, ?_⟩
  · intro m hm
    simp only [List.length_cons, List.length_nil] at hm
    interval_cases m <;> exact ⟨by simp [swap03], rfl⟩
  · intro m m' hm hm'
    simp only [List.length_cons, List.length_nil] at hm hm'
    interval_cases m <;> interval_cases m' <;> decide

/-- **C72 (violation for nearest neighbours).** Exchanging two rows changes the graph of a
`KNNCover`, even on data without ties: with two neighbours the points `0, 1, 4, 9` give three
nodes, the points `9, 1, 4, 0` only two. -/
theorem C72_knn_violation :
    ∃ (X X' : List ℤ) (π : ℕ → ℕ) (g g' : NxGraph), Shuffled π X X' ∧
      KnnOK (demoKnn 2).params ∧
      (∀ q ∈ X, ∀ (i j : ℕ) xi xj, X[i]? = some xi → X[j]? = some xj →
        absDist q xi = absDist q xj → i = j) ∧
      mapperGraph X X ((demoKnn 2).apply fun _ => 0) (fun _ => trivialClustering) = .ok g ∧
      mapperGraph X' X' ((demoKnn 2).apply fun _ => 0) (fun _ => trivialClustering) = .ok g' ∧
      ∀ τ f, ¬ RenamedGraph τ f g g' := by
  obtain ⟨g, e, hk⟩ := map_keys_ok (ks := [0, 1, 2])
    (r := mapperGraph [(0 : ℤ), 1, 4, 9] [(0 : ℤ), 1, 4, 9]
      ((demoKnn 2).apply fun _ => 0) (fun _ => trivialClustering)) (by decide +kernel)
  obtain ⟨g', e', hk'⟩ := map_keys_ok (ks := [0, 1])
    (r := mapperGraph [(9 : ℤ), 1, 4, 0] [(9 : ℤ), 1, 4, 0]
      ((demoKnn 2).apply fun _ => 0) (fun _ => trivialClustering)) (by decide +kernel)
  refine ⟨[0, 1, 4, 9], [9, 1, 4, 0], swap03, g, g', shuffled_swap03 _ _ _ _,
    demoKnn_ok 2 (by decide), ?_, e, e', ?_⟩
  · intro q hq i j xi xj hi hj
    have hi' := getElem?_lt hi
    have hj' := getElem?_lt hj
    simp only [List.length_cons, List.length_nil] at hi' hj'
    simp only [List.mem_cons, List.not_mem_nil, or_false] at hq
    interval_cases i <;> interval_cases j <;> simp at hi hj <;> subst hi <;> subst hj <;>
      rcases hq with rfl | rfl | rfl | rfl <;> decide
  · intro τ f h
    have := h.length_le (by rw [hk]; decide)
    rw [hk, hk'] at this
    exact absurd this (by decide)

end Verif

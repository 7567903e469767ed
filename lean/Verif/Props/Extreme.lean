import Verif.Spec.Extreme
import Verif.Props.Nerve
import Verif.Props.Cover
import Verif.Props.Refine
import Verif.Proof.Units

/-!
# C95: the coarsest and the finest parameters

If the cover has one chart, Mapper is the clustering itself; that is so for `TrivialCover`, a radius
above all distances, as many neighbours as rows, or one interval. If each row is a chart of its
own, the graph has one node per row and no edges; that is so for a radius below all distances and
for one neighbour.
-/

set_option autoImplicit false
set_option linter.unusedSectionVars false

namespace Verif

variable {S T : Type}

theorem localLabel_single {X : List S} {ids : List ℕ} {clust : ClustFn S} {lbls : List ℤ}
    (hl : clust 0 (pointsOf X ids) = .ok lbls) {c i : ℕ} {l : ℤ} :
    LocalLabel X [ids] clust c i l ↔
      c = 0 ∧ ∃ k : ℕ, ids[k]? = some i ∧ lbls[k]? = some l := by
  constructor
  · rintro ⟨jds, lb, k, ⟨h1, h2⟩, h3, h4⟩
    cases c with
    | zero =>
      simp only [List.getElem?_cons_zero, Option.some.injEq] at h1
      subst h1
      rw [hl] at h2; cases h2
      exact ⟨rfl, k, h3, h4⟩
    | succ c => simp at h1
  · rintro ⟨rfl, k, h3, h4⟩
    exact ⟨ids, lbls, k, ⟨rfl, hl⟩, h3, h4⟩

/-- **C95 (one chart).** If the cover has a single chart, the Mapper graph has no edges, its nodes
are the labels of the clustering that are not noise, each with the rows that have the label; and
the connected components are the labels of the clustering themselves, with `-1` for noise. -/
theorem C95_one_chart (X : List S) (y : List T) (hlen : X.length = y.length) (cover : CoverFn T)
    (clust : ClustFn S) (ids : List ℕ) (hp : ids.Perm (List.range y.length))
    (hc : cover y = .ok [ids]) (lbls : List ℤ) (hl : clust 0 (pointsOf X ids) = .ok lbls)
    (hll : lbls.length = ids.length) (order : List ℤ → List ℤ)
    (ho : ∀ l L, L ∈ order l ↔ L ∈ l) :
    ∃ g out, mapperGraph X y cover clust = .ok g ∧
      mapperConnectedComponents order X y cover clust = .ok out ∧ out.length = X.length ∧
      (∀ u v, ¬ g.Adj u v) ∧ (∀ L, g.IsNode L ↔ 0 ≤ L ∧ L ∈ lbls) ∧
      (∀ L, g.IsNode L → ∃ size l, g.nodes.get? L = some ⟨some size, some l⟩ ∧ size = l.length ∧
        l.Pairwise (· < ·) ∧ ∀ i, i ∈ l ↔ ∃ k : ℕ, ids[k]? = some i ∧ lbls[k]? = some L) ∧
      ∀ (k : ℕ) (i : ℕ) l, ids[k]? = some i → lbls[k]? = some l →
        out[i]? = some (max l (-1)) := by
  have hnd : ids.Nodup := hp.nodup_iff.mpr List.nodup_range
  have hg : GoodCharts X.length [ids] := by
    intro jds hj
    rw [List.mem_singleton] at hj; subst hj
    exact ⟨hnd, fun i hi => by rw [hlen]; exact List.mem_range.mp (hp.mem_iff.mp hi)⟩
  have hs : ClusteringSucceeds X [ids] clust := by
    intro c jds hj
    cases c with
    | zero =>
      simp only [List.getElem?_cons_zero, Option.some.injEq] at hj
      subst hj
      exact ⟨lbls, rfl, hl⟩
    | succ c => simp at hj
  obtain ⟨itm, off, e, h0, _, hm, _⟩ := C32_labels_faithful X y cover clust [ids] hc hg hs
  obtain ⟨_, g, e1, eg, hnode, _, hattr⟩ := C34_graph_nodes X y cover clust [ids] hc hg hs
  rw [e] at e1; cases e1
  obtain ⟨_, _, e1, eg', hadj, _⟩ := C35_graph_edges X y cover clust [ids] hc hg hs
  rw [e] at e1; cases e1
  rw [eg] at eg'; cases eg'
  obtain ⟨_, _, out, e1, eg', eo, hlo, hneg, hroot, _⟩ :=
    C36_connected_components X y cover clust [ids] hc hg hs order ho
  rw [e] at e1; cases e1
  rw [eg] at eg'; cases eg'
  have hcar : ∀ i L, Carries itm i L ↔ 0 ≤ L ∧ ∃ k : ℕ, ids[k]? = some i ∧ lbls[k]? = some L := by
    intro i L
    rw [hm]
    constructor
    · rintro ⟨c, l, h1, h2, rfl⟩
      obtain ⟨rfl, h3⟩ := (localLabel_single hl).mp h1
      rw [h0, zero_add]
      exact ⟨h2, h3⟩
    · rintro ⟨h1, h2⟩
      exact ⟨0, L, (localLabel_single hl).mpr ⟨rfl, h2⟩, h1, by rw [h0, zero_add]⟩
  have huniq : ∀ {k k' i : ℕ}, ids[k]? = some i → ids[k']? = some i → k = k' := fun h h' =>
    (List.getElem?_inj (getElem?_lt h) hnd).mp (h.trans h'.symm)
  have hno : ∀ u v, ¬ g.Adj u v := by
    intro u v h
    obtain ⟨hne, i, hu, hv⟩ := (hadj u v).mp h
    obtain ⟨_, k, h1, h2⟩ := (hcar i u).mp hu
    obtain ⟨_, k', h3, h4⟩ := (hcar i v).mp hv
    cases huniq h1 h3
    rw [h2] at h4; cases h4
    exact hne rfl
  refine ⟨g, out, eg, eo, hlo, hno, fun L => ?_, fun L hL => ?_, fun k i l h1 h2 => ?_⟩
  · rw [hnode]
    constructor
    · rintro ⟨i, hi⟩
      obtain ⟨h1, k, _, h3⟩ := (hcar i L).mp hi
      exact ⟨h1, List.mem_of_getElem? h3⟩
    · rintro ⟨h1, h2⟩
      obtain ⟨k, hk⟩ := List.getElem?_of_mem h2
      obtain ⟨i, hi⟩ := lt_getElem? (l := ids) (k := k) (by rw [← hll]; exact getElem?_lt hk)
      exact ⟨i, (hcar i L).mpr ⟨h1, k, hi, hk⟩⟩
  · obtain ⟨size, l, h1, h2, _, h3, h4⟩ := hattr L hL
    obtain ⟨i, hi⟩ := (hnode L).mp hL
    have h5 := ((hcar i L).mp hi).1
    refine ⟨size, l, h1, h2, h3, fun j => ?_⟩
    rw [h4, hcar]
    exact ⟨fun h => h.2, fun h => ⟨h5, h⟩⟩
  · have hi : i < out.length := by
      rw [hlo]; exact (hg ids (by simp)).2 i (List.mem_of_getElem? h1)
    by_cases hl0 : 0 ≤ l
    · obtain ⟨r, hr⟩ := lt_getElem? (l := out) (k := i) hi
      obtain ⟨_, h3⟩ := hroot i l r ((hcar i l).mpr ⟨hl0, k, h1, h2⟩) hr
      rw [hr, max_eq_left (by omega)]
      congr 1
      induction h3 with
      | refl => rfl
      | tail _ h _ => exact absurd h (hno _ _)
    · rw [max_eq_right (by omega)]
      refine (hneg i (hlo ▸ hi)).mpr fun L hL => ?_
      obtain ⟨h3, k', h4, h5⟩ := (hcar i L).mp hL
      cases huniq h1 h4
      rw [h2] at h5; cases h5
      exact hl0 h3

theorem pointsOf_range (X : List S) : pointsOf X (List.range X.length) = X := by
  induction X with
  | nil => rfl
  | cons x xs ih =>
    unfold pointsOf at ih ⊢
    rw [List.length_cons, List.range_succ_eq_map]
    simpa [List.filterMap_map, Function.comp_def] using ih

/-- **C95 (trivial cover).** With `TrivialCover` the connected components are the labels of the
clustering of the whole dataset, with `-1` for noise. -/
theorem C95_trivial_cover (X : List S) (y : List T) (hlen : X.length = y.length) (hy : y ≠ [])
    (clust : ClustFn S) (lbls : List ℤ) (hl : clust 0 X = .ok lbls) (hll : lbls.length = X.length)
    (order : List ℤ → List ℤ) (ho : ∀ l L, L ∈ order l ↔ L ∈ l) :
    mapperConnectedComponents order X y trivialCover clust = .ok (lbls.map fun l => max l (-1)) := by
  have hpos : y.length > 0 := List.length_pos_iff.mpr hy
  have hpts : pointsOf X (List.range y.length) = X := by
    rw [← hlen]
    exact pointsOf_range X
  obtain ⟨_, out, _, eo, hlo, _, _, _, h⟩ := C95_one_chart X y hlen trivialCover clust
    (List.range y.length) (List.Perm.refl _) (by rw [trivialCover, if_pos hpos]) lbls
    (by rw [hpts]; exact hl) (by rw [hll, hlen, List.length_range]) order ho
  rw [eo]
  congr 1
  apply List.ext_getElem?
  intro i
  by_cases hi : i < X.length
  · obtain ⟨l, hl'⟩ := lt_getElem? (l := lbls) (k := i) (by rw [hll]; exact hi)
    rw [h i i l (by rw [List.getElem?_range (hlen ▸ hi)]) hl', List.getElem?_map, hl']
    rfl
  · rw [List.getElem?_eq_none (by omega), List.getElem?_eq_none (by simp; omega)]

theorem proximityLoop_covered {F : Type} (search : F → S → Py (List ℕ)) (f : F) :
    ∀ (rest : List S) (i : ℕ) (covered : List ℕ),
      (∀ j, i ≤ j → j < i + rest.length → j ∈ covered) →
      proximityLoop search f i rest covered = .ok [] := by
  intro rest
  induction rest with
  | nil => intro i covered _; rfl
  | cons x rest ih =>
    intro i covered h
    rw [proximityLoop, if_pos (h i (le_refl _) (by simp))]
    exact ih (i + 1) covered fun j h1 h2 => h j (by omega) (by simp; omega)

theorem proximityNet_all {F : Type} {fit : List S → Py F} {search : F → S → Py (List ℕ)} {x : S}
    {xs : List S} {f : F} {ids : List ℕ} (hf : fit (x :: xs) = .ok f) (hs : search f x = .ok ids)
    (h : ids.Perm (List.range (x :: xs).length)) : SingleChart (proximityNet fit search) (x :: xs) := by
  have hmem : ∀ j, j < (x :: xs).length → j ∈ ids := fun j hj =>
    h.mem_iff.mpr (List.mem_range.mpr hj)
  refine ⟨ids, h, ?_⟩
  have hne : ids ≠ [] := List.ne_nil_of_mem (hmem 0 (by simp))
  rw [proximityNet, hf, ok_bind, proximityLoop, if_neg (by simp), hs, ok_bind,
    proximityLoop_covered, ok_bind, if_neg hne]
  · rfl
  · intro j _ hj
    exact List.mem_append_right _ (hmem j (by simp at hj ⊢; omega))

theorem proximityLoop_own {F : Type} (search : F → S → Py (List ℕ)) (f : F) :
    ∀ (rest : List S) (i : ℕ) (covered : List ℕ), (∀ j ∈ covered, j < i) →
      (∀ (k : ℕ) x, rest[k]? = some x → search f x = .ok [i + k]) →
      proximityLoop search f i rest covered = .ok ((List.range' i rest.length).map fun i => [i]) := by
  intro rest
  induction rest with
  | nil => intro i covered _ _; rfl
  | cons x rest ih =>
    intro i covered hc h
    rw [proximityLoop, if_neg (fun h0 => by have := hc i h0; omega), h 0 x rfl, ok_bind,
      ih (i + 1) (covered ++ [i + 0]), ok_bind, if_neg (by simp)]
    · rfl
    · intro j hj
      rcases List.mem_append.mp hj with h1 | h1
      · have := hc j h1; omega
      · simp at h1; omega
    · intro k z hz
      rw [h (k + 1) z hz]
      congr 2; omega

theorem proximityNet_own {F : Type} {fit : List S → Py F} {search : F → S → Py (List ℕ)}
    {X : List S} {f : F} (hf : fit X = .ok f)
    (hs : ∀ (k : ℕ) x, X[k]? = some x → search f x = .ok [k]) :
    ChartPerRow (proximityNet fit search) X := by
  rw [ChartPerRow, proximityNet, hf, ok_bind, proximityLoop_own search f X 0 [] (by simp)
    (fun k x h => by rw [hs k x h, zero_add]), List.range_eq_range']

theorem perm_range {n : ℕ} {ids : List ℕ} (h : ids.Nodup) (hm : ∀ i, i ∈ ids ↔ i < n) :
    ids.Perm (List.range n) :=
  (List.perm_ext_iff_of_nodup h List.nodup_range).mpr fun i => by rw [hm, List.mem_range]

theorem eq_singleton {ids : List ℕ} {k : ℕ} (h : ids.Nodup) (hm : ∀ i, i ∈ ids ↔ i = k) :
    ids = [k] :=
  List.perm_singleton.mp ((List.perm_ext_iff_of_nodup h (List.nodup_singleton k)).mpr fun i => by
    rw [hm, List.mem_singleton])

section ball
variable {R : Type} [AddCommGroup R] [LinearOrder R] [IsOrderedAddMonoid R]

/-- **C95 (balls).** If the radius exceeds all distances from the first row, `BallCover` has a
single chart, with all the rows. -/
theorem C95_ball_one (c : BallCover T R) (H : BallOK c.params) (ρ : ℕ → ℕ) (x : T) (xs : List T)
    (h : ∀ z ∈ x :: xs, c.params.metric x z < c.params.radius) :
    SingleChart (c.apply ρ) (x :: xs) := by
  obtain ⟨c', h1, h2⟩ := C17_ball_search c H ρ (x :: xs) (by simp)
  obtain ⟨ids, h3, h4, h5⟩ := h2 x
  refine proximityNet_all h1 h3 (perm_range h4 fun i => ?_)
  rw [h5]
  constructor
  · rintro ⟨z, hz, _⟩; exact getElem?_lt hz
  · intro hi
    obtain ⟨z, hz⟩ := lt_getElem? (l := x :: xs) (k := i) hi
    exact ⟨z, hz, h z (List.mem_of_getElem? hz)⟩

/-- **C95 (balls).** If no two rows are nearer to each other than the radius, `BallCover` has one
chart per row. -/
theorem C95_ball_own (c : BallCover T R) (H : BallOK c.params) (hr : 0 < c.params.radius)
    (ρ : ℕ → ℕ) (X : List T)
    (h : ∀ (i j : ℕ) xi xj, X[i]? = some xi → X[j]? = some xj → i ≠ j →
      c.params.radius ≤ c.params.metric xi xj) : ChartPerRow (c.apply ρ) X := by
  by_cases hX : X = []
  · subst hX
    obtain ⟨c', h1, _⟩ := ballFit_ok c H.metric H.kind H.capacity ρ []
    exact proximityNet_own h1 (by simp)
  obtain ⟨c', h1, h2⟩ := C17_ball_search c H ρ X hX
  refine proximityNet_own h1 fun k x hx => ?_
  obtain ⟨ids, h3, h4, h5⟩ := h2 x
  rw [h3, eq_singleton h4 (k := k)]
  intro i
  rw [h5]
  constructor
  · rintro ⟨z, hz, hlt⟩
    by_contra hne
    exact absurd (h k i x z hx hz (Ne.symm hne)) (not_le.mpr hlt)
  · rintro rfl
    exact ⟨x, hx, by beta_reduce; rw [H.metric.self]; exact hr⟩

/-- **C95 (neighbours).** With at least as many neighbours as rows, `KNNCover` has a single
chart, with all the rows. -/
theorem C95_knn_one (c : KnnCover T R) (H : KnnOK c.params) (ρ : ℕ → ℕ) (X : List T) (hX : X ≠ [])
    (h : X.length ≤ c.params.neighbors) : SingleChart (c.apply ρ) X := by
  obtain ⟨x, xs, rfl⟩ := List.exists_cons_of_ne_nil hX
  obtain ⟨c', h1, h2⟩ := C19_knn_search c H ρ (x :: xs) hX
  obtain ⟨ids, h3, h4, h5, h6, _⟩ := h2 x
  rw [min_eq_right h] at h5
  refine proximityNet_all h1 h3 ?_
  have hsub : ids ⊆ List.range (x :: xs).length := fun i hi => List.mem_range.mpr (h6 i hi)
  exact (h4.subperm hsub).perm_of_length_le (by rw [h5, List.length_range])

/-- **C95 (neighbours).** With one neighbour and rows at positive distances, `KNNCover` has one
chart per row. -/
theorem C95_knn_own (c : KnnCover T R) (H : KnnOK c.params) (hk : c.params.neighbors = 1)
    (ρ : ℕ → ℕ) (X : List T)
    (h : ∀ (i j : ℕ) xi xj, X[i]? = some xi → X[j]? = some xj → i ≠ j →
      0 < c.params.metric xi xj) : ChartPerRow (c.apply ρ) X := by
  by_cases hX : X = []
  · subst hX
    obtain ⟨c', h1, _⟩ := knnFit_ok c H.metric H.kind H.neighbors ρ []
    exact proximityNet_own h1 (by simp)
  obtain ⟨c', h1, h2⟩ := C19_knn_search c H ρ X hX
  refine proximityNet_own h1 fun k x hx => ?_
  obtain ⟨ids, h3, h4, h5, h6, h7⟩ := h2 x
  have hpos := List.length_pos_iff.mpr hX
  rw [hk, min_eq_left hpos] at h5
  obtain ⟨j, rfl⟩ := List.length_eq_one_iff.mp h5
  rw [h3]
  by_cases hjk : j = k
  · rw [hjk]
  · obtain ⟨z, hz⟩ := lt_getElem? (l := X) (k := j) (h6 j (by simp))
    have h8 := h7 j (by simp) k (by simpa using Ne.symm hjk) z x hz hx
    rw [H.metric.self] at h8
    exact absurd (h k j x z hx hz (Ne.symm hjk)) (not_lt.mpr h8)

end ball

section cubical
variable {R : Type} [Field R] [LinearOrder R] [IsStrictOrderedRing R] [FloorRing R] {m : ℕ}

/-- **C95 (hypercubes).** With one interval the cubical covers have a single chart, with all the
rows. -/
theorem C95_cubical_one (dflt : ℕ → R) (c : CubCover m R) (p : R) (H : CubOK dflt m c.params p)
    (h1 : c.params.nIntervals = 1) (ρ : ℕ → ℕ) (y : List (Fin m → R)) (hy : y ≠ []) :
    SingleChart (c.applyStandard dflt ρ) y ∧ SingleChart (c.applyProximity dflt ρ) y := by
  obtain ⟨lo, hi, hb⟩ := exists_bounds y hy
  have key : ∀ (cells : List (Fin m → ℤ)) (out : List (List ℕ)), cells.Nodup →
      (∀ cell ∈ cells, ∃ x ∈ y, IsCell lo hi c.params.nIntervals x cell) →
      List.Forall₂ (fun cell chart =>
        ListsExactly y (InHypercube lo hi c.params.nIntervals p cell) chart ∧ chart ≠ []) cells out →
      (∀ i, i < y.length → ∃ chart ∈ out, i ∈ chart) →
      ∃ ids : List ℕ, ids.Perm (List.range y.length) ∧ out = [ids] := by
    intro cells out hnd hcell hl hcov
    have hall : ∀ cell ∈ cells, cell = fun _ => 0 := by
      intro cell hc
      obtain ⟨x, _, hx⟩ := hcell cell hc
      rw [h1] at hx
      funext i
      by_cases hs : Spread lo hi i
      · obtain ⟨h2, h3, _⟩ := (hx i).1 hs
        have : cell i < 1 := by exact_mod_cast h3
        omega
      · exact (hx i).2 hs
    match cells, out, hl, hnd, hall with
    | [], [], _, _, _ =>
      obtain ⟨_, h, _⟩ := hcov 0 (List.length_pos_iff.mpr hy)
      simp at h
    | [cell], [ids], hl, _, _ =>
      obtain ⟨h2, _⟩ := (List.forall₂_cons.mp hl).1
      refine ⟨ids, perm_range h2.1 fun i => ⟨fun h => ?_, fun h => ?_⟩, rfl⟩
      · obtain ⟨z, hz, _⟩ := (h2.2 i).mp h
        exact getElem?_lt hz
      · obtain ⟨_, h3, h4⟩ := hcov i h
        rw [List.mem_singleton.mp h3] at h4
        exact h4
    | a :: b :: _, _, _, hnd, hall =>
      rw [hall a (by simp), hall b (by simp)] at hnd
      simp at hnd
  obtain ⟨cells, out, e, g1, g2, g3, g4⟩ := applyStandard_ok dflt c ρ y hy p H hb
  obtain ⟨ids, h2, rfl⟩ := key cells out g1 (fun cell h => (g2 cell).mp h) g3 g4
  obtain ⟨cells', out', e', g1', g2', g3', g4'⟩ := applyProximity_ok dflt c ρ y hy p H hb
  obtain ⟨ids', h2', rfl⟩ := key cells' out' g1' g2' g3' g4'
  exact ⟨⟨ids, h2, e⟩, ⟨ids', h2', e'⟩⟩

end cubical

/-- **C95 (a chart per row).** If each row is a chart of its own then, with the trivial clustering,
the nodes are the row numbers, each with its row; there are no edges, and the connected components
are the row numbers. -/
theorem C95_own_charts (X : List S) (y : List T) (hlen : X.length = y.length) (cover : CoverFn T)
    (hc : ChartPerRow cover y) (order : List ℤ → List ℤ) (ho : ∀ l L, L ∈ order l ↔ L ∈ l) :
    ∃ g out, mapperGraph X y cover (fun _ => trivialClustering) = .ok g ∧
      mapperConnectedComponents order X y cover (fun _ => trivialClustering) = .ok out ∧
      (∀ u v, ¬ g.Adj u v) ∧ (∀ L, g.IsNode L ↔ ∃ k : ℕ, k < X.length ∧ L = k) ∧
      (∀ k : ℕ, k < X.length → g.nodes.get? k = some ⟨some 1, some [k]⟩) ∧
      out.length = X.length ∧ ∀ k : ℕ, k < X.length → out[k]? = some (k : ℤ) := by
  have hget : ∀ k, k < X.length →
      ((List.range y.length).map fun i => [i])[k]? = some [k] := by
    intro k hk
    rw [List.getElem?_map, List.getElem?_range (hlen ▸ hk)]; rfl
  have hlc : ((List.range y.length).map fun i => [i]).length = X.length := by simp [hlen]
  have hw : WellFormedCharts X.length ((List.range y.length).map fun i => [i]) := by
    intro ids h
    obtain ⟨i, hi, rfl⟩ := List.mem_map.mp h
    rw [List.mem_range, ← hlen] at hi
    simpa using hi
  have hg : GoodCharts X.length ((List.range y.length).map fun i => [i]) := fun ids h => (hw ids h).2
  have hs := trivial_succeeds X ((List.range y.length).map fun i => [i])
  obtain ⟨g, eg, hn⟩ := C75_nerve X y cover _ hc hw
  obtain ⟨_, _, _, eg', _, hend, _⟩ := C35_graph_edges X y cover _ _ hc hg hs
  rw [eg] at eg'; cases eg'
  obtain ⟨itm, _, out, e, eg', eo, hlo, _, hroot, _⟩ :=
    C36_connected_components X y cover _ _ hc hg hs order ho
  rw [eg] at eg'; cases eg'
  have hnode : ∀ L, g.IsNode L ↔ ∃ k : ℕ, k < X.length ∧ L = k := by
    intro L; rw [hn.node, hlc]
  have hno : ∀ u v, ¬ g.Adj u v := by
    intro u v h
    obtain ⟨_, hu, hv⟩ := hend u v h
    obtain ⟨a, ha, rfl⟩ := (hnode u).mp hu
    obtain ⟨b, hb, rfl⟩ := (hnode v).mp hv
    obtain ⟨hne, i, h1, h2⟩ := (hn.adj a b [a] [b] (hget a ha) (hget b hb)).mp h
    rw [List.mem_singleton] at h1 h2
    exact hne (h1 ▸ h2)
  have hattr : ∀ k : ℕ, k < X.length → g.nodes.get? k = some ⟨some 1, some [k]⟩ := by
    intro k hk
    obtain ⟨l, h1, _, h2⟩ := hn.attr k [k] (hget k hk)
    rw [List.perm_singleton.mp h2] at h1
    exact h1
  refine ⟨g, out, eg, eo, hno, hnode, hattr, hlo, fun k hk => ?_⟩
  obtain ⟨_, _, e1, eg', _, _, hA⟩ := C34_graph_nodes X y cover _ _ hc hg hs
  rw [e] at e1; cases e1
  rw [eg] at eg'; cases eg'
  obtain ⟨size, ids, h1, _, _, _, h2⟩ := hA k ((hnode k).mpr ⟨k, hk, rfl⟩)
  rw [hattr k hk] at h1
  cases h1
  obtain ⟨r, hr⟩ := lt_getElem? (l := out) (k := k) (hlo ▸ hk)
  obtain ⟨_, h3⟩ := hroot k k r ((h2 k).mp (by simp)) hr
  rw [hr]
  congr 1
  induction h3 with
  | refl => rfl
  | tail _ h _ => exact absurd h (hno _ _)

/-! ### Non-vacuity -/

/-- A clustering with noise, on the whole dataset. -/
example : mapperConnectedComponents id ['a', 'b', 'c', 'd'] ([0, 0, 0, 0] : List ℤ) trivialCover
    (fun _ _ => .ok [3, -1, 0, 3]) = .ok [3, -1, 0, 3] :=
  C95_trivial_cover ['a', 'b', 'c', 'd'] ([0, 0, 0, 0] : List ℤ) rfl (by simp) _ [3, -1, 0, 3] rfl rfl id
    fun _ _ => Iff.rfl

/-- Labels below `-1` also are noise. -/
example : mapperConnectedComponents id ['a', 'b'] [0, 0] trivialCover
    (fun _ _ => .ok [-2, 5]) = .ok [-1, 5] := by decide +kernel

/-- A radius above and one below all distances; as many neighbours as rows, and one. -/
example : SingleChart ((demoBall 10).apply fun _ => 0) [0, 4, 9] ∧
    ChartPerRow ((demoBall 4).apply fun _ => 0) [0, 4, 9] ∧
    SingleChart ((demoKnn 3).apply fun _ => 0) [0, 4, 9] ∧
    ChartPerRow ((demoKnn 1).apply fun _ => 0) [0, 4, 9] := by
  refine ⟨C95_ball_one _ (demoBall_ok 10) _ _ _ (by decide),
    C95_ball_own _ (demoBall_ok 4) (by decide) _ _ ?_,
    C95_knn_one _ (demoKnn_ok 3 (by decide)) _ _ (by simp) (by decide),
    C95_knn_own _ (demoKnn_ok 1 (by decide)) rfl _ _ ?_⟩
  all_goals
    intro i j xi xj hi hj
    have hi' : i < 3 := getElem?_lt hi
    have hj' : j < 3 := getElem?_lt hj
    rcases i with _ | _ | _ | i <;> rcases j with _ | _ | _ | j <;> simp at hi hj <;>
      first
      | omega
      | (subst hi; subst hj; decide)

/-- One interval. -/
example : SingleChart ((cubOf 1 (1 / 4)).applyStandard (fun _ => 0) fun _ => 0) (column [5, 21, 10]) :=
  (C95_cubical_one (fun _ => 0) (cubOf 1 (1 / 4)) (1 / 4)
    (cubOf_ok _ _ (le_refl 1) (by norm_num) (by norm_num)) rfl _ _ (by simp [column])).1


end Verif

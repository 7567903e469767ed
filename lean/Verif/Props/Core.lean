import Verif.Proof.Core

/-!
# C29–C36, C38–C41: the Mapper algorithm

`GoodCharts`, `ClusteringSucceeds`, `LocalLabel`, `Carries` and the graph
relations are in `Verif.Spec.Core`.
-/

set_option autoImplicit false

namespace Verif

variable {S T : Type}

/-- A cover with two overlapping charts on three points. -/
def demoCover : CoverFn ℕ := fun _ => .ok [[0, 1], [2, 1]]

/-- A clustering that splits by parity. -/
def demoClust : ClustFn ℕ := fun _ l => .ok (l.map fun (x : ℕ) => (x : ℤ) % 2)

/-- A clustering that calls odd points noise. -/
def noiseClust : ClustFn ℕ := fun _ l => .ok (l.map fun (x : ℕ) => -((x : ℤ) % 2))

theorem demo_good : GoodCharts 3 [[0, 1], [2, 1]] := by
  intro ids h
  simp only [List.mem_cons, List.not_mem_nil, or_false] at h
  rcases h with rfl | rfl <;> decide

theorem demo_succeeds (clust : ClustFn ℕ) (h : ∀ c l, ∃ r, clust c l = .ok r)
    (X : List ℕ) (charts : List (List ℕ)) : ClusteringSucceeds X charts clust := by
  intro c ids hc
  obtain ⟨r, hr⟩ := h c (pointsOf X ids)
  exact ⟨r, hc, hr⟩

/-- **C31.** For every cover whose charts are repetition-free lists of valid
indices and every clustering that succeeds, `mapper_labels` returns one list per
point of `X`, each strictly ascending. -/
theorem C31_labels_ascending (X : List S) (y : List T) (cover : CoverFn T) (clust : ClustFn S)
    (charts : List (List ℕ)) (hc : cover y = .ok charts) (hg : GoodCharts X.length charts)
    (hs : ClusteringSucceeds X charts clust) :
    ∃ itm, mapperLabels X y cover clust = .ok itm ∧ itm.length = X.length ∧
      ∀ lbls ∈ itm, lbls.Pairwise (· < ·) := by
  obtain ⟨_, itm, _, _, e, hl, _, hp, _, _⟩ := core_ok X y cover clust charts hc hg hs
  exact ⟨itm, e, hl, hp⟩

/-- Non-vacuity: the hypotheses hold of a cover with overlapping charts. -/
example : ∃ itm, mapperLabels [5, 6, 7] [0, 0, 0] demoCover demoClust = .ok itm ∧
    itm.length = 3 ∧ ∀ lbls ∈ itm, lbls.Pairwise (· < ·) :=
  C31_labels_ascending _ _ _ _ [[0, 1], [2, 1]] rfl demo_good
    (demo_succeeds _ (fun _ _ => ⟨_, rfl⟩) _ _)

example : mapperLabels [5, 6, 7] [0, 0, 0] demoCover demoClust = .ok [[1], [0, 2], [3]] := by rfl

/-- **C31 (violation of the documentation).** The docstring also says that for
`i < j` the labels at position `i` are strictly less than those at position `j`.
That is false: with one chart and one cluster all points carry the label 0; and
a label of an earlier point can be larger. -/
theorem C31_cross_point_order_violation :
    ∃ (X : List ℕ) (cover : CoverFn ℕ) (clust : ClustFn ℕ) (charts : List (List ℕ))
      (itm : List (List ℤ)),
      cover X = .ok charts ∧ GoodCharts X.length charts ∧ ClusteringSucceeds X charts clust ∧
      mapperLabels X X cover clust = .ok itm ∧
      ∃ i j a b, i < j ∧ Carries itm i a ∧ Carries itm j b ∧ b < a := by
  refine ⟨[1, 0], fun _ => .ok [[0, 1]], demoClust, [[0, 1]], [[1], [0]], rfl, ?_,
    demo_succeeds _ (fun _ _ => ⟨_, rfl⟩) _ _, rfl, 0, 1, 1, 0, by decide,
    ⟨[1], rfl, by decide⟩, ⟨[0], rfl, by decide⟩, by decide⟩
  intro ids h
  simp only [List.mem_cons, List.not_mem_nil, or_false] at h
  subst h; decide

/-- **C32.** There are offsets, one per chart, starting at zero and growing by
the largest label of the chart (at least zero) plus one, such that point `i`
carries label `L` exactly when some chart `c` contains `i` with a non-negative
local label `l` and `L = off c + l`; and two such labels are equal exactly when
chart and local label are. -/
theorem C32_labels_faithful (X : List S) (y : List T) (cover : CoverFn T) (clust : ClustFn S)
    (charts : List (List ℕ)) (hc : cover y = .ok charts) (hg : GoodCharts X.length charts)
    (hs : ClusteringSucceeds X charts clust) :
    ∃ (itm : List (List ℤ)) (off : ℕ → ℤ), mapperLabels X y cover clust = .ok itm ∧
      off 0 = 0 ∧
      (∀ c ids lbls, ChartLabels X charts clust c ids lbls →
        off (c + 1) = off c + (lbls.take ids.length).foldl max 0 + 1) ∧
      (∀ i L, Carries itm i L ↔
        ∃ c l, LocalLabel X charts clust c i l ∧ 0 ≤ l ∧ L = off c + l) ∧
      (∀ c i l c' i' l', LocalLabel X charts clust c i l → LocalLabel X charts clust c' i' l' →
        0 ≤ l → 0 ≤ l' → (off c + l = off c' + l' ↔ c = c' ∧ l = l')) := by
  obtain ⟨runs, itm, _, hr, e, hl, hrow, hp, _, _⟩ := core_ok X y cover clust charts hc hg hs
  refine ⟨itm, offAt runs 0, e, by cases runs <;> rfl, ?_, ?_, ?_⟩
  · rintro c ids lbls ⟨h1, h2⟩
    have hlt : c < runs.length := by
      rw [hr.1]
      by_contra hx; rw [List.getElem?_eq_none (by omega)] at h1; simp at h1
    have hrc : runs[c]? = some runs[c] := by simp [hlt]
    obtain ⟨e1, e2⟩ := hr.2 c _ hrc
    have hid : runs[c].1 = ids := by rw [h1] at e1; simpa using e1.symm
    have hlb : runs[c].2 = lbls := by rw [Nat.zero_add, hid, h2] at e2; simpa using e2.symm
    rw [offAt_succ runs 0 c _ hrc, hid, hlb, maxOf_eq]; omega
  · intro i L
    rw [carries_iff, hrow, mem_contrib]
    constructor
    · rintro ⟨c, ids, lbls, k, l, h0, h1, h2, h3, h4⟩
      exact ⟨c, l, (hr.localLabel c i l).mpr ⟨ids, lbls, k, h0, h1, h2⟩, h3, h4⟩
    · rintro ⟨c, l, h, h3, h4⟩
      obtain ⟨ids, lbls, k, h0, h1, h2⟩ := (hr.localLabel c i l).mp h
      exact ⟨c, ids, lbls, k, l, h0, h1, h2, h3, h4⟩
  · intro c i l c' i' l' h h' h0 h0'
    obtain ⟨ids, lbls, k, a1, a2, a3⟩ := (hr.localLabel c i l).mp h
    obtain ⟨ids', lbls', k', b1, b2, b3⟩ := (hr.localLabel c' i' l').mp h'
    exact offAt_inj a1 b1 a2 b2 a3 b3 h0 h0'

/-- Non-vacuity: point 1 has local label 0 in both charts, and its two labels differ. -/
example : mapperLabels [5, 6, 7] [0, 0, 0] demoCover demoClust = .ok [[1], [0, 2], [3]] ∧
    LocalLabel [5, 6, 7] [[0, 1], [2, 1]] demoClust 0 1 0 ∧
    LocalLabel [5, 6, 7] [[0, 1], [2, 1]] demoClust 1 1 0 ∧
    LocalLabel [5, 6, 7] [[0, 1], [2, 1]] demoClust 1 2 1 :=
  ⟨rfl, ⟨[0, 1], [1, 0], 1, ⟨rfl, rfl⟩, rfl, rfl⟩, ⟨[2, 1], [1, 0], 1, ⟨rfl, rfl⟩, rfl, rfl⟩,
    ⟨[2, 1], [1, 0], 0, ⟨rfl, rfl⟩, rfl, rfl⟩⟩

/-- **C33.** The label list of a point is empty exactly when every chart that
contains it gives it a negative local label. -/
theorem C33_noise (X : List S) (y : List T) (cover : CoverFn T) (clust : ClustFn S)
    (charts : List (List ℕ)) (hc : cover y = .ok charts) (hg : GoodCharts X.length charts)
    (hs : ClusteringSucceeds X charts clust) :
    ∃ itm, mapperLabels X y cover clust = .ok itm ∧
      ∀ i, i < X.length →
        (itm[i]? = some [] ↔ ∀ c l, LocalLabel X charts clust c i l → l < 0) := by
  obtain ⟨itm, off, e, _, _, hm, _⟩ := C32_labels_faithful X y cover clust charts hc hg hs
  obtain ⟨itm', e', hl, _⟩ := C31_labels_ascending X y cover clust charts hc hg hs
  rw [e] at e'; cases e'
  refine ⟨itm, e, fun i hi => ?_⟩
  have hi' : i < itm.length := by omega
  constructor
  · intro h c l hL
    by_contra hneg
    obtain ⟨lbls, h1, h2⟩ := (hm i (off c + l)).mpr ⟨c, l, hL, by omega, rfl⟩
    rw [h] at h1; simp at h1; subst h1; simp at h2
  · intro h
    rw [List.getElem?_eq_getElem hi']
    congr 1
    by_contra hne
    obtain ⟨L, hL⟩ := List.exists_mem_of_ne_nil _ hne
    obtain ⟨c, l, h1, h2, _⟩ := (hm i L).mp ⟨_, List.getElem?_eq_getElem hi', hL⟩
    exact absurd (h c l h1) (by omega)

/-- Non-vacuity: the odd points are noise in every chart, point 1 is not. -/
example : mapperLabels [5, 6, 7] [0, 0, 0] demoCover noiseClust = .ok [[], [0, 1], []] := by rfl

/-- **C34.** The nodes of `mapper_graph` are exactly the labels occurring in
`mapper_labels`; each node's `ids` lists in ascending order, without repetition,
exactly the points carrying it, and `size` is the length of `ids` and at least one. -/
theorem C34_graph_nodes (X : List S) (y : List T) (cover : CoverFn T) (clust : ClustFn S)
    (charts : List (List ℕ)) (hc : cover y = .ok charts) (hg : GoodCharts X.length charts)
    (hs : ClusteringSucceeds X charts clust) :
    ∃ itm g, mapperLabels X y cover clust = .ok itm ∧ mapperGraph X y cover clust = .ok g ∧
      (∀ L, g.IsNode L ↔ ∃ i, Carries itm i L) ∧ g.nodes.keys.Nodup ∧
      ∀ L, g.IsNode L → ∃ size ids, g.nodes.get? L = some ⟨some size, some ids⟩ ∧
        size = ids.length ∧ 1 ≤ size ∧ ids.Pairwise (· < ·) ∧ ∀ i, i ∈ ids ↔ Carries itm i L := by
  obtain ⟨_, itm, g, _, e, _, _, _, e', hG⟩ := core_ok X y cover clust charts hc hg hs
  refine ⟨itm, g, e, e', hG.mem_nodes, hG.nodup, fun L hL => ?_⟩
  refine ⟨_, _, hG.attr L hL, rfl, ?_, idsOf_sorted itm L, fun i => mem_idsOf⟩
  obtain ⟨i, hi⟩ := (hG.mem_nodes L).mp hL
  exact List.length_pos_of_mem (mem_idsOf.mpr hi)

/-- Non-vacuity: the graph of the example above. -/
example : ∃ g, mapperGraph [5, 6, 7] [0, 0, 0] demoCover demoClust = .ok g ∧
    g.nodes.items = [(1, ⟨some 1, some [0]⟩), (0, ⟨some 1, some [1]⟩), (2, ⟨some 1, some [1]⟩),
      (3, ⟨some 1, some [2]⟩)] := ⟨_, rfl, rfl⟩

/-- **C35.** `v` is a neighbour of `u` in `mapper_graph` exactly when `u ≠ v` and
some point belongs to both. Hence adjacency is symmetric, there are no
self-loops, and both ends of an edge are nodes; neighbour lists have no
repetition and exist for exactly the nodes. -/
theorem C35_graph_edges (X : List S) (y : List T) (cover : CoverFn T) (clust : ClustFn S)
    (charts : List (List ℕ)) (hc : cover y = .ok charts) (hg : GoodCharts X.length charts)
    (hs : ClusteringSucceeds X charts clust) :
    ∃ itm g, mapperLabels X y cover clust = .ok itm ∧ mapperGraph X y cover clust = .ok g ∧
      (∀ u v, g.Adj u v ↔ u ≠ v ∧ ∃ i, Carries itm i u ∧ Carries itm i v) ∧
      (∀ u v, g.Adj u v → g.Adj v u ∧ g.IsNode u ∧ g.IsNode v) ∧
      (∀ u nb, g.adj.get? u = some nb → nb.Nodup) ∧ g.adj.keys = g.nodes.keys := by
  obtain ⟨_, itm, g, _, e, _, _, _, e', hG⟩ := core_ok X y cover clust charts hc hg hs
  refine ⟨itm, g, e, e', hG.adj_iff, ?_, hG.adj_nodup, hG.adjKeys⟩
  intro u v h
  obtain ⟨hne, i, hu, hv⟩ := (hG.adj_iff u v).mp h
  exact ⟨(hG.adj_iff v u).mpr ⟨hne.symm, i, hv, hu⟩, (hG.mem_nodes u).mpr ⟨i, hu⟩,
    (hG.mem_nodes v).mpr ⟨i, hv⟩⟩

/-- Non-vacuity: point 1 links the nodes 0 and 2; nodes 1 and 3 are isolated. -/
example : ∃ g, mapperGraph [5, 6, 7] [0, 0, 0] demoCover demoClust = .ok g ∧
    g.adj.items = [(1, []), (0, [2]), (2, [0]), (3, [])] := ⟨_, rfl, rfl⟩

/-- **C36.** `mapper_connected_components`, for every iteration order of Python's
set of labels, returns one value per point: `-1` exactly for points in no node;
for other points a node of `mapper_graph` reachable from each node of the point;
and two such points get equal values exactly when their nodes are reachable from
each other. -/
theorem C36_connected_components (X : List S) (y : List T) (cover : CoverFn T)
    (clust : ClustFn S) (charts : List (List ℕ)) (hc : cover y = .ok charts)
    (hg : GoodCharts X.length charts) (hs : ClusteringSucceeds X charts clust)
    (order : List ℤ → List ℤ) (ho : ∀ l L, L ∈ order l ↔ L ∈ l) :
    ∃ itm g out, mapperLabels X y cover clust = .ok itm ∧ mapperGraph X y cover clust = .ok g ∧
      mapperConnectedComponents order X y cover clust = .ok out ∧ out.length = X.length ∧
      (∀ i, i < X.length → (out[i]? = some (-1) ↔ ∀ L, ¬ Carries itm i L)) ∧
      (∀ i L r, Carries itm i L → out[i]? = some r → g.IsNode r ∧ g.Reachable L r) ∧
      (∀ i j L L' r r', Carries itm i L → Carries itm j L' → out[i]? = some r →
        out[j]? = some r' → (r = r' ↔ g.Reachable L L')) := by
  obtain ⟨runs, itm, g, _, e, hl, hrow, hp, e', hG⟩ := core_ok X y cover clust charts hc hg hs
  obtain ⟨u, rt, e1, e2, hrt⟩ := components_ok order ho itm hG
  have hreach : ∀ i L L', Carries itm i L → Carries itm i L' → g.Reachable L L' := by
    intro i L L' h1 h2
    by_cases hne : L = L'
    · subst hne; exact .refl
    · exact .single ((hG.adj_iff L L').mpr ⟨hne, i, h1, h2⟩)
  -- the value of a point with labels is the representative of its first label
  have hval : ∀ i L r, Carries itm i L → (itm.map (compVal rt))[i]? = some r → ∃ a, Carries itm i a ∧ r = rt a := by
    intro i L r hL hr
    obtain ⟨l, h1, h2⟩ := hL
    rw [List.getElem?_map, h1] at hr
    cases l with
    | nil => simp at h2
    | cons a t => exact ⟨a, ⟨_, h1, by simp⟩, by simpa [compVal] using hr.symm⟩
  refine ⟨itm, g, itm.map (compVal rt), e, e', ?_, by rw [List.length_map, hl], ?_, ?_, ?_⟩
  · simp only [mapperConnectedComponents, e, ok_bind, e1, e2]
  · intro i hi
    have hi' : itm[i]? = some itm[i] := List.getElem?_eq_getElem (by omega)
    constructor
    · intro h L hL
      obtain ⟨a, ha, hra⟩ := hval i L (-1) hL h
      have := (hrt a ⟨i, ha⟩).1
      obtain ⟨n, hn⟩ := this
      rw [← hra] at hn
      have := label_nonneg hrow hn
      omega
    · intro h
      rw [List.getElem?_map, hi']
      cases hcase : itm[i] with
      | nil => rfl
      | cons a t =>
        rw [hcase] at hi'
        exact absurd ⟨_, hi', by simp⟩ (h a)
  · intro i L r hL hr
    obtain ⟨a, ha, rfl⟩ := hval i L r hL hr
    obtain ⟨h1, h2, _⟩ := hrt a ⟨i, ha⟩
    exact ⟨(hG.mem_nodes _).mpr h1, .trans (hreach i L a hL ha) h2⟩
  · intro i j L L' r r' hL hL' hr hr'
    obtain ⟨a, ha, rfl⟩ := hval i L r hL hr
    obtain ⟨b, hb, rfl⟩ := hval j L' r' hL' hr'
    rw [(hrt a ⟨i, ha⟩).2.2 b ⟨j, hb⟩]
    constructor
    · intro h
      exact .trans (hreach i L a hL ha) (.trans h (hreach j b L' hb hL'))
    · intro h
      exact .trans (hreach i a L ha hL) (.trans h (hreach j L' b hL' hb))

/-- Non-vacuity: points 0 and 1 are joined by the first chart, point 2 is noise
in the second one. -/
example : mapperConnectedComponents List.reverse [6, 8, 7] [0, 0, 0] demoCover noiseClust
    = .ok [0, 0, -1] := by rfl

/-- **C29.** For any search object that fits `X` and whose search at `X[i]` gives
`res i`: `proximity_net` yields, in dataset order, exactly the non-empty results
at the indices not contained in an earlier result. -/
theorem C29_proximity_net {F : Type} (fit : List S → Py F) (search : F → S → Py (List ℕ))
    (X : List S) (f : F) (hf : fit X = .ok f) (res : ℕ → List ℕ)
    (hr : ∀ i x, X[i]? = some x → search f x = .ok (res i)) :
    ∃ (out : List (List ℕ)) (cs : List ℕ), proximityNet fit search X = .ok out ∧
      cs.Pairwise (· < ·) ∧
      (∀ i, i ∈ cs ↔ i < X.length ∧ ∀ j ∈ cs, j < i → i ∉ res j) ∧
      out = (cs.map res).filter (fun l => l ≠ []) := by
  refine ⟨_, centres res 0 X.length [], ?_, centres_sorted res _ _ _, ?_, rfl⟩
  · simp only [proximityNet, hf, ok_bind]
    exact proximityLoop_ok search f res X 0 [] (fun k x hk => by simpa using hr k x hk)
  · intro i
    rw [mem_centres]
    simp

/-- **C29 (coverage).** If moreover each search result at `X[i]` contains `i`,
every index is in some yielded list, and no yielded list is contained in the
union of the earlier ones. -/
theorem C29_proximity_net_covers {F : Type} (fit : List S → Py F)
    (search : F → S → Py (List ℕ)) (X : List S) (f : F) (hf : fit X = .ok f) (res : ℕ → List ℕ)
    (hr : ∀ i x, X[i]? = some x → search f x = .ok (res i))
    (hself : ∀ i, i < X.length → i ∈ res i) :
    ∃ out : List (List ℕ), proximityNet fit search X = .ok out ∧
      (∀ i, i < X.length → ∃ chart ∈ out, i ∈ chart) ∧
      (∀ chart ∈ out, ∃ i, i < X.length ∧ chart = res i) ∧
      ∀ (k : ℕ) chart, out[k]? = some chart →
        ∃ i ∈ chart, ∀ (k' : ℕ) chart', k' < k → out[k']? = some chart' → i ∉ chart' := by
  obtain ⟨out, cs, e, hs, hm, ho⟩ := C29_proximity_net fit search X f hf res hr
  have ho' : out = cs.map res := by
    rw [ho, List.filter_eq_self]
    intro l hl
    obtain ⟨i, hi, rfl⟩ := List.mem_map.mp hl
    have := hself i ((hm i).mp hi).1
    simp only [decide_eq_true_eq]
    intro h; rw [h] at this; simp at this
  refine ⟨out, e, ?_, ?_, ?_⟩
  · intro i hi
    by_cases hc : ∃ j ∈ cs, j < i ∧ i ∈ res j
    · obtain ⟨j, hj, _, hij⟩ := hc
      exact ⟨res j, by rw [ho']; exact List.mem_map_of_mem hj, hij⟩
    · have : i ∈ cs := (hm i).mpr ⟨hi, fun j hj hlt hij => hc ⟨j, hj, hlt, hij⟩⟩
      exact ⟨res i, by rw [ho']; exact List.mem_map_of_mem this, hself i hi⟩
  · intro chart hc
    rw [ho'] at hc
    obtain ⟨i, hi, rfl⟩ := List.mem_map.mp hc
    exact ⟨i, ((hm i).mp hi).1, rfl⟩
  · intro k chart hk
    rw [ho', List.getElem?_map] at hk
    obtain ⟨i, hi, rfl⟩ := Option.map_eq_some_iff.mp hk
    have hmem : i ∈ cs := List.mem_of_getElem? hi
    refine ⟨i, hself i ((hm i).mp hmem).1, ?_⟩
    intro k' chart' hlt hk'
    rw [ho', List.getElem?_map] at hk'
    obtain ⟨j, hj, rfl⟩ := Option.map_eq_some_iff.mp hk'
    refine ((hm i).mp hmem).2 j (List.mem_of_getElem? hj) ?_
    obtain ⟨h1, e1⟩ := List.getElem?_eq_some_iff.mp hj
    obtain ⟨h2, e2⟩ := List.getElem?_eq_some_iff.mp hi
    have := List.pairwise_iff_getElem.mp hs k' k h1 h2 hlt
    rwa [e1, e2] at this

/-- Non-vacuity: searching the points at distance at most one on a line; the
second point is covered by the first search and starts no search of its own. -/
example : proximityNet (fun X => .ok X)
    (fun (f : List ℕ) x => .ok ((List.range f.length).filter fun i =>
      (f[i]?.getD 0) ≤ x + 1 ∧ x ≤ (f[i]?.getD 0) + 1))
    [0, 1, 2, 5] = .ok [[0, 1], [1, 2], [3]] := by rfl

/-- **C30.** `TrivialCover.apply` yields one chart with all the indices in
order, or nothing for an empty dataset. -/
theorem C30_trivial_cover (X : List S) :
    (X ≠ [] → ∃ chart, trivialCover X = .ok [chart] ∧ chart.length = X.length ∧
      ∀ i, i < X.length → chart[i]? = some i) ∧
    (X = [] → trivialCover X = .ok []) := by
  constructor
  · intro h
    refine ⟨List.range X.length, ?_, by simp, fun i hi => by simp [hi]⟩
    simp [trivialCover, List.length_pos_iff.mpr h]
  · rintro rfl; rfl

/-- Non-vacuity. -/
example : trivialCover ['a', 'b', 'c'] = .ok [[0, 1, 2]] := by rfl

/-- **C38.** `FailSafeClustering.fit(X).labels_`: the wrapped clustering's labels
when it succeeds, all zeros when it raises `ValueError`, any other exception
unchanged; and all zeros when the wrapped clustering is `None`. -/
theorem C38_failsafe (inner : List S → Py (List ℤ)) (X : List S) :
    (∀ lbls, inner X = .ok lbls → failSafe (some inner) X = .ok lbls) ∧
    (inner X = .error .valueError → failSafe (some inner) X = .ok (List.replicate X.length 0)) ∧
    (∀ e, e ≠ .valueError → inner X = .error e → failSafe (some inner) X = .error e) ∧
    failSafe none X = .ok (List.replicate X.length 0) ∧
    failSafe (some inner) X ≠ .error .valueError := by
  have hz : (X.map fun _ => (0 : ℤ)) = List.replicate X.length 0 := by simp
  refine ⟨?_, ?_, ?_, ?_, ?_⟩
  · intro lbls h; simp [failSafe, h]
  · intro h; simp [failSafe, h]
  · intro e he h
    cases e <;> simp_all [failSafe]
  · simp [failSafe, trivialClustering]
  · cases h : inner X with
    | ok l => simp [failSafe, h]
    | error e => cases e <;> simp [failSafe, h]

/-- Non-vacuity: a clustering that needs at least two points. -/
example :
    let inner : List ℕ → Py (List ℤ) :=
      fun l => if l.length < 2 then .error .valueError else .ok (l.map fun x => (x : ℤ))
    failSafe (some inner) [7] = .ok [0] ∧ failSafe (some inner) [7, 8] = .ok [7, 8] :=
  ⟨rfl, rfl⟩

/-- **C39.** For a graph whose nodes carry `ids` that are valid for `X`, and an
aggregation that succeeds on them, `aggregate_graph` returns a dict whose keys
are exactly the nodes, in order, mapping each node to the aggregation of the list
of its `X` values in the order of `ids`. -/
theorem C39_aggregate_graph {A : Type} (X : List S) (g : NxGraph) (agg : List S → Py A)
    (hn : g.nodes.keys.Nodup) (ids : ℤ → List ℕ) (val : ℤ → A)
    (hids : ∀ n, g.IsNode n → ∃ size, g.nodes.get? n = some ⟨size, some (ids n)⟩)
    (hv : ∀ n, g.IsNode n → ∀ i ∈ ids n, i < X.length)
    (ha : ∀ n, g.IsNode n → agg (pointsOf X (ids n)) = .ok (val n)) :
    ∃ d, aggregateGraph X g agg = .ok d ∧ d.keys = g.nodes.keys ∧
      ∀ n, g.IsNode n → d.get? n = some (val n) := by
  obtain ⟨out, e, hk, hs, _⟩ := aggregateLoop_ok X g agg val g.nodes.keys PyDict.empty hn
    (by simp [PyDict.empty, PyDict.keys]) (fun n h => by
      obtain ⟨size, hsz⟩ := hids n h
      exact ⟨_, _, hsz, rfl, hv n h, ha n h⟩)
  exact ⟨out, e, by simpa [PyDict.empty, PyDict.keys] using hk, hs⟩

/-- **C39 for Mapper graphs.** The hypotheses hold of every graph built by
`mapper_graph`, for any dataset (for instance colours) of the same length: each
node gets the aggregation over the points carrying it. -/
theorem C39_aggregate_mapper_graph {A U : Type} (X : List S) (y : List T) (cover : CoverFn T)
    (clust : ClustFn S) (charts : List (List ℕ)) (hc : cover y = .ok charts)
    (hg : GoodCharts X.length charts) (hs : ClusteringSucceeds X charts clust)
    (Z : List U) (hZ : Z.length = X.length) (agg : List U → A) :
    ∃ itm g d, mapperLabels X y cover clust = .ok itm ∧ mapperGraph X y cover clust = .ok g ∧
      aggregateGraph Z g (fun l => .ok (agg l)) = .ok d ∧ d.keys = g.nodes.keys ∧
      ∀ n, g.IsNode n → ∃ ids : List ℕ, ids.Pairwise (· < ·) ∧ (∀ i, i ∈ ids ↔ Carries itm i n) ∧
        d.get? n = some (agg (pointsOf Z ids)) := by
  obtain ⟨_, itm, g, _, e, hl, _, _, e', hG⟩ := core_ok X y cover clust charts hc hg hs
  obtain ⟨d, ed, hk, hd⟩ := C39_aggregate_graph Z g (fun l => .ok (agg l)) hG.nodup (idsOf itm)
    (fun n => agg (pointsOf Z (idsOf itm n))) (fun n h => ⟨_, hG.attr n h⟩) (by
      intro n _ i hi
      obtain ⟨l, h1, _⟩ := mem_idsOf.mp hi
      have := (List.getElem?_eq_some_iff.mp h1).1
      omega) (fun _ _ => rfl)
  exact ⟨itm, g, d, e, e', ed, hk, fun n h => ⟨_, idsOf_sorted itm n, fun i => mem_idsOf, hd n h⟩⟩

/-- Non-vacuity: summing colours over the nodes of a graph with a two-point node. -/
example : ∃ g d, mapperGraph [6, 8, 7] [0, 0, 0] demoCover demoClust = .ok g ∧
    aggregateGraph [10, 20, 30] g (fun l => .ok l.sum) = .ok d ∧
    d.items = [(0, 30), (1, 20), (2, 30)] := ⟨_, _, rfl, rfl, rfl⟩

/-- **C40.** With `TrivialClustering` and non-empty charts, the nodes of
`mapper_graph` are the numbers of the charts; node `c` has the points of chart
`c` as `ids`; nodes `c ≠ c'` are adjacent exactly when the charts share a point, and only
nodes are adjacent:
the graph is the 1-skeleton of the nerve of the cover. -/
theorem C40_nerve (X : List S) (y : List T) (cover : CoverFn T) (charts : List (List ℕ))
    (hc : cover y = .ok charts) (hg : GoodCharts X.length charts)
    (hne : ∀ chart ∈ charts, chart ≠ []) :
    ∃ g, mapperGraph X y cover (fun _ => trivialClustering) = .ok g ∧
      (∀ L : ℤ, g.IsNode L ↔ ∃ c : ℕ, L = c ∧ c < charts.length) ∧
      (∀ (c : ℕ) chart, charts[c]? = some chart → ∃ ids : List ℕ, ids.Perm chart ∧
        ids.Pairwise (· < ·) ∧ g.nodes.get? c = some ⟨some chart.length, some ids⟩) ∧
      (∀ (c c' : ℕ) chart chart', charts[c]? = some chart → charts[c']? = some chart' →
        (g.Adj c c' ↔ c ≠ c' ∧ ∃ i, i ∈ chart ∧ i ∈ chart')) ∧
      ∀ u v, g.Adj u v → g.IsNode u ∧ g.IsNode v := by
  have hs : ClusteringSucceeds X charts (fun _ => trivialClustering) :=
    fun c ids h => ⟨_, h, rfl⟩
  obtain ⟨itm, off, e, h0, hrec, hcar, _⟩ := C32_labels_faithful X y cover _ charts hc hg hs
  obtain ⟨itm1, g, e1, eg, hnode, _, hattr⟩ := C34_graph_nodes X y cover _ charts hc hg hs
  rw [e] at e1; cases e1
  obtain ⟨itm1, g1, e1, eg1, hadj, hends, _⟩ := C35_graph_edges X y cover _ charts hc hg hs
  rw [e] at e1; cases e1
  rw [eg] at eg1; cases eg1
  have hlen : ∀ ids ∈ charts, (pointsOf X ids).length = ids.length := by
    intro ids hids
    have := (hg ids hids).2
    clear hids
    induction ids with
    | nil => rfl
    | cons a t ih =>
      have ha := this a (by simp)
      have := ih (fun i hi => this i (by simp [hi]))
      simp [pointsOf, ha] at this ⊢
      exact this
  have hoff : ∀ c, c ≤ charts.length → off c = c := by
    intro c
    induction c with
    | zero => intro _; simpa using h0
    | succ c ih =>
      intro hlt
      have hcc : charts[c]? = some charts[c] := List.getElem?_eq_getElem (by omega)
      rw [hrec c charts[c] _ ⟨hcc, rfl⟩, ih (by omega)]
      have : ∀ (l : List ℤ), (∀ x ∈ l, x = 0) → l.foldl max 0 = 0 := by
        intro l
        induction l with
        | nil => intro _; rfl
        | cons a t ih =>
          intro h
          have : a = 0 := h a (by simp)
          subst this
          exact ih (fun x hx => h x (by simp [hx]))
      rw [this]
      · push_cast; omega
      · intro x hx
        have := List.mem_of_mem_take hx
        simp at this; exact this.2
  have hloc : ∀ c i l, LocalLabel X charts (fun _ => trivialClustering) c i l ↔
      l = 0 ∧ ∃ chart, charts[c]? = some chart ∧ i ∈ chart := by
    intro c i l
    constructor
    · rintro ⟨ids, lbls, k, ⟨h1, h2⟩, h3, h4⟩
      simp only [trivialClustering, Except.ok.injEq] at h2
      subst h2
      rw [List.getElem?_map] at h4
      obtain ⟨_, _, rfl⟩ := Option.map_eq_some_iff.mp h4
      exact ⟨rfl, ids, h1, List.mem_of_getElem? h3⟩
    · rintro ⟨rfl, chart, h1, h2⟩
      obtain ⟨k, hk⟩ := List.mem_iff_getElem?.mp h2
      refine ⟨chart, _, k, ⟨h1, rfl⟩, hk, ?_⟩
      have hlt := (List.getElem?_eq_some_iff.mp hk).1
      rw [← hlen chart (List.mem_of_getElem? h1)] at hlt
      simp [hlt]
  have hcar' : ∀ i L, Carries itm i L ↔
      ∃ c : ℕ, L = c ∧ ∃ chart, charts[c]? = some chart ∧ i ∈ chart := by
    intro i L
    rw [hcar]
    constructor
    · rintro ⟨c, l, h1, _, rfl⟩
      obtain ⟨rfl, chart, h2, h3⟩ := (hloc c i l).mp h1
      refine ⟨c, ?_, chart, h2, h3⟩
      rw [hoff c (List.getElem?_eq_some_iff.mp h2).1.le]; simp
    · rintro ⟨c, rfl, chart, h2, h3⟩
      refine ⟨c, 0, (hloc c i 0).mpr ⟨rfl, chart, h2, h3⟩, le_refl _, ?_⟩
      rw [hoff c (List.getElem?_eq_some_iff.mp h2).1.le]; simp
  have hcarc : ∀ (c : ℕ) chart i, charts[c]? = some chart → (Carries itm i c ↔ i ∈ chart) := by
    intro c chart i h
    rw [hcar']
    constructor
    · rintro ⟨c', h1, chart', h2, h3⟩
      have : c = c' := by exact_mod_cast h1
      subst this
      rw [h] at h2; simp at h2; subst h2; exact h3
    · intro hi; exact ⟨c, rfl, chart, h, hi⟩
  have hnode' : ∀ L : ℤ, g.IsNode L ↔ ∃ c : ℕ, L = c ∧ c < charts.length := by
    intro L
    rw [hnode]
    constructor
    · rintro ⟨i, hi⟩
      obtain ⟨c, rfl, chart, h, _⟩ := (hcar' i L).mp hi
      exact ⟨c, rfl, (List.getElem?_eq_some_iff.mp h).1⟩
    · rintro ⟨c, rfl, hlt⟩
      have hcc : charts[c]? = some charts[c] := List.getElem?_eq_getElem hlt
      obtain ⟨i, hi⟩ := List.exists_mem_of_ne_nil _ (hne _ (List.mem_of_getElem? hcc))
      exact ⟨i, (hcarc c _ i hcc).mpr hi⟩
  refine ⟨g, eg, hnode', ?_, ?_, fun u v h => (hends u v h).2⟩
  · intro c chart h
    obtain ⟨size, ids, ha, hsz, _, hsort, hmem⟩ := hattr c
      ((hnode' c).mpr ⟨c, rfl, (List.getElem?_eq_some_iff.mp h).1⟩)
    have hperm : ids.Perm chart := by
      rw [List.perm_ext_iff_of_nodup (hsort.imp (fun h => ne_of_lt h))
        (hg chart (List.mem_of_getElem? h)).1]
      intro i; rw [hmem, hcarc c chart i h]
    exact ⟨ids, hperm, hsort, by rw [ha, hsz, hperm.length_eq]⟩
  · intro c c' chart chart' h h'
    rw [hadj]
    constructor
    · rintro ⟨hne, i, h1, h2⟩
      exact ⟨by exact_mod_cast hne, i, (hcarc c chart i h).mp h1, (hcarc c' chart' i h').mp h2⟩
    · rintro ⟨hne, i, h1, h2⟩
      exact ⟨by exact_mod_cast hne, i, (hcarc c chart i h).mpr h1, (hcarc c' chart' i h').mpr h2⟩

/-- Non-vacuity: the nerve of the demo cover is one edge. -/
example : ∃ g, mapperGraph [5, 6, 7] [0, 0, 0] demoCover (fun _ => trivialClustering) = .ok g ∧
    g.nodes.items = [(0, ⟨some 2, some [0, 1]⟩), (1, ⟨some 2, some [1, 2]⟩)] ∧
    g.adj.items = [(0, [1]), (1, [0])] := ⟨_, rfl, rfl, rfl⟩

/-- **C41.** The lengths of `X` and `y` are not compared. If `y` is shorter, the
points beyond its end get no label and the value `-1`; if a chart refers to an
index beyond the end of `X`, `mapper_labels` raises `IndexError`. -/
theorem C41_length_mismatch (X : List S) (y : List T) (cover : CoverFn T) (clust : ClustFn S)
    (charts : List (List ℕ)) (hc : cover y = .ok charts)
    (hs : ∀ c l, ∃ lbls, clust c l = .ok lbls)
    (order : List ℤ → List ℤ) (ho : ∀ l L, L ∈ order l ↔ L ∈ l) :
    (GoodCharts y.length charts → y.length ≤ X.length →
      ∃ itm out, mapperLabels X y cover clust = .ok itm ∧
        mapperConnectedComponents order X y cover clust = .ok out ∧
        ∀ i, y.length ≤ i → i < X.length → itm[i]? = some [] ∧ out[i]? = some (-1)) ∧
    ((∃ chart ∈ charts, ∃ i ∈ chart, X.length ≤ i) →
      mapperLabels X y cover clust = .error .indexError ∧
      mapperGraph X y cover clust = .error .indexError ∧
      mapperConnectedComponents order X y cover clust = .error .indexError) := by
  constructor
  · intro hg hle
    have hg' : GoodCharts X.length charts := fun ids h =>
      ⟨(hg ids h).1, fun i hi => lt_of_lt_of_le ((hg ids h).2 i hi) hle⟩
    have hs' : ClusteringSucceeds X charts clust := fun c ids h =>
      let ⟨l, hl⟩ := hs c (pointsOf X ids); ⟨l, h, hl⟩
    obtain ⟨itm, e, hno⟩ := C33_noise X y cover clust charts hc hg' hs'
    obtain ⟨itm1, g, out, e1, _, e2, _, hneg, _⟩ :=
      C36_connected_components X y cover clust charts hc hg' hs' order ho
    rw [e] at e1; cases e1
    refine ⟨itm, out, e, e2, fun i h1 h2 => ?_⟩
    have hnil : itm[i]? = some [] := by
      rw [hno i h2]
      rintro c l ⟨ids, lbls, k, ⟨hch, _⟩, hk, _⟩
      have := (hg ids (List.mem_of_getElem? hch)).2 i (List.mem_of_getElem? hk)
      omega
    refine ⟨hnil, (hneg i h2).mpr ?_⟩
    rintro L ⟨l, hl, hL⟩
    rw [hnil] at hl; simp at hl; subst hl; simp at hL
  · intro h
    have : mapperLabels X y cover clust = .error .indexError := by
      simp only [mapperLabels, hc, ok_bind, runJobs_error X clust hs charts 0 h, error_bind]
    refine ⟨this, ?_, ?_⟩
    · simp only [mapperGraph, this, error_bind]
    · simp only [mapperConnectedComponents, this, error_bind]

/-- Non-vacuity: three points with two lens values, and two points with three. -/
example : mapperLabels [5, 6, 7] ['a', 'b'] trivialCover demoClust = .ok [[1], [0], []] ∧
    mapperLabels [5, 6] ['a', 'b', 'c'] trivialCover demoClust = .error .indexError :=
  ⟨rfl, rfl⟩

/-- **C63.** The hypothesis that charts are repetition-free is needed, and the
code does not check it: a cover that lists an index twice gives a node that
counts its point twice and is adjacent to itself. -/
theorem C63_repeated_index_self_loop :
    ∃ (cover : CoverFn ℕ) (g : NxGraph) (itm : List (List ℤ)), cover [0] = .ok [[0, 0]] ∧
      mapperLabels [0] [0] cover (fun _ => trivialClustering) = .ok itm ∧
      mapperGraph [0] [0] cover (fun _ => trivialClustering) = .ok g ∧
      ¬ (∀ lbls ∈ itm, lbls.Pairwise (· < ·)) ∧
      g.nodes.get? 0 = some ⟨some 2, some [0, 0]⟩ ∧ g.Adj 0 0 := by
  refine ⟨fun _ => .ok [[0, 0]], _, [[0, 0]], rfl, rfl, rfl, ?_, rfl, [0], rfl, by decide⟩
  intro h
  have := h [0, 0] (by simp)
  simp at this

end Verif

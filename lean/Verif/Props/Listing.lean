import Verif.Spec.Listing
import Verif.Props.Coarser

/-!
# C128: how a cover lists its charts

Covers, also those of the user, list their charts in some order, list the points of a chart in some
order, and may list a chart, or a part of one, again.
-/

set_option autoImplicit false
set_option linter.unusedSectionVars false

namespace Verif

variable {S T T' : Type}

/-- Positions of the entries of a list in a rearrangement. -/
theorem perm_positions {α : Type} {l l' : List α} (h : l.Perm l') : ∃ κ : ℕ → ℕ,
    (∀ c, c < l.length → κ c < l'.length ∧ l'[κ c]? = l[c]?) ∧
    (∀ c c', c < l.length → c' < l.length → κ c = κ c' → c = c') ∧
    ∀ c', c' < l'.length → ∃ c, c < l.length ∧ κ c = c' := by
  induction h with
  | nil => exact ⟨id, by simp, by simp, by simp⟩
  | @cons a l l' _ ih =>
    obtain ⟨κ, h1, h2, h3⟩ := ih
    refine ⟨fun c => match c with | 0 => 0 | c + 1 => κ c + 1, ?_, ?_, ?_⟩
    · rintro (_ | c) hc
      · simp
      · have := h1 c (by simpa using hc)
        exact ⟨by simpa using this.1, by simpa using this.2⟩
    · rintro (_ | c) (_ | c') hc hc' he
      · rfl
      · simp at he
      · simp at he
      · have := h2 c c' (by simpa using hc) (by simpa using hc') (by simpa using he)
        rw [this]
    · rintro (_ | c') hc'
      · exact ⟨0, by simp, rfl⟩
      · obtain ⟨c, q1, q2⟩ := h3 c' (by simpa using hc')
        exact ⟨c + 1, by simpa using q1, by simp [q2]⟩
  | swap a b l =>
    refine ⟨fun c => match c with | 0 => 1 | 1 => 0 | c + 2 => c + 2, ?_, ?_, ?_⟩
    · rintro (_ | _ | c) hc
      · simp
      · simp
      · exact ⟨hc, by simp⟩
    · rintro (_ | _ | c) (_ | _ | c') _ _ he <;> simp_all
    · rintro (_ | _ | c') hc'
      · exact ⟨1, by simp, rfl⟩
      · exact ⟨0, by simp, rfl⟩
      · exact ⟨c' + 2, hc', rfl⟩
  | trans _ _ ih ih' =>
    obtain ⟨κ, h1, h2, h3⟩ := ih
    obtain ⟨κ', h1', h2', h3'⟩ := ih'
    refine ⟨fun c => κ' (κ c), ?_, ?_, ?_⟩
    · intro c hc
      obtain ⟨q1, q2⟩ := h1 c hc
      obtain ⟨q3, q4⟩ := h1' _ q1
      exact ⟨q3, q4.trans q2⟩
    · intro c c' hc hc' he
      exact h2 c c' hc hc' (h2' _ _ (h1 c hc).1 (h1 c' hc').1 he)
    · intro c' hc'
      obtain ⟨b, q1, q2⟩ := h3' c' hc'
      obtain ⟨a, q3, q4⟩ := h3 b q1
      exact ⟨a, q3, by simp only [q4, q2]⟩

/-- **C128 (order).** If two covers give the same charts, in whatever order, with their points in
whatever order, and the clustering depends neither on the order of the points nor on the job, the
two Mapper graphs are the same up to the names of the nodes, and points are in one component of the
one if and only if they are in one component of the other. -/
theorem C128_order (X : List S) (y y' : List T) (cover cover' : CoverFn T)
    (charts charts' : List (List ℕ)) (hc : cover y = .ok charts) (hc' : cover' y' = .ok charts')
    (hg : GoodCharts X.length charts) (h : RelistedCharts charts charts') (clust : ClustFn S)
    (hs : ClusteringSucceeds X charts clust) (hins : OrderInsensitive clust)
    (hjob : ∀ k k' xs, clust k xs = clust k' xs) (order order' : List ℤ → List ℤ)
    (ho : ∀ l L, L ∈ order l ↔ L ∈ l) (ho' : ∀ l L, L ∈ order' l ↔ L ∈ l) :
    ∃ f g g' out out', mapperGraph X y cover clust = .ok g ∧
      mapperGraph X y' cover' clust = .ok g' ∧ RenamedGraph id f g g' ∧
      mapperConnectedComponents order X y cover clust = .ok out ∧
      mapperConnectedComponents order' X y' cover' clust = .ok out' ∧
      SameComponents id X.length out out' := by
  obtain ⟨mid, hF, hP⟩ := h
  obtain ⟨κ, h1, h2, h3⟩ := perm_positions hP
  have hlen : charts.length = mid.length := hF.length_eq
  have R : SameRuns X X charts charts' κ id := by
    refine ⟨rfl, fun i hi => ⟨hi, rfl⟩, fun i i' _ _ e => e, fun c ids hids => ?_, ?_, ?_⟩
    · have hlt := getElem?_lt hids
      have hq := (List.forall₂_iff_get.mp hF).2 c hlt (by omega)
      obtain ⟨_, q2⟩ := h1 c (by omega)
      refine ⟨_, q2.trans (List.getElem?_eq_getElem (by omega)), ?_⟩
      rw [List.map_id]
      rw [List.get_eq_getElem, List.get_eq_getElem, (List.getElem?_eq_some_iff.mp hids).2] at hq
      exact hq.symm
    · intro c c' q q'
      exact h2 c c' (by omega) (by omega)
    · intro c' q
      obtain ⟨c, q1, q2⟩ := h3 c' q
      exact ⟨c, by omega, q2⟩
  obtain ⟨f, g, g', out, out', e1, e2, q1, e3, e4, q2, _⟩ :=
    R.result hc hc' hg hins (fun c xs => hjob _ _ xs) hs order order' ho ho'
  exact ⟨f, g, g', out, out', e1, e2, q1, e3, e4, q2⟩

/-- **C128 (parts of charts).** If every chart of each of two covers is contained in a chart of the
other, and points that the clustering puts together stay together among more points, the two covers
give the same noise and the same connected components. So charts that are listed again, or parts of
other charts, do not affect them. -/
theorem C128_parts (X : List S) (y : List T) (y' : List T') (cover : CoverFn T) (cover' : CoverFn T')
    (charts charts' : List (List ℕ)) (hc : cover y = .ok charts) (hc' : cover' y' = .ok charts')
    (hg : GoodCharts X.length charts) (hg' : GoodCharts X.length charts')
    (h : ChartsWithin charts charts') (h' : ChartsWithin charts' charts) (clust : ClustFn S)
    (hs : ClusteringSucceeds X charts clust) (hs' : ClusteringSucceeds X charts' clust)
    (hcl : CoarserClustering clust clust) (order order' : List ℤ → List ℤ)
    (ho : ∀ l L, L ∈ order l ↔ L ∈ l) (ho' : ∀ l L, L ∈ order' l ↔ L ∈ l) :
    ∃ out out', mapperConnectedComponents order X y cover clust = .ok out ∧
      mapperConnectedComponents order' X y' cover' clust = .ok out' ∧
      SameComponents id X.length out out' := by
  obtain ⟨_, _, _, out, out', _, _, _, e1, e2, h1⟩ := C127_graph X y y' cover cover' charts charts'
    hc hc' hg hg' h clust clust hs hs' hcl order order' ho ho'
  obtain ⟨_, _, _, out2, out2', _, _, _, e3, e4, h2⟩ := C127_graph X y' y cover' cover charts' charts
    hc' hc hg' hg h' clust clust hs' hs hcl order' order ho' ho
  rw [e1] at e4; cases e4
  rw [e2] at e3; cases e3
  obtain ⟨_, _, o1, _, _, e5, l1, _⟩ := C36_connected_components X y cover clust charts hc hg hs
    order ho
  obtain ⟨_, _, o2, _, _, e6, l2, _⟩ := C36_connected_components X y' cover' clust charts' hc' hg'
    hs' order' ho'
  rw [e1] at e5; cases e5
  rw [e2] at e6; cases e6
  have hn : ∀ i, i < X.length → (out[i]? = some (-1) ↔ out'[i]? = some (-1)) := fun i hi =>
    ⟨h2.noise i hi, h1.noise i hi⟩
  refine ⟨out, out', e1, e2, l1, l2, hn, fun i j hi hj => ?_⟩
  simp only [id]
  constructor
  · intro he
    by_cases hi1 : out[i]? = some (-1)
    · rw [(hn i hi).mp hi1, (hn j hj).mp (he ▸ hi1)]
    · exact h1.together i j hi hj he hi1
  · intro he
    by_cases hi1 : out'[i]? = some (-1)
    · rw [(hn i hi).mpr hi1, (hn j hj).mpr (he ▸ hi1)]
    · exact h2.together i j hi hj he hi1

/-- **C128 (repeated charts).** If a cover lists a chart twice, and the clustering does not depend on
the job, then every cluster of that chart is in the Mapper graph twice: as two nodes with the same
points, joined to each other and to the same other nodes. -/
theorem C128_twins (X : List S) (y : List T) (cover : CoverFn T) (charts : List (List ℕ))
    (hc : cover y = .ok charts) (hg : GoodCharts X.length charts) (clust : ClustFn S)
    (hs : ClusteringSucceeds X charts clust) (hjob : ∀ k k' xs, clust k xs = clust k' xs)
    (c d : ℕ) (ids : List ℕ) (hcd : c ≠ d) (h1 : charts[c]? = some ids) (h2 : charts[d]? = some ids) :
    ∃ g, mapperGraph X y cover clust = .ok g ∧
      ∀ i l, LocalLabel X charts clust c i l → 0 ≤ l → ∃ L M size pts, Twins g L M ∧
        g.nodes.get? L = some ⟨some size, some pts⟩ ∧
        ∀ j, j ∈ pts ↔ LocalLabel X charts clust c j l := by
  obtain ⟨itm, off, e1, _, _, q1, q2⟩ := C32_labels_faithful X y cover clust charts hc hg hs
  obtain ⟨_, itm2, g, _, e2, _, _, _, eg, hG⟩ := core_ok X y cover clust charts hc hg hs
  rw [e1] at e2; cases e2
  refine ⟨g, eg, fun i l hl h0 => ?_⟩
  have hsame : ∀ j k, LocalLabel X charts clust c j k ↔ LocalLabel X charts clust d j k := by
    intro j k
    constructor
    · rintro ⟨ids', lbls, a, hC, hi, hk⟩
      have := hC.1
      rw [h1] at this
      cases this
      exact ⟨ids, lbls, a, ⟨h2, by rw [hjob d c]; exact hC.2⟩, hi, hk⟩
    · rintro ⟨ids', lbls, a, hC, hi, hk⟩
      have := hC.1
      rw [h2] at this
      cases this
      exact ⟨ids, lbls, a, ⟨h1, by rw [hjob c d]; exact hC.2⟩, hi, hk⟩
  have hl' := (hsame i l).mp hl
  have hL : ∀ j, Carries itm j (off c + l) ↔ LocalLabel X charts clust c j l := by
    intro j
    rw [q1]
    constructor
    · rintro ⟨b, k, hk, hk0, he⟩
      obtain ⟨rfl, rfl⟩ := (q2 c i l b j k hl hk h0 hk0).mp he
      exact hk
    · exact fun h => ⟨c, l, h, h0, rfl⟩
  have hM : ∀ j, Carries itm j (off d + l) ↔ LocalLabel X charts clust c j l := by
    intro j
    rw [q1, hsame]
    constructor
    · rintro ⟨b, k, hk, hk0, he⟩
      obtain ⟨rfl, rfl⟩ := (q2 d i l b j k hl' hk h0 hk0).mp he
      exact hk
    · exact fun h => ⟨d, l, h, h0, rfl⟩
  have hne : off c + l ≠ off d + l := fun he => hcd ((q2 c i l d i l hl hl' h0 h0).mp he).1
  have nL : off c + l ∈ g.nodes.keys := (hG.mem_nodes _).mpr ⟨i, (hL i).mpr hl⟩
  have nM : off d + l ∈ g.nodes.keys := (hG.mem_nodes _).mpr ⟨i, (hM i).mpr hl⟩
  have hids : idsOf itm (off c + l) = idsOf itm (off d + l) := by
    unfold idsOf
    refine List.filter_congr fun n _ => ?_
    have := (hL n).trans (hM n).symm
    rw [carries_iff, carries_iff] at this
    simp only [this]
  refine ⟨off c + l, off d + l, _, _, ⟨hne, ⟨nL, ?_⟩, ?_, ?_⟩, hG.attr _ nL, ?_⟩
  · rw [hG.attr _ nL, hG.attr _ nM, hids]
  · exact (hG.adj_iff _ _).mpr ⟨hne, i, (hL i).mpr hl, (hM i).mpr hl⟩
  · intro N hN hN'
    rw [hG.adj_iff, hG.adj_iff]
    constructor
    · rintro ⟨_, n, hn, hn'⟩
      exact ⟨hN'.symm, n, (hM n).mpr ((hL n).mp hn), hn'⟩
    · rintro ⟨_, n, hn, hn'⟩
      exact ⟨hN.symm, n, (hL n).mpr ((hM n).mp hn), hn'⟩
  · intro j
    rw [mem_idsOf, hL]

/-! ### Non-vacuity -/

/-- Non-vacuity of the order of charts and points. -/
example : RelistedCharts [[0, 1], [2], [1, 2]] [[2], [2, 1], [1, 0]] ∧
    GoodCharts 3 [[0, 1], [2], [1, 2]] ∧
    ¬ List.Forall₂ List.Perm [[0, 1], [2], [1, 2]] [[2], [2, 1], [1, 0]] := by
  refine ⟨⟨[[1, 0], [2], [2, 1]], ?_, by decide⟩, by unfold GoodCharts; decide, by decide⟩
  exact .cons (by decide) (.cons (by decide) (.cons (by decide) .nil))

/-- Non-vacuity of parts of charts: a chart listed again and a part of one, and a clustering with
the required property. -/
example : ChartsWithin [[0, 1], [1, 2]] [[0, 1], [1, 2], [0, 1], [2]] ∧
    ChartsWithin [[0, 1], [1, 2], [0, 1], [2]] [[0, 1], [1, 2]] ∧
    CoarserClustering (oneLinked absDist 3) (oneLinked absDist 3) := by
  refine ⟨by unfold ChartsWithin; decide, by unfold ChartsWithin; decide, ?_⟩
  exact linkage_coarser (le_refl 3) (oneLinked_linkage _ _) (oneLinked_linkage _ _)

/-- Non-vacuity of repeated charts. -/
example : ∃ g, mapperGraph [0, 4, 5, 9] [0, 4, 5, 9]
      (fun _ : List ℤ => .ok [[0, 1, 2], [1, 2, 3], [0, 1, 2]]) aroundMiddle = .ok g ∧
    ∀ i l, LocalLabel [0, 4, 5, 9] [[0, 1, 2], [1, 2, 3], [0, 1, 2]] aroundMiddle 0 i l → 0 ≤ l →
      ∃ L M size pts, Twins g L M ∧ g.nodes.get? L = some ⟨some size, some pts⟩ ∧
        ∀ j, j ∈ pts ↔ LocalLabel [0, 4, 5, 9] [[0, 1, 2], [1, 2, 3], [0, 1, 2]] aroundMiddle 0 j l :=
  C128_twins [0, 4, 5, 9] [0, 4, 5, 9] _ [[0, 1, 2], [1, 2, 3], [0, 1, 2]] rfl
    (by unfold GoodCharts; decide) aroundMiddle (fun _ _ h => ⟨_, h, rfl⟩) (fun _ _ _ => rfl) 0 2
    [0, 1, 2] (by decide) rfl rfl

/-- **C128 (other clusterings, violation).** With a clustering that looks for a given number of
clusters, a part of a chart that is listed as well can join points that were apart: 4 and 5 are
apart in the chart of all four rows, but together in the chart of the first three. -/
theorem C128_parts_violation : ∃ (X : List ℤ) (charts charts' : List (List ℕ)) (clust : ClustFn ℤ)
    (out out' : List ℤ), GoodCharts X.length charts ∧ GoodCharts X.length charts' ∧
    ChartsWithin charts charts' ∧ ChartsWithin charts' charts ∧
    (∀ k xs, ∃ lbls, clust k xs = .ok lbls) ∧
    mapperConnectedComponents id X X (fun _ => .ok charts) clust = .ok out ∧
    mapperConnectedComponents id X X (fun _ => .ok charts') clust = .ok out' ∧
    out[1]? ≠ out[2]? ∧ out'[1]? = out'[2]? :=
  ⟨[0, 4, 5, 9], [[0, 1, 2, 3]], [[0, 1, 2, 3], [0, 1, 2]], aroundMiddle, [0, 0, 1, 1],
    [0, 0, 0, 0], by unfold GoodCharts; decide, by unfold GoodCharts; decide,
    by unfold ChartsWithin; decide, by unfold ChartsWithin; decide, fun _ _ => ⟨_, rfl⟩,
    by decide +kernel, by decide +kernel, by decide, by decide⟩

end Verif

import Verif.Spec.Local
import Verif.Props.Core
import Verif.Props.Nerve
import Mathlib.Algebra.Order.Group.Defs

/-!
# Proofs: charts bound the nodes and the edges
-/

set_option autoImplicit false
set_option linter.unusedSectionVars false

namespace Verif

variable {S T : Type}

/-- The rows of a node carry its label. -/
theorem hasRow_iff (X : List S) (y : List T) (cover : CoverFn T) (clust : ClustFn S)
    (charts : List (List ℕ)) (hc : cover y = .ok charts) (hg : GoodCharts X.length charts)
    (hs : ClusteringSucceeds X charts clust) :
    ∃ itm g, mapperLabels X y cover clust = .ok itm ∧ mapperGraph X y cover clust = .ok g ∧
      (∀ u i, g.HasRow u i ↔ Carries itm i u) ∧
      ∀ u v, g.Adj u v ↔ u ≠ v ∧ ∃ i, Carries itm i u ∧ Carries itm i v := by
  obtain ⟨itm, g, e, eg, hnode, _, hattr⟩ := C34_graph_nodes X y cover clust charts hc hg hs
  obtain ⟨itm1, g1, e1, eg1, hadj, _⟩ := C35_graph_edges X y cover clust charts hc hg hs
  rw [e] at e1; cases e1
  rw [eg] at eg1; cases eg1
  refine ⟨itm, g, e, eg, fun u i => ⟨?_, fun h => ?_⟩, hadj⟩
  · rintro ⟨size, ids, h1, h2⟩
    have hn : g.IsNode u := by unfold NxGraph.IsNode; rw [← PyDict.isSome_get?, h1]; rfl
    obtain ⟨size', ids', h3, _, _, _, h4⟩ := hattr u hn
    rw [h1] at h3
    cases h3
    exact (h4 i).mp h2
  · obtain ⟨size, ids, h3, _, _, _, h4⟩ := hattr u ((hnode u).mpr ⟨i, h⟩)
    exact ⟨_, ids, h3, (h4 i).mpr h⟩

/-- Two rows with one label are in one chart. -/
theorem carries_chart (X : List S) (y : List T) (cover : CoverFn T) (clust : ClustFn S)
    (charts : List (List ℕ)) (hc : cover y = .ok charts) (hg : GoodCharts X.length charts)
    (hs : ClusteringSucceeds X charts clust) {itm : List (List ℤ)}
    (e : mapperLabels X y cover clust = .ok itm) {u : ℤ} {i j : ℕ} (hi : Carries itm i u)
    (hj : Carries itm j u) : ∃ chart ∈ charts, i ∈ chart ∧ j ∈ chart := by
  obtain ⟨itm1, off, e1, _, _, hcar, hinj⟩ := C32_labels_faithful X y cover clust charts hc hg hs
  rw [e] at e1; cases e1
  obtain ⟨c, l, h1, h2, h3⟩ := (hcar i u).mp hi
  obtain ⟨c', l', h4, h5, h6⟩ := (hcar j u).mp hj
  obtain ⟨rfl, rfl⟩ := (hinj c i l c' j l' h1 h4 h2 h5).mp (h3 ▸ h6)
  obtain ⟨ids, lbls, k, ⟨h7, _⟩, h8, _⟩ := h1
  obtain ⟨ids', lbls', k', ⟨h9, _⟩, h10, _⟩ := h4
  rw [h7] at h9
  cases h9
  exact ⟨ids, List.mem_of_getElem? h7, List.mem_of_getElem? h8, List.mem_of_getElem? h10⟩

section
variable {R : Type} [AddCommGroup R] [LinearOrder R] [IsOrderedAddMonoid R]

/-- If the rows of every chart are within `w`, the rows of nodes `n` edges apart are within
`(n + 1) w`. -/
theorem stepsBounded_of_charts (X : List S) (y : List T) (hlen : X.length = y.length)
    (cover : CoverFn T) (clust : ClustFn S)
    (charts : List (List ℕ)) (hc : cover y = .ok charts) (hg : GoodCharts X.length charts)
    (hs : ClusteringSucceeds X charts clust) :
    ∃ g, mapperGraph X y cover clust = .ok g ∧
      ∀ (δ : T → T → R) (w : R), (∀ a b c, δ a c ≤ δ a b + δ b c) →
        (∀ chart ∈ charts, ∀ i ∈ chart, ∀ j ∈ chart, ∀ yi yj, y[i]? = some yi → y[j]? = some yj →
          δ yi yj < w) → StepsBounded g y δ w := by
  obtain ⟨itm, g, e, eg, hrow, hadj⟩ := hasRow_iff X y cover clust charts hc hg hs
  refine ⟨g, eg, fun δ w htri hw n u v hwalk => ?_⟩
  have one : ∀ (u : ℤ) (i j : ℕ) (yi yj : T), g.HasRow u i → g.HasRow u j → y[i]? = some yi →
      y[j]? = some yj → δ yi yj < w := by
    intro u i j yi yj hi hj h1 h2
    obtain ⟨chart, h3, h4, h5⟩ := carries_chart X y cover clust charts hc hg hs e
      ((hrow u i).mp hi) ((hrow u j).mp hj)
    exact hw chart h3 i h4 j h5 yi yj h1 h2
  induction hwalk with
  | nil u =>
    intro i j yi yj hi hj h1 h2
    rw [zero_add, one_nsmul]
    exact one u i j yi yj hi hj h1 h2
  | @cons n u v t huv hwalk ih =>
    intro i j yi yj hi hj h1 h2
    obtain ⟨_, k, hku, hkv⟩ := (hadj u v).mp huv
    have hk : k < y.length := by
      obtain ⟨chart, h3, h4, _⟩ := carries_chart X y cover clust charts hc hg hs e hku hku
      exact hlen ▸ (hg chart h3).2 k h4
    have hyk : y[k]? = some y[k] := List.getElem?_eq_getElem hk
    have a := one u i k yi y[k] hi ((hrow u k).mpr hku) h1 hyk
    have b := ih k j y[k] yj ((hrow v k).mpr hkv) hj hyk h2
    have := lt_of_le_of_lt (htri yi y[k] yj) (add_lt_add a b)
    rwa [← succ_nsmul'] at this

end

/-- With the trivial clustering, rows in the same charts are in the same nodes. -/
theorem sameNodes_of_charts (X : List S) (y : List T)
    (cover : CoverFn T) (charts : List (List ℕ)) (hc : cover y = .ok charts)
    (hg : GoodCharts X.length charts) :
    ∃ g, mapperGraph X y cover (fun _ => trivialClustering) = .ok g ∧
      ∀ i j, (∀ chart ∈ charts, i ∈ chart ↔ j ∈ chart) → SameNodes g i j := by
  have hs := trivial_succeeds X charts
  obtain ⟨itm, g, e, eg, hrow, _⟩ := hasRow_iff X y cover _ charts hc hg hs
  obtain ⟨itm1, off, e1, _, _, hcar, _⟩ := C32_labels_faithful X y cover _ charts hc hg hs
  rw [e] at e1; cases e1
  refine ⟨g, eg, fun i j h u => ?_⟩
  rw [hrow, hrow, hcar, hcar]
  constructor
  · rintro ⟨c, l, h1, h2, h3⟩
    obtain ⟨chart, h4, h5, h6⟩ := (trivial_localLabel X hg).mp h1
    exact ⟨c, l, (trivial_localLabel X hg).mpr
      ⟨chart, h4, (h chart (List.mem_of_getElem? h4)).mp h5, h6⟩, h2, h3⟩
  · rintro ⟨c, l, h1, h2, h3⟩
    obtain ⟨chart, h4, h5, h6⟩ := (trivial_localLabel X hg).mp h1
    exact ⟨c, l, (trivial_localLabel X hg).mpr
      ⟨chart, h4, (h chart (List.mem_of_getElem? h4)).mpr h5, h6⟩, h2, h3⟩

end Verif

import Verif.Proof.Reproducible
import Verif.Spec.Relabel

/-!
# Lemmas: clusterings that differ in the numbers of clusters
-/

set_option autoImplicit false

namespace Verif

variable {S T : Type} {X : List S} {charts : List (List ℕ)} {clust clust' : ClustFn S}

theorem runJobs_numbers (h : SameUpToNumbers clust clust') (charts : List (List ℕ)) : ∀ k,
    (∀ ids ∈ charts, ∀ i ∈ ids, i < X.length) →
    (∃ e, runJobs X clust k charts = .error e ∧ runJobs X clust' k charts = .error e) ∨
    ∀ j ids, charts[j]? = some ids → ∃ lbls lbls', clust (k + j) (pointsOf X ids) = .ok lbls ∧
      clust' (k + j) (pointsOf X ids) = .ok lbls' ∧ SameClusters id lbls lbls' := by
  induction charts with
  | nil => intro k _; exact .inr fun j ids h => by simp at h
  | cons ids charts ih =>
    intro k hv
    have hg := gather_ok X ids (hv ids (by simp))
    rcases h k (pointsOf X ids) with ⟨lbls, lbls', e1, e2, hs⟩ | ⟨e, e1, e2⟩
    · rcases ih (k + 1) (fun a ha => hv a (by simp [ha])) with ⟨e, h1, h2⟩ | h1
      · exact .inl ⟨e, by simp only [runJobs, hg, ok_bind, e1, h1, error_bind],
          by simp only [runJobs, hg, ok_bind, e2, h2, error_bind]⟩
      · refine .inr fun j ids2 hj => ?_
        cases j with
        | zero =>
          simp only [List.getElem?_cons_zero, Option.some.injEq] at hj
          subst hj
          exact ⟨lbls, lbls', e1, e2, hs⟩
        | succ j =>
          obtain ⟨a, b, h3⟩ := h1 j ids2 (by simpa using hj)
          rw [show k + (j + 1) = k + 1 + j by omega]
          exact ⟨a, b, h3⟩
    · exact .inl ⟨e, by simp only [runJobs, hg, ok_bind, e1, error_bind],
        by simp only [runJobs, hg, ok_bind, e2, error_bind]⟩

theorem matching_numbers (hg : GoodCharts X.length charts)
    (h : ∀ (j : ℕ) ids, charts[j]? = some ids → ∃ lbls lbls', clust j (pointsOf X ids) = .ok lbls ∧
      clust' j (pointsOf X ids) = .ok lbls' ∧ SameClusters id lbls lbls') :
    Matching X.length (LocalLabel X charts clust) (LocalLabel X charts clust') id id := by
  have one : ∀ {c ids lbls}, ChartLabels X charts clust c ids lbls →
      ∃ lbls', ChartLabels X charts clust' c ids lbls' ∧ SameClusters id lbls lbls' := by
    intro c ids lbls hC
    obtain ⟨a, b, h1, h2, h3⟩ := h c ids hC.1
    obtain ⟨_, rfl⟩ := hC.unique ⟨hC.1, h1⟩
    exact ⟨b, ⟨hC.1, h2⟩, h3⟩
  have back : ∀ {c ids lbls'}, ChartLabels X charts clust' c ids lbls' →
      ∃ lbls, ChartLabels X charts clust c ids lbls ∧ SameClusters id lbls lbls' := by
    intro c ids lbls' hC
    obtain ⟨a, b, h1, h2, h3⟩ := h c ids hC.1
    obtain ⟨_, rfl⟩ := hC.unique ⟨hC.1, h2⟩
    exact ⟨a, ⟨hC.1, h1⟩, h3⟩
  have pos : ∀ {c : ℕ} {ids : List ℕ} {a b i : ℕ}, charts[c]? = some ids → ids[a]? = some i →
      ids[b]? = some i → a = b := by
    intro c ids a b i hc ha hb
    exact (List.getElem?_inj (getElem?_lt ha) (hg ids (List.mem_of_getElem? hc)).1).mp
      (ha.trans hb.symm)
  refine ⟨?_, ?_, ?_, ?_, fun _ _ _ _ _ _ _ _ e => e, fun _ _ _ _ e => e⟩
  · rintro c i l ⟨ids, lbls, k, hC, hi, hl⟩
    obtain ⟨lbls', hC', hs⟩ := one hC
    obtain ⟨l', hl'⟩ := lt_getElem? (l := lbls') (k := k) (by rw [hs.1]; exact getElem?_lt hl)
    exact ⟨l', ⟨ids, lbls', k, hC', hi, hl'⟩, (hs.2 k k l l l' l' hl hl hl' hl').1⟩
  · rintro c i l' ⟨ids, lbls', k, hC', hi, hl'⟩
    obtain ⟨lbls, hC, hs⟩ := back hC'
    obtain ⟨l, hl⟩ := lt_getElem? (l := lbls) (k := k) (by rw [← hs.1]; exact getElem?_lt hl')
    exact ⟨c, i, l, rfl, rfl, ⟨ids, lbls, k, hC, hi, hl⟩, (hs.2 k k l l l' l' hl hl hl' hl').1⟩
  · rintro c i j l k l' k' ⟨ids, lbls, a, hC, hi, hl⟩ ⟨ids2, lbls2, b, hC2, hj, hk⟩
      ⟨ids', lbls', a', hC', hi', hl'⟩ ⟨ids2', lbls2', b', hC2', hj', hk'⟩ h0 h1
    obtain ⟨rfl, rfl⟩ := hC.unique hC2
    obtain ⟨rfl, rfl⟩ := hC'.unique hC2'
    obtain ⟨lbls3, hC3, hs⟩ := one hC
    obtain ⟨rfl, rfl⟩ := hC'.unique hC3
    cases pos hC.1 hi hi'
    cases pos hC.1 hj hj'
    exact (hs.2 a b l k l' k' hl hk hl' hk').2 h0 h1
  · rintro c i l ⟨ids, lbls, k, hC, hi, hl⟩
    exact (hg ids (List.mem_of_getElem? hC.1)).2 i (List.mem_of_getElem? hi)

/-- Two runs over the same charts whose local labels correspond. -/
theorem Matching.result {y : List T} {cover : CoverFn T} (hcov : cover y = .ok charts)
    (hg : GoodCharts X.length charts)
    (M : Matching X.length (LocalLabel X charts clust) (LocalLabel X charts clust') id id)
    (hs : ClusteringSucceeds X charts clust) (hs' : ClusteringSucceeds X charts clust')
    (order order' : List ℤ → List ℤ)
    (hord : ∀ l L, L ∈ order l ↔ L ∈ l) (hord' : ∀ l L, L ∈ order' l ↔ L ∈ l) :
    ∃ f g g' out out', mapperGraph X y cover clust = .ok g ∧
      mapperGraph X y cover clust' = .ok g' ∧ RenamedGraph id f g g' ∧
      (∀ L, g.IsNode L → g'.nodes.get? (f L) = g.nodes.get? L) ∧
      mapperConnectedComponents order X y cover clust = .ok out ∧
      mapperConnectedComponents order' X y cover clust' = .ok out' ∧
      SameComponents id X.length out out' := by
  obtain ⟨itm, off, e1, _, _, h1, h2⟩ := C32_labels_faithful X y cover clust charts hcov hg hs
  obtain ⟨itm', off', e1', _, _, h1', h2'⟩ :=
    C32_labels_faithful X y cover clust' charts hcov hg hs'
  obtain ⟨f, hf⟩ := M.renamed h1 h2 h1' h2'
  obtain ⟨_, itm2, g, _, e2, hlen, _, _, eg, hG⟩ := core_ok X y cover clust charts hcov hg hs
  obtain ⟨_, itm2', g', _, e2', hlen', _, _, eg', hG'⟩ :=
    core_ok X y cover clust' charts hcov hg hs'
  rw [e1] at e2; cases e2
  rw [e1'] at e2'; cases e2'
  have hR := hf.graph hlen (fun _ _ _ _ e => e) hG hG'
  obtain ⟨itm3, g3, out, e3, eg3, eo, hol, hneg, hnode, hcomp⟩ :=
    C36_connected_components X y cover clust charts hcov hg hs order hord
  obtain ⟨itm3', g3', out', e3', eg3', eo', hol', hneg', hnode', hcomp'⟩ :=
    C36_connected_components X y cover clust' charts hcov hg hs' order' hord'
  rw [e1] at e3; cases e3
  rw [e1'] at e3'; cases e3'
  rw [eg] at eg3; cases eg3
  rw [eg'] at eg3'; cases eg3'
  have hnd : ∀ u v, g.Adj u v → g.IsNode u ∧ g.IsNode v := by
    intro u v h
    obtain ⟨_, i, hu, hv⟩ := (hG.adj_iff u v).mp h
    exact ⟨(hG.mem_nodes u).mpr ⟨i, hu⟩, (hG.mem_nodes v).mpr ⟨i, hv⟩⟩
  have hnd' : ∀ u v, g'.Adj u v → g'.IsNode u ∧ g'.IsNode v := by
    intro u v h
    obtain ⟨_, i, hu, hv⟩ := (hG'.adj_iff u v).mp h
    exact ⟨(hG'.mem_nodes u).mpr ⟨i, hu⟩, (hG'.mem_nodes v).mpr ⟨i, hv⟩⟩
  have hnoise : ∀ i, (∀ L, ¬ Carries itm i L) ↔ ∀ L, ¬ Carries itm' i L := by
    intro i
    constructor
    · intro h L' hL'
      obtain ⟨i2, L, et, _, hL⟩ := hf.surj _ _ hL'
      cases et
      exact h L hL
    · intro h L hL
      exact h _ (hf.fwd i L hL)
  refine ⟨f, g, g', out, out', eg, eg', hR, ?_, eo, eo', ⟨hol, hol', ?_, ?_⟩⟩
  · intro L hL
    obtain ⟨j, hj⟩ := (hG.mem_nodes L).mp hL
    have hL' : g'.IsNode (f L) := (hG'.mem_nodes _).mpr ⟨_, hf.fwd j L hj⟩
    have : idsOf itm' (f L) = idsOf itm L := by
      refine sorted_eq (idsOf_sorted _ _) (idsOf_sorted _ _) fun i => ?_
      rw [mem_idsOf, mem_idsOf]
      constructor
      · intro h
        obtain ⟨i2, K, e1, e2, h3⟩ := hf.surj i (f L) h
        cases e1
        have := hf.inj _ j K L h3 hj e2
        subst this
        exact h3
      · exact fun h => hf.fwd i L h
    rw [hG'.attr _ hL', hG.attr L hL, this]
  · intro i hi
    rw [id, hneg i hi, hneg' i hi, hnoise i]
  · intro i j hi hj
    simp only [id]
    obtain ⟨r, hr⟩ := lt_getElem? (l := out) (k := i) (by rw [hol]; exact hi)
    obtain ⟨s, hs2⟩ := lt_getElem? (l := out) (k := j) (by rw [hol]; exact hj)
    obtain ⟨r', hr'⟩ := lt_getElem? (l := out') (k := i) (by rw [hol']; exact hi)
    obtain ⟨s', hs2'⟩ := lt_getElem? (l := out') (k := j) (by rw [hol']; exact hj)
    have nn : ∀ a L q, Carries itm a L → out[a]? = some q → q ≠ -1 := by
      intro a L q hL hq e
      subst e
      have ha : a < X.length := by rw [← hol]; exact getElem?_lt hq
      exact (hneg a ha).mp hq L hL
    have nn' : ∀ a L q, Carries itm' a L → out'[a]? = some q → q ≠ -1 := by
      intro a L q hL hq e
      subst e
      have ha : a < X.length := by rw [← hol']; exact getElem?_lt hq
      exact (hneg' a ha).mp hq L hL
    by_cases hi0 : ∃ L, Carries itm i L
    · obtain ⟨L, hL⟩ := hi0
      have hL' := hf.fwd i L hL
      by_cases hj0 : ∃ K, Carries itm j K
      · obtain ⟨K, hK⟩ := hj0
        have hK' := hf.fwd j K hK
        rw [hr, hs2, hr', hs2', Option.some_inj, Option.some_inj, hcomp i j L K r s hL hK hr hs2,
          hcomp' _ _ _ _ r' s' hL' hK' hr' hs2']
        exact (hR.reachable hnd hnd' ((hG.mem_nodes L).mpr ⟨i, hL⟩)
          ((hG.mem_nodes K).mpr ⟨j, hK⟩)).symm
      · have hj1 : ∀ K, ¬ Carries itm j K := fun K h => hj0 ⟨K, h⟩
        have e1 := (hneg j hj).mpr hj1
        have e2 := (hneg' j hj).mpr ((hnoise j).mp hj1)
        rw [hs2] at e1; cases e1
        rw [hs2'] at e2; cases e2
        rw [hr, hs2, hr', hs2', Option.some_inj, Option.some_inj]
        exact ⟨fun h => absurd h (nn i L r hL hr), fun h => absurd h (nn' _ _ r' hL' hr')⟩
    · have hi1 : ∀ K, ¬ Carries itm i K := fun K h => hi0 ⟨K, h⟩
      have e1 := (hneg i hi).mpr hi1
      have e2 := (hneg' i hi).mpr ((hnoise i).mp hi1)
      rw [e1, e2, eq_comm, hneg j hj, eq_comm, hneg' j hj, hnoise j]

end Verif

import Verif.Spec.Coarser
import Verif.Proof.Reproducible

/-!
# Proofs about coarser clusterings
-/

set_option autoImplicit false
set_option linter.unusedSectionVars false

namespace Verif

variable {S T T' : Type} {X : List S} {charts charts' : List (List ℕ)} {clust clust' : ClustFn S}

/-- Points with the same label in a chart have the same label in the corresponding chart. -/
def Follows (P P' : ℕ → ℕ → ℤ → Prop) (κ : ℕ → ℕ) : Prop :=
  ∀ c i j l, P c i l → P c j l → 0 ≤ l → ∃ l', P' (κ c) i l' ∧ P' (κ c) j l' ∧ 0 ≤ l'

theorem follows_same (h : CoarserInPlace clust clust') (hg : GoodCharts X.length charts)
    (hs' : ClusteringSucceeds X charts clust') :
    Follows (LocalLabel X charts clust) (LocalLabel X charts clust') id := by
  rintro c i j l ⟨ids, lbls, a, hC, hi, hl⟩ ⟨ids2, lbls2, b, hC2, hj, hk⟩ h0
  obtain ⟨rfl, rfl⟩ := hC.unique hC2
  obtain ⟨lbls', hC'⟩ := hs' c ids hC.1
  have hlt := (hg ids (List.mem_of_getElem? hC.1)).2
  obtain ⟨l', k1, k2, k3⟩ := h c _ lbls lbls' hC.2 hC'.2 a b l
    (by rw [pointsOf_length hlt]; exact getElem?_lt hi)
    (by rw [pointsOf_length hlt]; exact getElem?_lt hj) hl hk h0
  exact ⟨l', ⟨ids, lbls', a, hC', hi, k1⟩, ⟨ids, lbls', b, hC', hj, k2⟩, k3⟩

theorem follows_within (h : CoarserClustering clust clust') (hg : GoodCharts X.length charts)
    (hg' : GoodCharts X.length charts') (hs' : ClusteringSucceeds X charts' clust') {κ : ℕ → ℕ}
    (hκ : ∀ c ids, charts[c]? = some ids →
      ∃ ids', charts'[κ c]? = some ids' ∧ ∀ i ∈ ids, i ∈ ids') :
    Follows (LocalLabel X charts clust) (LocalLabel X charts' clust') κ := by
  rintro c i j l ⟨ids, lbls, a, hC, hi, hl⟩ ⟨ids2, lbls2, b, hC2, hj, hk⟩ h0
  obtain ⟨rfl, rfl⟩ := hC.unique hC2
  obtain ⟨ids', hc', hin⟩ := hκ c ids hC.1
  obtain ⟨lbls', hC'⟩ := hs' _ ids' hc'
  obtain ⟨hnd, hlt⟩ := hg ids (List.mem_of_getElem? hC.1)
  obtain ⟨hnd', hlt'⟩ := hg' ids' (List.mem_of_getElem? hc')
  have pos : ∀ m i, ids[m]? = some i → ids'[ids'.idxOf (ids.getD m 0)]? = some i := by
    intro m i hm
    have e : ids.getD m 0 = i := by simp [List.getD, hm]
    rw [e]
    have hmem := hin i (List.mem_of_getElem? hm)
    rw [List.getElem?_eq_getElem (List.idxOf_lt_length_of_mem hmem)]
    simp
  have hA : Among (fun m => ids'.idxOf (ids.getD m 0)) (pointsOf X ids) (pointsOf X ids') := by
    refine ⟨fun m hm => ?_, fun m m' hm hm' he => ?_⟩
    · rw [pointsOf_length hlt] at hm
      obtain ⟨i, hi⟩ := lt_getElem? hm
      have hp := pos m i hi
      refine ⟨by rw [pointsOf_length hlt']; exact getElem?_lt hp, ?_⟩
      rw [pointsOf_eq hlt, pointsOf_eq hlt', hp, hi]
    · rw [pointsOf_length hlt] at hm hm'
      obtain ⟨i, hi⟩ := lt_getElem? hm
      obtain ⟨i', hi'⟩ := lt_getElem? hm'
      have hp := pos m i hi
      have hp' := pos m' i' hi'
      rw [he, hp'] at hp
      rw [← hp, ← hi'] at hi
      exact (List.getElem?_inj hm hnd).mp hi
  obtain ⟨l', k1, k2, k3⟩ := h c (κ c) _ _ lbls lbls' _ hA hC.2 hC'.2 a b l
    (by rw [pointsOf_length hlt]; exact getElem?_lt hi)
    (by rw [pointsOf_length hlt]; exact getElem?_lt hj) hl hk h0
  exact ⟨l', ⟨ids', lbls', _, hC', pos a i hi, k1⟩, ⟨ids', lbls', _, hC', pos b j hj, k2⟩, k3⟩

theorem LocalLabel.unique (hg : GoodCharts X.length charts) {c i : ℕ} {l l' : ℤ}
    (h : LocalLabel X charts clust c i l) (h' : LocalLabel X charts clust c i l') : l = l' := by
  obtain ⟨ids, lbls, a, hC, hi, hl⟩ := h
  obtain ⟨ids2, lbls2, b, hC2, hj, hk⟩ := h'
  obtain ⟨rfl, rfl⟩ := hC.unique hC2
  have : a = b := (List.getElem?_inj (getElem?_lt hi)
    (hg ids (List.mem_of_getElem? hC.1)).1).mp (hi.trans hj.symm)
  subst this
  rw [hl] at hk
  exact Option.some.inj hk

/-- If local labels follow, the graph gets coarser, and so do the components. -/
theorem Follows.result {y : List T} {y' : List T'} {cover : CoverFn T} {cover' : CoverFn T'}
    {κ : ℕ → ℕ} (F : Follows (LocalLabel X charts clust) (LocalLabel X charts' clust') κ)
    (hcov : cover y = .ok charts) (hcov' : cover' y' = .ok charts')
    (hg : GoodCharts X.length charts) (hg' : GoodCharts X.length charts')
    (hs : ClusteringSucceeds X charts clust) (hs' : ClusteringSucceeds X charts' clust')
    (order order' : List ℤ → List ℤ)
    (hord : ∀ l L, L ∈ order l ↔ L ∈ l) (hord' : ∀ l L, L ∈ order' l ↔ L ∈ l) :
    ∃ f g g' out out', mapperGraph X y cover clust = .ok g ∧
      mapperGraph X y' cover' clust' = .ok g' ∧ Coarsening f g g' ∧
      mapperConnectedComponents order X y cover clust = .ok out ∧
      mapperConnectedComponents order' X y' cover' clust' = .ok out' ∧
      CoarserComponents X.length out out' ∧
      ((∀ c d, κ c = κ d → c = d) → ∀ L M, g.Adj L M → g'.Adj (f L) (f M)) := by
  obtain ⟨itm, off, e1, _, _, h1, h2⟩ := C32_labels_faithful X y cover clust charts hcov hg hs
  obtain ⟨itm', off', e1', _, _, h1', h2'⟩ :=
    C32_labels_faithful X y' cover' clust' charts' hcov' hg' hs'
  obtain ⟨_, itm2, g, _, e2, hlen, _, _, eg, hG⟩ := core_ok X y cover clust charts hcov hg hs
  obtain ⟨_, itm2', g', _, e2', hlen', _, _, eg', hG'⟩ :=
    core_ok X y' cover' clust' charts' hcov' hg' hs'
  rw [e1] at e2; cases e2
  rw [e1'] at e2'; cases e2'
  obtain ⟨itm3, g3, out, e3, eg3, eo, hol, hneg, hnode, hcomp⟩ :=
    C36_connected_components X y cover clust charts hcov hg hs order hord
  obtain ⟨itm3', g3', out', e3', eg3', eo', hol', hneg', hnode', hcomp'⟩ :=
    C36_connected_components X y' cover' clust' charts' hcov' hg' hs' order' hord'
  rw [e1] at e3; cases e3
  rw [e1'] at e3'; cases e3'
  rw [eg] at eg3; cases eg3
  rw [eg'] at eg3'; cases eg3'
  have hmap : ∀ L : ℤ, ∃ L' : ℤ, ∀ c i l, LocalLabel X charts clust c i l → 0 ≤ l → L = off c + l →
      ∃ l', LocalLabel X charts' clust' (κ c) i l' ∧ 0 ≤ l' ∧ L' = off' (κ c) + l' := by
    intro L
    by_cases hL : ∃ c i l, LocalLabel X charts clust c i l ∧ 0 ≤ l ∧ L = off c + l
    · obtain ⟨c, i, l, hl, h0, rfl⟩ := hL
      obtain ⟨l', hl', _, h0'⟩ := F c i i l hl hl h0
      refine ⟨off' (κ c) + l', fun d j k hk hk0 he => ?_⟩
      obtain ⟨rfl, rfl⟩ := (h2 c i l d j k hl hk h0 hk0).mp he
      obtain ⟨l2, q1, q2, q3⟩ := F c i j l hl hk h0
      have := q1.unique hg' hl'
      subst this
      exact ⟨l2, q2, q3, rfl⟩
    · exact ⟨0, fun c i l hl h0 he => absurd ⟨c, i, l, hl, h0, he⟩ hL⟩
  choose f hf using hmap
  have hcar : ∀ i L, Carries itm i L → Carries itm' i (f L) := by
    intro i L h
    obtain ⟨c, l, hl, h0, he⟩ := (h1 i L).mp h
    obtain ⟨l', k1, k2, k3⟩ := hf L c i l hl h0 he
    exact (h1' i (f L)).mpr ⟨κ c, l', k1, k2, k3⟩
  have hadj : ∀ L M, g.Adj L M → f L = f M ∨ g'.Adj (f L) (f M) := by
    intro L M h
    obtain ⟨_, i, hi, hi'⟩ := (hG.adj_iff L M).mp h
    by_cases he : f L = f M
    · exact .inl he
    · exact .inr ((hG'.adj_iff _ _).mpr ⟨he, i, hcar i L hi, hcar i M hi'⟩)
  have hreach : ∀ L M, g.Reachable L M → g'.Reachable (f L) (f M) := by
    intro L M h
    induction h with
    | refl => exact .refl
    | tail _ hs ih =>
      rcases hadj _ _ hs with he | he
      · rw [← he]; exact ih
      · exact ih.tail he
  refine ⟨f, g, g', out, out', eg, eg', ⟨?_, ?_, hadj⟩, eo, eo', ⟨?_, ?_⟩, ?_⟩
  · intro L hL
    obtain ⟨i, hi⟩ := (hG.mem_nodes L).mp hL
    exact (hG'.mem_nodes _).mpr ⟨i, hcar i L hi⟩
  · intro L size l hL
    have hL' : L ∈ g.nodes.keys := (PyDict.isSome_get? _ _).mp (by rw [hL]; rfl)
    have h3 := hG.attr L hL'
    rw [hL] at h3
    cases h3
    obtain ⟨i, hi⟩ := (hG.mem_nodes L).mp hL'
    refine ⟨_, _, hG'.attr _ ((hG'.mem_nodes _).mpr ⟨i, hcar i L hi⟩), fun j hj => ?_⟩
    exact mem_idsOf.mpr (hcar j L (mem_idsOf.mp hj))
  · intro i hi h
    exact (hneg i hi).mpr fun L hL => (hneg' i hi).mp h (f L) (hcar i L hL)
  · intro i j hi hj hij hno
    have ex : ∀ k, k < X.length → out[k]? ≠ some (-1) → ∃ L, Carries itm k L := by
      intro k hk h
      by_contra hx
      exact h ((hneg k hk).mpr fun L hL => hx ⟨L, hL⟩)
    obtain ⟨L, hL⟩ := ex i hi hno
    obtain ⟨M, hM⟩ := ex j hj (by rw [← hij]; exact hno)
    obtain ⟨r, hr⟩ := lt_getElem? (l := out) (k := i) (by omega)
    have hr2 := hij ▸ hr
    have hRe := (hcomp i j L M r r hL hM hr (by rw [← hij]; exact hr)).mp rfl
    obtain ⟨s, hs1⟩ := lt_getElem? (l := out') (k := i) (by omega)
    obtain ⟨s', hs2⟩ := lt_getElem? (l := out') (k := j) (by omega)
    rw [hs1, hs2, (hcomp' i j _ _ s s' (hcar i L hL) (hcar j M hM) hs1 hs2).mpr (hreach L M hRe)]
  · intro hinj L M h
    obtain ⟨hne, i, hi, hi'⟩ := (hG.adj_iff L M).mp h
    refine (hG'.adj_iff _ _).mpr ⟨?_, i, hcar i L hi, hcar i M hi'⟩
    obtain ⟨c, l, hl, h0, he⟩ := (h1 i L).mp hi
    obtain ⟨d, k, hk, hk0, hke⟩ := (h1 i M).mp hi'
    obtain ⟨l', a1, a2, a3⟩ := hf L c i l hl h0 he
    obtain ⟨k', b1, b2, b3⟩ := hf M d i k hk hk0 hke
    intro hx
    rw [a3, b3] at hx
    obtain ⟨hcd, _⟩ := (h2' _ i l' _ i k' a1 b1 a2 b2).mp hx
    have := hinj _ _ hcd
    subst this
    have := hl.unique hg hk
    subst this
    exact hne (he.trans hke.symm)

end Verif

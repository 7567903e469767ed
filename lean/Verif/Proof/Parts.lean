import Verif.Proof.Append
import Verif.Spec.Parts

/-!
# Lemmas: runs on a part of the data
-/

set_option autoImplicit false
set_option linter.unusedSectionVars false

namespace Verif

variable {S T : Type}

theorem PartOf.lt {α : Type} {τ : ℕ → ℕ} {l l' : List α} (h : PartOf τ l l') {i : ℕ} (hi : i < l.length) :
    τ i < l'.length := by
  have := h.entry i hi
  rw [List.getElem?_eq_getElem hi] at this
  exact getElem?_lt this

theorem PartOf.inj {α : Type} {τ : ℕ → ℕ} {l l' : List α} (h : PartOf τ l l') (i j : ℕ) (hi : i < l.length)
    (hj : j < l.length) (e : τ i = τ j) : i = j := by
  rcases Nat.lt_trichotomy i j with h1 | h1 | h1
  · have := h.order i j h1 hj; omega
  · exact h1
  · have := h.order j i h1 hi; omega

theorem PartOf.lt_iff {α : Type} {τ : ℕ → ℕ} {l l' : List α} (h : PartOf τ l l') (i j : ℕ) (hi : i < l.length)
    (hj : j < l.length) : τ i < τ j ↔ i < j := by
  constructor
  · intro e
    by_contra hx
    rcases Nat.eq_or_lt_of_le (Nat.not_lt.mp hx) with h1 | h1
    · subst h1; omega
    · have := h.order j i h1 hi; omega
  · exact fun e => h.order i j e hj

/-- The charts of the part are those of the whole that hold its rows. -/
structure PartRuns (X X' : List S) (charts charts' : List (List ℕ)) (κ τ : ℕ → ℕ) : Prop where
  rows : PartOf τ X X'
  chart : ∀ c ids, charts[c]? = some ids → ∃ ids', charts'[κ c]? = some ids' ∧ ids'.Perm (ids.map τ)
  kinj : ∀ c c', c < charts.length → c' < charts.length → κ c = κ c' → c = c'
  ksurj : ∀ c' ids', charts'[c']? = some ids' → ∀ i, i < X.length → τ i ∈ ids' →
    ∃ c, c < charts.length ∧ κ c = c'

variable {X X' : List S} {charts charts' : List (List ℕ)} {κ τ : ℕ → ℕ} {clust : ClustFn S}

theorem PartRuns.nodup (R : PartRuns X X' charts charts' κ τ) (hg : GoodCharts X.length charts)
    {c : ℕ} {ids : List ℕ} (h : charts[c]? = some ids) : (ids.map τ).Nodup := by
  obtain ⟨h1, h2⟩ := hg ids (List.mem_of_getElem? h)
  rw [List.nodup_map_iff_inj_on h1]
  exact fun a ha b hb e => R.rows.inj a b (h2 a ha) (h2 b hb) e

/-- One chart. -/
theorem PartRuns.one (R : PartRuns X X' charts charts' κ τ) (hg : GoodCharts X.length charts)
    (hg' : GoodCharts X'.length charts') (ho : OrderInsensitive clust)
    (hc : ∀ k k' xs, clust k xs = clust k' xs) {c : ℕ}
    {ids : List ℕ} {lbls : List ℤ} (h : ChartLabels X charts clust c ids lbls) :
    ∃ ids' lbls' π, ChartLabels X' charts' clust (κ c) ids' lbls' ∧ lbls.length = ids.length ∧
      lbls'.length = ids'.length ∧ Shuffled π (ids.map τ) ids' ∧ SameClusters π lbls lbls' := by
  obtain ⟨hids, hcl⟩ := h
  obtain ⟨ids', hids', hp⟩ := R.chart c ids hids
  have hlt := (hg ids (List.mem_of_getElem? hids)).2
  have hlt' := (hg' ids' (List.mem_of_getElem? hids')).2
  have hS := shuffled_of_perm hp (R.nodup hg hids)
  set π := fun m => (ids.map τ).idxOf (ids'.getD m 0) with hπ
  obtain ⟨hl, hins⟩ := ho c _ _ hcl
  have hS' : Shuffled π (pointsOf X ids) (pointsOf X' ids') := by
    have hlen := hS.length
    rw [List.length_map] at hlen
    refine ⟨by rw [pointsOf_length hlt, pointsOf_length hlt', hlen], ?_, ?_⟩
    · intro m hm
      rw [pointsOf_length hlt] at hm ⊢
      obtain ⟨h1, h2⟩ := hS.entry m (by rwa [List.length_map])
      rw [List.length_map] at h1
      refine ⟨h1, ?_⟩
      rw [pointsOf_eq hlt, pointsOf_eq hlt', h2, List.getElem?_map, List.getElem?_eq_getElem h1]
      exact R.rows.entry _ (hlt _ (List.getElem_mem h1))
    · intro m m' hm hm'
      rw [pointsOf_length hlt] at hm hm'
      exact hS.inj m m' (by rwa [List.length_map]) (by rwa [List.length_map])
  obtain ⟨lbls', e, hsame⟩ := hins π _ hS'
  refine ⟨ids', lbls', π, ⟨hids', by rw [hc _ c]; exact e⟩, by rw [hl, pointsOf_length hlt], ?_, hS,
    hsame⟩
  rw [hsame.1, hl, pointsOf_length hlt, hS.length, List.length_map]

/-- Local labels of the part and of the whole correspond. -/
structure PartMatching (n : ℕ) (A B : ℕ → ℕ → ℤ → Prop) (κ τ : ℕ → ℕ) : Prop where
  fwd : ∀ c i l, A c i l → ∃ l', B (κ c) (τ i) l' ∧ (0 ≤ l ↔ 0 ≤ l')
  bwd : ∀ c' i l', i < n → B c' (τ i) l' → ∃ c l, κ c = c' ∧ A c i l ∧ (0 ≤ l ↔ 0 ≤ l')
  inside : ∀ c i l i' l', A c i l → B (κ c) i' l' → ∃ j, j < n ∧ τ j = i'
  same : ∀ c i j l k l' k', A c i l → A c j k → B (κ c) (τ i) l' → B (κ c) (τ j) k' →
    0 ≤ l → 0 ≤ k → (l = k ↔ l' = k')
  lt : ∀ c i l, A c i l → i < n
  kinj : ∀ c c' i i' l l', A c i l → A c' i' l' → κ c = κ c' → c = c'

theorem PartRuns.matching (R : PartRuns X X' charts charts' κ τ)
    (hg : GoodCharts X.length charts) (hg' : GoodCharts X'.length charts') (ho : OrderInsensitive clust)
    (hc : ∀ k k' xs, clust k xs = clust k' xs) (hs : ClusteringSucceeds X charts clust) :
    PartMatching X.length (LocalLabel X charts clust) (LocalLabel X' charts' clust) κ τ := by
  -- positions of corresponding points
  have pos : ∀ {c : ℕ} {ids ids' : List ℕ} {π : ℕ → ℕ}, charts[c]? = some ids →
      Shuffled π (ids.map τ) ids' → ∀ {i k k' : ℕ}, ids[k]? = some i → ids'[k']? = some (τ i) →
      π k' = k := by
    intro c ids ids' π hids hS i k k' h1 h2
    have hk' := getElem?_lt h2
    rw [hS.length] at hk'
    obtain ⟨h3, h4⟩ := hS.entry k' hk'
    have h5 : (ids.map τ)[k]? = some (τ i) := by rw [List.getElem?_map, h1]; rfl
    rw [h2, ← h5] at h4
    exact (List.getElem?_inj h3 (R.nodup hg hids)).mp h4.symm
  have hlt : ∀ c i l, LocalLabel X charts clust c i l → i < X.length := by
    rintro c i l ⟨ids, lbls, a, hC, hi, hl⟩
    exact (hg ids (List.mem_of_getElem? hC.1)).2 i (List.mem_of_getElem? hi)
  refine ⟨?_, ?_, ?_, ?_, hlt, ?_⟩
  · rintro c i l ⟨ids, lbls, k, hC, hi, hl⟩
    obtain ⟨ids', lbls', π, hC', e1, e2, hS, hsame⟩ := R.one hg hg' ho hc hC
    obtain ⟨ids2, h1, hp⟩ := R.chart c ids hC.1
    rw [hC'.1] at h1
    cases h1
    have hmem : τ i ∈ ids' := hp.symm.subset (List.mem_map_of_mem (List.mem_of_getElem? hi))
    obtain ⟨k', hk'⟩ := List.getElem?_of_mem hmem
    have hk := pos hC.1 hS hi hk'
    obtain ⟨l', hl'⟩ := lt_getElem? (l := lbls') (k := k') (by rw [e2]; exact getElem?_lt hk')
    refine ⟨l', ⟨ids', lbls', k', hC', hk', hl'⟩, ?_⟩
    exact (hsame.2 k' k' l l l' l' (by rw [hk]; exact hl) (by rw [hk]; exact hl) hl' hl').1
  · rintro c' i l' hin ⟨ids', lbls', k', hC', hi', hl'⟩
    obtain ⟨c, hlt', rfl⟩ := R.ksurj c' _ hC'.1 i hin (List.mem_of_getElem? hi')
    obtain ⟨ids, hids⟩ := lt_getElem? hlt'
    obtain ⟨lbls, hC⟩ := hs c ids hids
    obtain ⟨ids2, lbls2, π, hC2, e1, e2, hS, hsame⟩ := R.one hg hg' ho hc hC
    obtain ⟨rfl, rfl⟩ := hC'.unique hC2
    have hk' := getElem?_lt hi'
    rw [hS.length] at hk'
    obtain ⟨h3, h4⟩ := hS.entry k' hk'
    rw [List.length_map] at h3
    obtain ⟨l, hl⟩ := lt_getElem? (l := lbls) (k := π k') (by rw [e1]; exact h3)
    obtain ⟨j, hj⟩ := lt_getElem? h3
    rw [hi', List.getElem?_map, hj] at h4
    have hA : LocalLabel X charts clust c j l := ⟨ids, lbls, π k', hC, hj, hl⟩
    have : i = j := R.rows.inj i j hin (hlt _ _ _ hA) (by simpa using h4)
    subst this
    exact ⟨c, l, rfl, hA, (hsame.2 k' k' l l l' l' hl hl hl' hl').1⟩
  · rintro c i l i' l' ⟨ids, lbls, k, hC, hi, hl⟩ ⟨ids', lbls', k', hC', hi', hl'⟩
    obtain ⟨ids2, h1, hp⟩ := R.chart c ids hC.1
    rw [hC'.1] at h1
    cases h1
    obtain ⟨j, hj, e⟩ := List.mem_map.mp (hp.subset (List.mem_of_getElem? hi'))
    exact ⟨j, (hg ids (List.mem_of_getElem? hC.1)).2 j hj, e⟩
  · rintro c i j l k l' k' ⟨ids, lbls, a, hC, hi, hl⟩ ⟨ids2, lbls2, b, hC2, hj, hk⟩
      ⟨ids', lbls', a', hC', hi', hl'⟩ ⟨ids2', lbls2', b', hC2', hj', hk'⟩ h0 h1
    obtain ⟨rfl, rfl⟩ := hC.unique hC2
    obtain ⟨rfl, rfl⟩ := hC'.unique hC2'
    obtain ⟨ids3, lbls3, π, hC3, e1, e2, hS, hsame⟩ := R.one hg hg' ho hc hC
    obtain ⟨rfl, rfl⟩ := hC'.unique hC3
    exact (hsame.2 a' b' l k l' k' (by rw [pos hC.1 hS hi hi']; exact hl)
      (by rw [pos hC.1 hS hj hj']; exact hk) hl' hk').2 h0 h1
  · rintro c c' i i' l l' ⟨ids, _, _, hC, _, _⟩ ⟨ids2, _, _, hC2, _, _⟩ e
    exact R.kinj c c' (getElem?_lt hC.1) (getElem?_lt hC2.1) e

/-- The label lists of the part and of the whole correspond. -/
structure PartLabels (n : ℕ) (τ : ℕ → ℕ) (f : ℤ → ℤ) (itm itm' : List (List ℤ)) : Prop where
  fwd : ∀ i L, Carries itm i L → Carries itm' (τ i) (f L)
  surj : ∀ i L', i < n → Carries itm' (τ i) L' → ∃ L, f L = L' ∧ Carries itm i L
  inside : ∀ i L i', Carries itm i L → Carries itm' i' (f L) → ∃ j, j < n ∧ τ j = i'
  inj : ∀ i j L K, Carries itm i L → Carries itm j K → f L = f K → L = K

theorem PartMatching.labels {n : ℕ} {A B : ℕ → ℕ → ℤ → Prop} (H : PartMatching n A B κ τ)
    {itm itm' : List (List ℤ)} {off off' : ℕ → ℤ}
    (h1 : ∀ i L, Carries itm i L ↔ ∃ c l, A c i l ∧ 0 ≤ l ∧ L = off c + l)
    (h2 : ∀ c i l c' i' l', A c i l → A c' i' l' → 0 ≤ l → 0 ≤ l' →
      (off c + l = off c' + l' ↔ c = c' ∧ l = l'))
    (h1' : ∀ i L, Carries itm' i L ↔ ∃ c l, B c i l ∧ 0 ≤ l ∧ L = off' c + l)
    (h2' : ∀ c i l c' i' l', B c i l → B c' i' l' → 0 ≤ l → 0 ≤ l' →
      (off' c + l = off' c' + l' ↔ c = c' ∧ l = l')) : ∃ f, PartLabels n τ f itm itm' := by
  classical
  have hex : ∀ L, ∃ L', ∀ c i l, A c i l → 0 ≤ l → L = off c + l →
      ∃ l', B (κ c) (τ i) l' ∧ 0 ≤ l' ∧ L' = off' (κ c) + l' := by
    intro L
    by_cases hL : ∃ c i l, A c i l ∧ 0 ≤ l ∧ L = off c + l
    · obtain ⟨c, i, l, hA, hl, e⟩ := hL
      obtain ⟨l', hB, hl'⟩ := H.fwd c i l hA
      refine ⟨off' (κ c) + l', ?_⟩
      intro c2 i2 l2 hA2 hl2 e2
      obtain ⟨l2', hB2, hl2'⟩ := H.fwd c2 i2 l2 hA2
      obtain ⟨rfl, rfl⟩ := (h2 c i l c2 i2 l2 hA hA2 hl hl2).mp (e.symm.trans e2)
      have := (H.same c i i2 l l l' l2' hA hA2 hB hB2 hl hl).mp rfl
      subst this
      exact ⟨l', hB2, hl'.mp hl, rfl⟩
    · exact ⟨0, fun c i l hA hl e => absurd ⟨c, i, l, hA, hl, e⟩ hL⟩
  choose f hf using hex
  refine ⟨f, ?_, ?_, ?_, ?_⟩
  · intro i L hL
    obtain ⟨c, l, hA, hl, e⟩ := (h1 i L).mp hL
    obtain ⟨l', hB, hl', e'⟩ := hf L c i l hA hl e
    exact (h1' _ _).mpr ⟨_, l', hB, hl', e'⟩
  · intro i L' hi hL'
    obtain ⟨c', l', hB, hl', e'⟩ := (h1' _ _).mp hL'
    obtain ⟨c, l, rfl, hA, hl⟩ := H.bwd _ _ _ hi hB
    have hl0 := hl.mpr hl'
    obtain ⟨k', hB2, hk', ek⟩ := hf (off c + l) c i l hA hl0 rfl
    have := (H.same c i i l l l' k' hA hA hB hB2 hl0 hl0).mp rfl
    subst this
    exact ⟨off c + l, ek.trans e'.symm, (h1 _ _).mpr ⟨c, l, hA, hl0, rfl⟩⟩
  · intro i L i' hL hL'
    obtain ⟨c, l, hA, hl, e⟩ := (h1 i L).mp hL
    obtain ⟨l', hB, hl', e'⟩ := hf L c i l hA hl e
    obtain ⟨c2', l2', hB2, hl2', e2'⟩ := (h1' _ _).mp hL'
    obtain ⟨rfl, rfl⟩ := (h2' _ _ _ _ _ _ hB hB2 hl' hl2').mp (e'.symm.trans e2')
    exact H.inside c i l i' _ hA hB2
  · intro i j L K hL hK efg
    obtain ⟨c, l, hA, hl, e⟩ := (h1 i L).mp hL
    obtain ⟨c2, k, hA2, hk, e2⟩ := (h1 j K).mp hK
    obtain ⟨l', hB, hl', e'⟩ := hf L c i l hA hl e
    obtain ⟨k', hB2, hk', e2'⟩ := hf K c2 j k hA2 hk e2
    obtain ⟨ec, el⟩ := (h2' _ _ _ _ _ _ hB hB2 hl' hk').mp (e'.symm.trans (efg.trans e2'))
    have := H.kinj c c2 i j l k hA hA2 ec
    subst this
    subst el
    have := (H.same c i j l k l' l' hA hA2 hB hB2 hl hk).mpr rfl
    rw [e, e2, this]

theorem PartLabels.graph {n : ℕ} {f : ℤ → ℤ} {itm itm' : List (List ℤ)}
    (H : PartLabels n τ f itm itm') (hn : itm.length = n)
    (htinj : ∀ i i', i < n → i' < n → τ i = τ i' → i = i') {g g' : NxGraph}
    (hG : GraphOK itm g) (hG' : GraphOK itm' g') : PartGraph τ n f g g' := by
  have hlt : ∀ i L, Carries itm i L → i < n := by
    rintro i L ⟨l, h1, _⟩
    rw [← hn]
    exact (List.getElem?_eq_some_iff.mp h1).1
  -- the other rows of a node
  have hback : ∀ j L i', Carries itm j L → Carries itm' i' (f L) → ∃ i, τ i = i' ∧ Carries itm i L := by
    intro j L i' hj h
    obtain ⟨i, hi, rfl⟩ := H.inside j L i' hj h
    obtain ⟨K, e, hK⟩ := H.surj i _ hi h
    have := H.inj i j K L hK hj e
    subst this
    exact ⟨i, rfl, hK⟩
  refine ⟨?_, ?_, ?_, ?_, ?_, ?_⟩
  · intro L hL
    obtain ⟨i, h⟩ := (hG.mem_nodes L).mp hL
    exact (hG'.mem_nodes _).mpr ⟨_, H.fwd i L h⟩
  · intro L K hL hK e
    obtain ⟨i, h⟩ := (hG.mem_nodes L).mp hL
    obtain ⟨j, h'⟩ := (hG.mem_nodes K).mp hK
    exact H.inj i j L K h h' e
  · intro L hL
    obtain ⟨j, hj⟩ := (hG.mem_nodes L).mp hL
    have hL' : g'.IsNode (f L) := (hG'.mem_nodes _).mpr ⟨_, H.fwd j L hj⟩
    have hperm : (idsOf itm' (f L)).Perm ((idsOf itm L).map τ) := by
      have hnd : ((idsOf itm L).map τ).Nodup := by
        rw [List.nodup_map_iff_inj_on ((idsOf_sorted itm L).imp fun h => ne_of_lt h)]
        intro a ha b hb e
        exact htinj a b (hlt _ _ (mem_idsOf.mp ha)) (hlt _ _ (mem_idsOf.mp hb)) e
      rw [List.perm_ext_iff_of_nodup ((idsOf_sorted _ _).imp fun h => ne_of_lt h) hnd]
      intro i'
      rw [mem_idsOf, List.mem_map]
      constructor
      · intro h
        obtain ⟨i, e1, h3⟩ := hback j L i' hj h
        exact ⟨i, mem_idsOf.mpr h3, e1⟩
      · rintro ⟨i, hi, rfl⟩
        exact H.fwd i L (mem_idsOf.mp hi)
    refine ⟨_, _, idsOf itm' (f L), hG.attr L hL, ?_, hperm⟩
    rw [hG'.attr _ hL', hperm.length_eq, List.length_map]
  · rintro u i hi ⟨size, ids, he, hm⟩
    have hu : g'.IsNode u := by unfold NxGraph.IsNode; rw [← PyDict.isSome_get?, he]; rfl
    rw [hG'.attr u hu] at he
    cases he
    obtain ⟨L, e, hL⟩ := H.surj i u hi (mem_idsOf.mp hm)
    exact ⟨L, (hG.mem_nodes L).mpr ⟨i, hL⟩, e⟩
  · intro L K hL hK
    obtain ⟨i, hi⟩ := (hG.mem_nodes L).mp hL
    obtain ⟨j, hj⟩ := (hG.mem_nodes K).mp hK
    rw [hG'.adj_iff, hG.adj_iff]
    constructor
    · rintro ⟨hne, i', h1, h2⟩
      obtain ⟨a, rfl, h3⟩ := hback i L i' hi h1
      obtain ⟨b, e, h4⟩ := hback j K _ hj h2
      have := htinj b a (hlt _ _ h4) (hlt _ _ h3) e
      subst this
      exact ⟨fun e => hne (by rw [e]), b, h3, h4⟩
    · rintro ⟨hne, a, h1, h2⟩
      exact ⟨fun e => hne (H.inj i j L K hi hj e), τ a, H.fwd _ _ h1, H.fwd _ _ h2⟩
  · intro L v hL h
    obtain ⟨j, hj⟩ := (hG.mem_nodes L).mp hL
    obtain ⟨_, i', h1, h2⟩ := (hG'.adj_iff _ _).mp h
    obtain ⟨i, rfl, h3⟩ := hback j L i' hj h1
    obtain ⟨K, e, hK⟩ := H.surj i v (hlt _ _ h3) h2
    exact ⟨K, (hG.mem_nodes K).mpr ⟨i, hK⟩, e⟩

theorem PartGraph.reachable {n : ℕ} {f : ℤ → ℤ} {g g' : NxGraph}
    (H : PartGraph τ n f g g') (hn : ∀ u v, g.Adj u v → g.IsNode u ∧ g.IsNode v) {L : ℤ}
    (hL : g.IsNode L) (M' : ℤ) :
    g'.Reachable (f L) M' ↔ ∃ M, g.IsNode M ∧ f M = M' ∧ g.Reachable L M := by
  constructor
  · intro h
    induction h with
    | refl => exact ⟨L, hL, rfl, .refl⟩
    | tail h1 h2 ih =>
      obtain ⟨M, hM, rfl, h3⟩ := ih
      obtain ⟨N, hN, rfl⟩ := H.closed _ _ hM h2
      exact ⟨N, hN, rfl, .tail h3 ((H.edges M N hM hN).mp h2)⟩
  · rintro ⟨M, hM, rfl, h⟩
    clear hM
    induction h with
    | refl => exact .refl
    | tail h1 h2 ih => exact .tail ih ((H.edges _ _ (hn _ _ h2).1 (hn _ _ h2).2).mpr h2)

/-- A run on a part gives the graph and the components of the run on the whole. -/
theorem PartRuns.result {y y' : List T} {cover cover' : CoverFn T}
    (R : PartRuns X X' charts charts' κ τ) (hcov : cover y = .ok charts)
    (hcov' : cover' y' = .ok charts') (hg : GoodCharts X.length charts)
    (hg' : GoodCharts X'.length charts')
    (ho : OrderInsensitive clust) (hc : ∀ k k' xs, clust k xs = clust k' xs)
    (hs : ClusteringSucceeds X charts clust) (hs' : ClusteringSucceeds X' charts' clust)
    (order order' : List ℤ → List ℤ)
    (hord : ∀ l L, L ∈ order l ↔ L ∈ l) (hord' : ∀ l L, L ∈ order' l ↔ L ∈ l) :
    ∃ f g g' out out', mapperGraph X y cover clust = .ok g ∧
      mapperGraph X' y' cover' clust = .ok g' ∧ PartGraph τ X.length f g g' ∧
      mapperConnectedComponents order X y cover clust = .ok out ∧
      mapperConnectedComponents order' X' y' cover' clust = .ok out' ∧
      PartComponents τ X.length out out' := by
  have M := R.matching hg hg' ho hc hs
  obtain ⟨itm, off, e1, _, _, h1, h2⟩ := C32_labels_faithful X y cover clust charts hcov hg hs
  obtain ⟨itm', off', e1', _, _, h1', h2'⟩ :=
    C32_labels_faithful X' y' cover' clust charts' hcov' hg' hs'
  obtain ⟨f, hf⟩ := M.labels h1 h2 h1' h2'
  obtain ⟨_, itm2, g, _, e2, hlen, _, _, eg, hG⟩ := core_ok X y cover clust charts hcov hg hs
  obtain ⟨_, itm2', g', _, e2', hlen', _, _, eg', hG'⟩ :=
    core_ok X' y' cover' clust charts' hcov' hg' hs'
  rw [e1] at e2; cases e2
  rw [e1'] at e2'; cases e2'
  have hR := hf.graph hlen R.rows.inj hG hG'
  obtain ⟨itm3, g3, out, e3, eg3, eo, hol, hneg, hnode, hcomp⟩ :=
    C36_connected_components X y cover clust charts hcov hg hs order hord
  obtain ⟨itm3', g3', out', e3', eg3', eo', hol', hneg', hnode', hcomp'⟩ :=
    C36_connected_components X' y' cover' clust charts' hcov' hg' hs' order' hord'
  rw [e1] at e3; cases e3
  rw [e1'] at e3'; cases e3'
  rw [eg] at eg3; cases eg3
  rw [eg'] at eg3'; cases eg3'
  have hnd : ∀ u v, g.Adj u v → g.IsNode u ∧ g.IsNode v := by
    intro u v h
    obtain ⟨_, i, hu, hv⟩ := (hG.adj_iff u v).mp h
    exact ⟨(hG.mem_nodes u).mpr ⟨i, hu⟩, (hG.mem_nodes v).mpr ⟨i, hv⟩⟩
  have hnoise : ∀ i, i < X.length → ((∀ L, ¬ Carries itm i L) ↔ ∀ L, ¬ Carries itm' (τ i) L) := by
    intro i hi
    constructor
    · intro h L' hL'
      obtain ⟨L, _, hL⟩ := hf.surj _ _ hi hL'
      exact h L hL
    · intro h L hL
      exact h _ (hf.fwd i L hL)
  have nn : ∀ a L q, Carries itm a L → out[a]? = some q → q ≠ -1 := by
    intro a L q hL hq e
    subst e
    have ha : a < X.length := by rw [← hol]; exact getElem?_lt hq
    exact (hneg a ha).mp hq L hL
  have nn' : ∀ a L q, Carries itm' a L → out'[a]? = some q → q ≠ -1 := by
    intro a L q hL hq e
    subst e
    have ha : a < X'.length := by rw [← hol']; exact getElem?_lt hq
    exact (hneg' a ha).mp hq L hL
  refine ⟨f, g, g', out, out', eg, eg', hR, eo, eo', hol, ?_, ?_, ?_⟩
  · intro i hi
    rw [hneg i hi, hneg' (τ i) (R.rows.lt hi), hnoise i hi]
  · intro i j hi hj
    have hti := R.rows.lt hi
    have htj := R.rows.lt hj
    obtain ⟨r, hr⟩ := lt_getElem? (l := out) (k := i) (by rw [hol]; exact hi)
    obtain ⟨s, hs2⟩ := lt_getElem? (l := out) (k := j) (by rw [hol]; exact hj)
    obtain ⟨r', hr'⟩ := lt_getElem? (l := out') (k := τ i) (by rw [hol']; exact hti)
    obtain ⟨s', hs2'⟩ := lt_getElem? (l := out') (k := τ j) (by rw [hol']; exact htj)
    by_cases hi0 : ∃ L, Carries itm i L
    · obtain ⟨L, hL⟩ := hi0
      have hL' := hf.fwd i L hL
      by_cases hj0 : ∃ K, Carries itm j K
      · obtain ⟨K, hK⟩ := hj0
        have hK' := hf.fwd j K hK
        rw [hr, hs2, hr', hs2', Option.some_inj, Option.some_inj, hcomp i j L K r s hL hK hr hs2,
          hcomp' _ _ _ _ r' s' hL' hK' hr' hs2']
        have hLn := (hG.mem_nodes L).mpr ⟨i, hL⟩
        have hKn := (hG.mem_nodes K).mpr ⟨j, hK⟩
        rw [hR.reachable hnd hLn]
        constructor
        · exact fun h => ⟨K, hKn, rfl, h⟩
        · rintro ⟨M, hM, e, h⟩
          rw [← hR.inj M K hM hKn e]
          exact h
      · have hj1 : ∀ K, ¬ Carries itm j K := fun K h => hj0 ⟨K, h⟩
        have e1 := (hneg j hj).mpr hj1
        have e2 := (hneg' (τ j) htj).mpr ((hnoise j hj).mp hj1)
        rw [hs2] at e1; cases e1
        rw [hs2'] at e2; cases e2
        rw [hr, hs2, hr', hs2', Option.some_inj, Option.some_inj]
        exact ⟨fun h => absurd h (nn i L r hL hr), fun h => absurd h (nn' _ _ r' hL' hr')⟩
    · have hi1 : ∀ K, ¬ Carries itm i K := fun K h => hi0 ⟨K, h⟩
      have e1 := (hneg i hi).mpr hi1
      have e2 := (hneg' (τ i) hti).mpr ((hnoise i hi).mp hi1)
      rw [e1, e2, eq_comm, hneg j hj, eq_comm, hneg' (τ j) htj, hnoise j hj]
  · intro i j hi hj hout e
    rw [hol'] at hj
    have hti := R.rows.lt hi
    by_contra hx
    have hj0 : ∃ K', Carries itm' j K' := by
      by_contra hc
      exact hx ((hneg' j hj).mpr fun K h => hc ⟨K, h⟩)
    have hi0 : ∃ L', Carries itm' (τ i) L' := by
      by_contra hc
      exact hx (e ▸ (hneg' _ hti).mpr fun K h => hc ⟨K, h⟩)
    obtain ⟨K', hK'⟩ := hj0
    obtain ⟨L', hL'⟩ := hi0
    obtain ⟨L, rfl, hL⟩ := hf.surj i L' hi hL'
    obtain ⟨r', hr'⟩ := lt_getElem? (l := out') (k := τ i) (by rw [hol']; exact hti)
    have hreach := (hcomp' _ _ _ _ r' r' hL' hK' hr' (e ▸ hr')).mp rfl
    obtain ⟨K, hKn, rfl, _⟩ := (hR.reachable hnd ((hG.mem_nodes L).mpr ⟨i, hL⟩) _).mp hreach
    obtain ⟨k, hk⟩ := (hG.mem_nodes K).mp hKn
    obtain ⟨a, ha, e⟩ := hf.inside k K j hk hK'
    exact hout a ha e

/-! ### Nets -/

/-- The centres in a part to which the searches keep. -/
theorem centres_part {X X' : List T} (h : PartOf τ X X') (res res' : ℕ → List ℕ)
    (hin : ∀ i j, i < X.length → j < X.length → (τ j ∈ res' (τ i) ↔ j ∈ res i))
    (hout : ∀ k j, k < X'.length → j < X.length → NotOfPart τ X.length k → τ j ∉ res' k) (j : ℕ)
    (hj : j < X.length) :
    τ j ∈ centres res' 0 X'.length [] ↔ j ∈ centres res 0 X.length [] := by
  induction j using Nat.strong_induction_on with
  | _ j ih =>
    rw [mem_centres, mem_centres]
    constructor
    · rintro ⟨_, _, _, h4⟩
      refine ⟨Nat.zero_le _, by omega, by simp, fun k hk hlt => ?_⟩
      have hkn : k < X.length := by omega
      rw [← hin k j hkn hj]
      exact h4 (τ k) ((ih k hlt hkn).mpr hk) (h.order k j hlt hj)
    · rintro ⟨_, _, _, h4⟩
      refine ⟨Nat.zero_le _, by rw [Nat.zero_add]; exact h.lt hj, by simp, fun k hk hlt => ?_⟩
      have hkn : k < X'.length := by
        have := (centres_ge res' _ _ _ k hk).2; omega
      by_cases hx : NotOfPart τ X.length k
      · exact hout k j hkn hj hx
      · unfold NotOfPart at hx
        simp only [not_forall, not_not] at hx
        obtain ⟨i, hi, rfl⟩ := hx
        have hij := (h.lt_iff i j hi hj).mp hlt
        rw [hin i j hi hj]
        exact h4 i ((ih i hij hi).mp hk) hij

/-- The charts of a proximity net on a part to which the searches keep. -/
theorem proximityNet_part {F F' : Type} {fit : List T → Py F} {search : F → T → Py (List ℕ)}
    {fit' : List T → Py F'} {search' : F' → T → Py (List ℕ)} {y y' : List T} {f : F} {f' : F'}
    (h : fit y = .ok f) (h' : fit' y' = .ok f') (hp : PartOf τ y y') (hpX : PartOf τ X X')
    (hX : X.length = y.length) (res res' : ℕ → List ℕ)
    (hr : ∀ (i : ℕ) x, y[i]? = some x → search f x = .ok (res i))
    (hr' : ∀ (i : ℕ) x, y'[i]? = some x → search' f' x = .ok (res' i))
    (hne : ∀ i, i < y.length → res i ≠ []) (hne' : ∀ i, i < y'.length → res' i ≠ [])
    (hgood : ∀ i, i < y.length → (res i).Nodup ∧ ∀ j ∈ res i, j < y.length)
    (hgood' : ∀ i, i < y'.length → (res' i).Nodup ∧ ∀ j ∈ res' i, j < y'.length)
    (hin : ∀ i, i < y.length → (res' (τ i)).Perm ((res i).map τ))
    (hout : ∀ k j, k < y'.length → j < y.length → NotOfPart τ y.length k → τ j ∉ res' k) :
    ∃ out out' κ, proximityNet fit search y = .ok out ∧ proximityNet fit' search' y' = .ok out' ∧
      GoodCharts y.length out ∧ GoodCharts y'.length out' ∧ PartRuns X X' out out' κ τ := by
  have hin' : ∀ i j, i < y.length → j < y.length → (τ j ∈ res' (τ i) ↔ j ∈ res i) := by
    intro i j hi hj
    rw [(hin i hi).mem_iff, List.mem_map]
    constructor
    · rintro ⟨k, hk, e⟩
      rw [← hp.inj k j ((hgood i hi).2 k hk) hj e]
      exact hk
    · exact fun h => ⟨j, h, rfl⟩
  have hC := centres_part hp res res' hin' hout
  have hltC : ∀ i ∈ centres res 0 y.length [], i < y.length := fun i hi => by
    have := centres_ge res _ _ _ i hi; omega
  have hltC' : ∀ i ∈ centres res' 0 y'.length [], i < y'.length := fun i hi => by
    have := centres_ge res' _ _ _ i hi; omega
  have hfil : ∀ (r : ℕ → List ℕ) (l : List ℕ), (∀ i ∈ l, r i ≠ []) →
      (l.map r).filter (fun l => l ≠ []) = l.map r := by
    intro r l hl
    rw [List.filter_eq_self]
    intro a ha
    obtain ⟨i, hi, rfl⟩ := List.mem_map.mp ha
    simpa using hl i hi
  set C := centres res 0 y.length [] with hCdef
  set C' := centres res' 0 y'.length [] with hCdef'
  have hnd : C.Nodup := (centres_sorted res _ _ _).imp fun h => ne_of_lt h
  have hnd' : C'.Nodup := (centres_sorted res' _ _ _).imp fun h => ne_of_lt h
  have hget : ∀ c i, C[c]? = some i → C.getD c 0 = i := by
    intro c i h; rw [List.getD_eq_getElem?_getD, h]; rfl
  refine ⟨C.map res, C'.map res', fun c => C'.idxOf (τ (C.getD c 0)), ?_, ?_, ?_, ?_, hpX, ?_, ?_, ?_⟩
  · rw [proximityNet, h, ok_bind, proximityLoop_ok search f res y 0 []
      (fun k x hk => by simpa using hr k x hk), hfil res _ (fun i hi => hne i (hltC i hi))]
  · rw [proximityNet, h', ok_bind, proximityLoop_ok search' f' res' y' 0 []
      (fun k x hk => by simpa using hr' k x hk), hfil res' _ (fun i hi => hne' i (hltC' i hi))]
  · intro ids hids
    obtain ⟨i, hi, rfl⟩ := List.mem_map.mp hids
    exact hgood i (hltC i hi)
  · intro ids hids
    obtain ⟨i, hi, rfl⟩ := List.mem_map.mp hids
    exact hgood' i (hltC' i hi)
  · intro c ids hc
    rw [List.getElem?_map, Option.map_eq_some_iff] at hc
    obtain ⟨i, hi, rfl⟩ := hc
    have hiy := hltC i (List.mem_of_getElem? hi)
    refine ⟨res' (τ i), ?_, hin i hiy⟩
    have hm := (hC i hiy).mpr (List.mem_of_getElem? hi)
    have hlt := List.idxOf_lt_length_iff.mpr hm
    simp only [hget c i hi]
    rw [List.getElem?_map, List.getElem?_eq_getElem hlt, List.getElem_idxOf]
    rfl
  · intro c c' hc hc' e
    rw [List.length_map] at hc hc'
    obtain ⟨i, hi⟩ := lt_getElem? hc
    obtain ⟨j, hj⟩ := lt_getElem? hc'
    simp only [hget c i hi, hget c' j hj] at e
    have hiy := hltC i (List.mem_of_getElem? hi)
    have hjy := hltC j (List.mem_of_getElem? hj)
    have := hp.inj i j hiy hjy ((List.idxOf_inj ((hC i hiy).mpr (List.mem_of_getElem? hi))).mp e)
    subst this
    exact (List.getElem?_inj hc hnd).mp (hi.trans hj.symm)
  · intro c' ids' hc' i hi hm
    rw [List.getElem?_map, Option.map_eq_some_iff] at hc'
    obtain ⟨k, hk, rfl⟩ := hc'
    have hky := hltC' k (List.mem_of_getElem? hk)
    rw [hX] at hi
    have hx : ¬ NotOfPart τ y.length k := fun hx => hout k i hky hi hx hm
    unfold NotOfPart at hx
    simp only [not_forall, not_not] at hx
    obtain ⟨j, hj, rfl⟩ := hx
    have hjC := (hC j hj).mp (List.mem_of_getElem? hk)
    have hjlt := List.idxOf_lt_length_iff.mpr hjC
    refine ⟨C.idxOf j, by rw [List.length_map]; exact hjlt, ?_⟩
    have e : C[C.idxOf j]? = some j := by rw [List.getElem?_eq_getElem hjlt, List.getElem_idxOf]
    simp only [hget _ j e]
    have hlt' := getElem?_lt hk
    have : C'.idxOf (τ j) < C'.length := List.idxOf_lt_length_iff.mpr (List.mem_of_getElem? hk)
    refine (List.getElem?_inj this hnd').mp ?_
    rw [hk, List.getElem?_eq_getElem this, List.getElem_idxOf]

/-! ### Balls and neighbours -/

section metric
variable {R : Type} [AddCommGroup R] [LinearOrder R] [IsOrderedAddMonoid R]

/-- Rows that are not outside are rows of the part. -/
theorem not_outside {n k : ℕ} (h : ¬ NotOfPart τ n k) : ∃ i, i < n ∧ τ i = k := by
  unfold NotOfPart at h
  simp only [not_forall, not_not] at h
  obtain ⟨i, hi, e⟩ := h
  exact ⟨i, hi, e⟩

theorem ball_part (c c' : BallCover T R) (H : BallOK c.params) (H' : BallOK c'.params)
    (hm : c.params.metric = c'.params.metric) (hrad : c.params.radius = c'.params.radius)
    (h0 : 0 < c.params.radius) (ρ ρ' : ℕ → ℕ) (y y' : List T) (hp : PartOf τ y y')
    (hpX : PartOf τ X X') (hX : X.length = y.length)
    (hfar : ∀ i j xi xj, i < y.length → NotOfPart τ y.length j → y'[τ i]? = some xi → y'[j]? = some xj →
      c.params.radius ≤ c.params.metric xi xj) :
    ∃ out out' κ, c.apply ρ y = .ok out ∧ c'.apply ρ' y' = .ok out' ∧
      GoodCharts y.length out ∧ GoodCharts y'.length out' ∧ PartRuns X X' out out' κ τ := by
  obtain ⟨d, h1, h2⟩ := ballFit_ok c H.metric H.kind H.capacity ρ y
  obtain ⟨d', h1', h2'⟩ := ballFit_ok c' H'.metric H'.kind H'.capacity ρ' y'
  rw [← hm, ← hrad] at h2'
  have hres : ∀ i : ℕ, ∃ l, ∀ x, y[i]? = some x → d.search x = .ok l ∧
      ListsExactly y (fun z => c.params.metric x z < c.params.radius) l := by
    intro i
    cases hx : y[i]? with
    | none => exact ⟨[], by simp⟩
    | some x =>
      obtain ⟨l, hl⟩ := h2 (List.ne_nil_of_mem (List.mem_of_getElem? hx)) x
      exact ⟨l, fun x' hx' => by cases hx'; exact hl⟩
  have hres' : ∀ i : ℕ, ∃ l, ∀ x, y'[i]? = some x → d'.search x = .ok l ∧
      ListsExactly y' (fun z => c.params.metric x z < c.params.radius) l := by
    intro i
    cases hx : y'[i]? with
    | none => exact ⟨[], by simp⟩
    | some x =>
      obtain ⟨l, hl⟩ := h2' (List.ne_nil_of_mem (List.mem_of_getElem? hx)) x
      exact ⟨l, fun x' hx' => by cases hx'; exact hl⟩
  choose res hres using hres
  choose res' hres' using hres'
  refine proximityNet_part h1 h1' hp hpX hX res res' (fun i x hx => (hres i x hx).1)
    (fun i x hx => (hres' i x hx).1) ?_ ?_ ?_ ?_ ?_ ?_
  · intro i hi
    obtain ⟨x, hx⟩ := lt_getElem? hi
    refine List.ne_nil_of_mem (a := i) ?_
    rw [((hres i x hx).2).2]
    exact ⟨x, hx, by simpa only [H.metric.self] using h0⟩
  · intro i hi
    obtain ⟨x, hx⟩ := lt_getElem? hi
    refine List.ne_nil_of_mem (a := i) ?_
    rw [((hres' i x hx).2).2]
    exact ⟨x, hx, by simpa only [H.metric.self] using h0⟩
  · intro i hi
    obtain ⟨x, hx⟩ := lt_getElem? hi
    refine ⟨((hres i x hx).2).1, fun j hj => ?_⟩
    obtain ⟨z, hz, _⟩ := (((hres i x hx).2).2 j).mp hj
    exact getElem?_lt hz
  · intro i hi
    obtain ⟨x, hx⟩ := lt_getElem? hi
    refine ⟨((hres' i x hx).2).1, fun j hj => ?_⟩
    obtain ⟨z, hz, _⟩ := (((hres' i x hx).2).2 j).mp hj
    exact getElem?_lt hz
  · intro i hi
    obtain ⟨x, hx⟩ := lt_getElem? hi
    have hx' : y'[τ i]? = some x := by rw [hp.entry i hi, hx]
    obtain ⟨_, n1, m1⟩ := hres i x hx
    obtain ⟨_, n2, m2⟩ := hres' (τ i) x hx'
    have hnd : ((res i).map τ).Nodup := by
      rw [List.nodup_map_iff_inj_on n1]
      intro a ha b hb e
      obtain ⟨_, ha, _⟩ := (m1 a).mp ha
      obtain ⟨_, hb, _⟩ := (m1 b).mp hb
      exact hp.inj a b (getElem?_lt ha) (getElem?_lt hb) e
    rw [List.perm_ext_iff_of_nodup n2 hnd]
    intro k
    rw [m2, List.mem_map]
    constructor
    · rintro ⟨z, hz, hlt⟩
      by_cases ho : NotOfPart τ y.length k
      · exact absurd hlt (not_lt.mpr (hfar i k x z hi ho hx' hz))
      · obtain ⟨j, hj, rfl⟩ := not_outside ho
        exact ⟨j, (m1 j).mpr ⟨z, by rw [← hp.entry j hj, hz], hlt⟩, rfl⟩
    · rintro ⟨j, hj, rfl⟩
      obtain ⟨z, hz, hlt⟩ := (m1 j).mp hj
      exact ⟨z, by rw [hp.entry j (getElem?_lt hz), hz], hlt⟩
  · intro k j hk hj ho hmem
    obtain ⟨x, hx⟩ := lt_getElem? hk
    obtain ⟨z, hz, hlt⟩ := (((hres' k x hx).2).2 _).mp hmem
    have := hfar j k z x hj ho hz hx
    rw [H.metric.symm] at this
    exact absurd hlt (not_lt.mpr this)

theorem knn_part (c c' : KnnCover T R) (H : KnnOK c.params) (H' : KnnOK c'.params)
    (hm : c.params.metric = c'.params.metric) (hk : c.params.neighbors = c'.params.neighbors)
    (ρ ρ' : ℕ → ℕ) (y y' : List T) (hp : PartOf τ y y')
    (hpX : PartOf τ X X') (hX : X.length = y.length)
    (hsize : c.params.neighbors ≤ y.length) (hsize' : y.length + c.params.neighbors ≤ y'.length)
    (hnear : ∀ i j k xi xj xk, i < y.length → j < y.length → NotOfPart τ y.length k → y'[τ i]? = some xi →
      y'[τ j]? = some xj → y'[k]? = some xk → c.params.metric xi xj < c.params.metric xi xk)
    (hnear' : ∀ i j k xi xj xk, NotOfPart τ y.length i → NotOfPart τ y.length j → k < y.length →
      y'[i]? = some xi → y'[j]? = some xj → y'[τ k]? = some xk →
      c.params.metric xi xj < c.params.metric xi xk)
    (hties : ∀ q ∈ y, ∀ (i j : ℕ) xi xj, y[i]? = some xi → y[j]? = some xj →
      c.params.metric q xi = c.params.metric q xj → i = j) :
    ∃ out out' κ, c.apply ρ y = .ok out ∧ c'.apply ρ' y' = .ok out' ∧
      GoodCharts y.length out ∧ GoodCharts y'.length out' ∧ PartRuns X X' out out' κ τ := by
  obtain ⟨d, h1, h2⟩ := knnFit_ok c H.metric H.kind H.neighbors ρ y
  obtain ⟨d', h1', h2'⟩ := knnFit_ok c' H'.metric H'.kind H'.neighbors ρ' y'
  rw [← hm, ← hk] at h2'
  have hk1 := H.neighbors
  have hres : ∀ i : ℕ, ∃ l, ∀ x, y[i]? = some x → d.search x = .ok l ∧
      NearestIndices c.params.metric x c.params.neighbors y l := by
    intro i
    cases hx : y[i]? with
    | none => exact ⟨[], by simp⟩
    | some x =>
      obtain ⟨l, hl⟩ := h2 (List.ne_nil_of_mem (List.mem_of_getElem? hx)) x
      exact ⟨l, fun x' hx' => by cases hx'; exact hl⟩
  have hres' : ∀ i : ℕ, ∃ l, ∀ x, y'[i]? = some x → d'.search x = .ok l ∧
      NearestIndices c.params.metric x c.params.neighbors y' l := by
    intro i
    cases hx : y'[i]? with
    | none => exact ⟨[], by simp⟩
    | some x =>
      obtain ⟨l, hl⟩ := h2' (List.ne_nil_of_mem (List.mem_of_getElem? hx)) x
      exact ⟨l, fun x' hx' => by cases hx'; exact hl⟩
  choose res hres using hres
  choose res' hres' using hres'
  have hlen : ∀ i, i < y.length → (res i).length = c.params.neighbors := by
    intro i hi
    obtain ⟨x, hx⟩ := lt_getElem? hi
    rw [(hres i x hx).2.2.1]; omega
  have hlen' : ∀ i, i < y'.length → (res' i).length = c.params.neighbors := by
    intro i hi
    obtain ⟨x, hx⟩ := lt_getElem? hi
    rw [(hres' i x hx).2.2.1]; omega
  have hP : ((List.range y.length).map τ).Nodup := by
    rw [List.nodup_map_iff_inj_on List.nodup_range]
    intro a ha b hb e
    exact hp.inj a b (List.mem_range.mp ha) (List.mem_range.mp hb) e
  refine proximityNet_part h1 h1' hp hpX hX res res' (fun i x hx => (hres i x hx).1)
    (fun i x hx => (hres' i x hx).1) ?_ ?_ ?_ ?_ ?_ ?_
  · intro i hi e
    have := hlen i hi
    rw [e, List.length_nil] at this; omega
  · intro i hi e
    have := hlen' i hi
    rw [e, List.length_nil] at this; omega
  · intro i hi
    obtain ⟨x, hx⟩ := lt_getElem? hi
    exact ⟨(hres i x hx).2.1, (hres i x hx).2.2.2.1⟩
  · intro i hi
    obtain ⟨x, hx⟩ := lt_getElem? hi
    exact ⟨(hres' i x hx).2.1, (hres' i x hx).2.2.2.1⟩
  · intro i hi
    obtain ⟨x, hx⟩ := lt_getElem? hi
    have hx' : y'[τ i]? = some x := by rw [hp.entry i hi, hx]
    have hi' := hp.lt hi
    obtain ⟨_, n1, _, lt1, m1⟩ := hres i x hx
    obtain ⟨_, n2, _, lt2, m2⟩ := hres' (τ i) x hx'
    have hnd : ((res i).map τ).Nodup := by
      rw [List.nodup_map_iff_inj_on n1]
      intro a ha b hb e
      exact hp.inj a b (lt1 a ha) (lt1 b hb) e
    -- the nearest rows of the whole are rows of the part
    have hins : ∀ k ∈ res' (τ i), ∃ j, j < y.length ∧ τ j = k := by
      intro k hkm
      refine not_outside fun ho => ?_
      have hsub : ∀ k' ∈ k :: (List.range y.length).map τ, k' ∈ res' (τ i) := by
        intro k' hk'
        rcases List.mem_cons.mp hk' with rfl | hk'
        · exact hkm
        · obtain ⟨j, hj, rfl⟩ := List.mem_map.mp hk'
          rw [List.mem_range] at hj
          by_contra hx2
          obtain ⟨xk, hxk⟩ := lt_getElem? (lt2 k hkm)
          obtain ⟨xj, hxj⟩ := lt_getElem? (hp.lt hj)
          exact absurd (m2 k hkm _ hx2 xk xj hxk hxj)
            (not_le.mpr (hnear i j k x xj xk hi hj ho hx' hxj hxk))
      have hnd2 : (k :: (List.range y.length).map τ).Nodup := by
        refine List.nodup_cons.mpr ⟨fun hm => ?_, hP⟩
        obtain ⟨j, hj, e⟩ := List.mem_map.mp hm
        exact ho j (List.mem_range.mp hj) e
      have := (List.subperm_of_subset hnd2 hsub).length_le
      rw [List.length_cons, List.length_map, List.length_range, hlen' _ hi'] at this
      omega
    have hsub : ∀ k ∈ res' (τ i), k ∈ (res i).map τ := by
      intro k hkm
      obtain ⟨a, ha, rfl⟩ := hins k hkm
      by_contra hna
      have hna' : a ∉ res i := fun h => hna (List.mem_map_of_mem h)
      have : ∃ b ∈ res i, τ b ∉ res' (τ i) := by
        by_contra hx2
        have hsub : ∀ k' ∈ (res i).map τ, k' ∈ res' (τ i) := by
          intro k' hk'
          obtain ⟨b, hb, rfl⟩ := List.mem_map.mp hk'
          by_contra h; exact hx2 ⟨b, hb, h⟩
        have hperm := (List.subperm_of_subset hnd hsub).perm_of_length_le
          (by rw [List.length_map, hlen i hi, hlen' _ hi'])
        exact hna (hperm.mem_iff.mpr hkm)
      obtain ⟨b, hb, hb'⟩ := this
      have hbl := lt1 b hb
      obtain ⟨xa, hxa⟩ := lt_getElem? ha
      obtain ⟨xb, hxb⟩ := lt_getElem? hbl
      have e1 := m1 b hb a hna' xb xa hxb hxa
      have e2 := m2 _ hkm _ hb' xa xb (by rw [hp.entry a ha, hxa]) (by rw [hp.entry b hbl, hxb])
      have := hties x (List.mem_of_getElem? hx) a b xa xb hxa hxb (le_antisymm e2 e1)
      subst this
      exact hna' hb
    exact (List.subperm_of_subset n2 hsub).perm_of_length_le
      (by rw [List.length_map, hlen i hi, hlen' _ hi'])
  · intro k j hkl hj ho hmem
    obtain ⟨x, hx⟩ := lt_getElem? hkl
    obtain ⟨_, n2, _, lt2, m2⟩ := hres' k x hx
    obtain ⟨xj, hxj⟩ := lt_getElem? (hp.lt hj)
    have hsub : ∀ a ∈ List.range y'.length, a ∈ res' k ++ ((List.range y.length).map τ).erase (τ j) := by
      intro a ha
      rw [List.mem_range] at ha
      rw [List.mem_append]
      by_cases ho' : NotOfPart τ y.length a
      · left
        by_contra hna
        obtain ⟨xa, hxa⟩ := lt_getElem? ha
        exact absurd (m2 _ hmem _ hna xj xa hxj hxa)
          (not_le.mpr (hnear' k a j x xa xj ho ho' hj hx hxa hxj))
      · obtain ⟨b, hb, rfl⟩ := not_outside ho'
        by_cases e : τ b = τ j
        · left; rw [e]; exact hmem
        · right
          exact (List.mem_erase_of_ne e).mpr (List.mem_map_of_mem (List.mem_range.mpr hb))
    have := (List.subperm_of_subset List.nodup_range hsub).length_le
    rw [List.length_range, List.length_append, hlen' k hkl,
      List.length_erase_of_mem (List.mem_map_of_mem (List.mem_range.mpr hj)), List.length_map,
      List.length_range] at this
    omega

end metric

end Verif

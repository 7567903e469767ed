import Verif.Props.Core
import Verif.Props.Cover
import Verif.Spec.Reproducible

/-!
# Lemmas: runs of the Mapper algorithm that are the same up to names
-/

set_option autoImplicit false

namespace Verif

variable {S T : Type}

/-- Local labels of two runs correspond. -/
structure Matching (n : ℕ) (A B : ℕ → ℕ → ℤ → Prop) (κ τ : ℕ → ℕ) : Prop where
  fwd : ∀ c i l, A c i l → ∃ l', B (κ c) (τ i) l' ∧ (0 ≤ l ↔ 0 ≤ l')
  bwd : ∀ c' i' l', B c' i' l' → ∃ c i l, κ c = c' ∧ τ i = i' ∧ A c i l ∧ (0 ≤ l ↔ 0 ≤ l')
  same : ∀ c i j l k l' k', A c i l → A c j k → B (κ c) (τ i) l' → B (κ c) (τ j) k' →
    0 ≤ l → 0 ≤ k → (l = k ↔ l' = k')
  lt : ∀ c i l, A c i l → i < n
  kinj : ∀ c c' i i' l l', A c i l → A c' i' l' → κ c = κ c' → c = c'
  tinj : ∀ i i', i < n → i' < n → τ i = τ i' → i = i'

/-- The label lists of two runs correspond. -/
structure Renamed (n : ℕ) (τ : ℕ → ℕ) (f : ℤ → ℤ) (itm itm' : List (List ℤ)) : Prop where
  fwd : ∀ i L, Carries itm i L → Carries itm' (τ i) (f L)
  bwd : ∀ i j L, i < n → Carries itm j L → Carries itm' (τ i) (f L) → Carries itm i L
  surj : ∀ i' L', Carries itm' i' L' → ∃ i L, τ i = i' ∧ f L = L' ∧ Carries itm i L
  inj : ∀ i j L K, Carries itm i L → Carries itm j K → f L = f K → L = K

theorem Matching.renamed {n : ℕ} {A B : ℕ → ℕ → ℤ → Prop} {κ τ : ℕ → ℕ} (H : Matching n A B κ τ)
    {itm itm' : List (List ℤ)} {off off' : ℕ → ℤ}
    (h1 : ∀ i L, Carries itm i L ↔ ∃ c l, A c i l ∧ 0 ≤ l ∧ L = off c + l)
    (h2 : ∀ c i l c' i' l', A c i l → A c' i' l' → 0 ≤ l → 0 ≤ l' →
      (off c + l = off c' + l' ↔ c = c' ∧ l = l'))
    (h1' : ∀ i L, Carries itm' i L ↔ ∃ c l, B c i l ∧ 0 ≤ l ∧ L = off' c + l)
    (h2' : ∀ c i l c' i' l', B c i l → B c' i' l' → 0 ≤ l → 0 ≤ l' →
      (off' c + l = off' c' + l' ↔ c = c' ∧ l = l')) : ∃ f, Renamed n τ f itm itm' := by
  classical
  have hex : ∀ L, ∃ L', ∀ c i l, A c i l → 0 ≤ l → L = off c + l →
      ∃ l', B (κ c) (τ i) l' ∧ 0 ≤ l' ∧ L' = off' (κ c) + l' := by
    intro L
    by_cases hL : ∃ c i l, A c i l ∧ 0 ≤ l ∧ L = off c + l
    · obtain ⟨c, i, l, hA, hl, e⟩ := hL
      obtain ⟨l', hB, hl'⟩ := H.fwd c i l hA
      refine ⟨off' (κ c) + l', ?_⟩
      intro c2 i2 l2 hA2 hl2 e2
      obtain ⟨l2', hB2, hl2'⟩ := H.fwd c2 i2 l2 hA2
      obtain ⟨rfl, rfl⟩ := (h2 c i l c2 i2 l2 hA hA2 hl hl2).mp (e.symm.trans e2)
      have := (H.same c i i2 l l l' l2' hA hA2 hB hB2 hl hl).mp rfl
      subst this
      exact ⟨l', hB2, hl'.mp hl, rfl⟩
    · exact ⟨0, fun c i l hA hl e => absurd ⟨c, i, l, hA, hl, e⟩ hL⟩
  choose f hf using hex
  refine ⟨f, ?_, ?_, ?_, ?_⟩
  · intro i L hL
    obtain ⟨c, l, hA, hl, e⟩ := (h1 i L).mp hL
    obtain ⟨l', hB, hl', e'⟩ := hf L c i l hA hl e
    exact (h1' _ _).mpr ⟨_, l', hB, hl', e'⟩
  · intro i j L hi hj hL'
    obtain ⟨c, l, hA, hl, e⟩ := (h1 j L).mp hj
    obtain ⟨l', hB, hl', e'⟩ := hf L c j l hA hl e
    obtain ⟨c2', l2', hB2, hl2', e2'⟩ := (h1' _ _).mp hL'
    obtain ⟨rfl, rfl⟩ := (h2' _ _ _ _ _ _ hB hB2 hl' hl2').mp (e'.symm.trans e2')
    obtain ⟨c3, i3, l3, ek, et, hA3, hl3⟩ := H.bwd _ _ _ hB2
    have := H.kinj c3 c i3 j l3 l hA3 hA ek
    subst this
    have := H.tinj i3 i (H.lt _ _ _ hA3) hi et
    subst this
    have hl3' := hl3.mpr hl'
    have := (H.same _ j i3 l l3 l' l' hA hA3 hB hB2 hl hl3').mpr rfl
    subst this
    exact (h1 i3 L).mpr ⟨_, l, hA3, hl, e⟩
  · intro i' L' hL'
    obtain ⟨c', l', hB, hl', e'⟩ := (h1' _ _).mp hL'
    obtain ⟨c, i, l, rfl, rfl, hA, hl⟩ := H.bwd _ _ _ hB
    have hl0 := hl.mpr hl'
    obtain ⟨k', hB2, hk', ek⟩ := hf (off c + l) c i l hA hl0 rfl
    have := (H.same c i i l l l' k' hA hA hB hB2 hl0 hl0).mp rfl
    subst this
    exact ⟨i, off c + l, rfl, ek.trans e'.symm, (h1 _ _).mpr ⟨c, l, hA, hl0, rfl⟩⟩
  · intro i j L K hL hK efg
    obtain ⟨c, l, hA, hl, e⟩ := (h1 i L).mp hL
    obtain ⟨c2, k, hA2, hk, e2⟩ := (h1 j K).mp hK
    obtain ⟨l', hB, hl', e'⟩ := hf L c i l hA hl e
    obtain ⟨k', hB2, hk', e2'⟩ := hf K c2 j k hA2 hk e2
    obtain ⟨ec, el⟩ := (h2' _ _ _ _ _ _ hB hB2 hl' hk').mp (e'.symm.trans (efg.trans e2'))
    have := H.kinj c c2 i j l k hA hA2 ec
    subst this
    subst el
    have := (H.same c i j l k l' l' hA hA2 hB hB2 hl hk).mpr rfl
    rw [e, e2, this]

theorem sorted_eq {l l' : List ℕ} (h : l.Pairwise (· < ·)) (h' : l'.Pairwise (· < ·))
    (hm : ∀ i, i ∈ l ↔ i ∈ l') : l = l' := by
  have hp : l.Perm l' := (List.perm_ext_iff_of_nodup (h.imp fun h => ne_of_lt h)
    (h'.imp fun h => ne_of_lt h)).mpr hm
  exact hp.eq_of_pairwise (fun a b _ _ h1 h2 => absurd h1 (lt_asymm h2)) h h'

theorem Renamed.graph {n : ℕ} {τ : ℕ → ℕ} {f : ℤ → ℤ} {itm itm' : List (List ℤ)}
    (H : Renamed n τ f itm itm') (hn : itm.length = n)
    (htinj : ∀ i i', i < n → i' < n → τ i = τ i' → i = i') {g g' : NxGraph}
    (hG : GraphOK itm g) (hG' : GraphOK itm' g') : RenamedGraph τ f g g' := by
  have hlt : ∀ i L, Carries itm i L → i < n := by
    rintro i L ⟨l, h1, _⟩
    rw [← hn]
    exact (List.getElem?_eq_some_iff.mp h1).1
  refine ⟨?_, ?_, ?_, ?_⟩
  · intro L'
    constructor
    · intro h
      obtain ⟨i', h⟩ := (hG'.mem_nodes L').mp h
      obtain ⟨i, L, _, e2, h3⟩ := H.surj i' L' h
      exact ⟨L, (hG.mem_nodes L).mpr ⟨i, h3⟩, e2⟩
    · rintro ⟨L, hL, rfl⟩
      obtain ⟨i, h⟩ := (hG.mem_nodes L).mp hL
      exact (hG'.mem_nodes _).mpr ⟨_, H.fwd i L h⟩
  · intro L K hL hK e
    obtain ⟨i, h⟩ := (hG.mem_nodes L).mp hL
    obtain ⟨j, h'⟩ := (hG.mem_nodes K).mp hK
    exact H.inj i j L K h h' e
  · intro L hL
    obtain ⟨j, hj⟩ := (hG.mem_nodes L).mp hL
    have hL' : g'.IsNode (f L) := (hG'.mem_nodes _).mpr ⟨_, H.fwd j L hj⟩
    have hperm : (idsOf itm' (f L)).Perm ((idsOf itm L).map τ) := by
      have hnd : ((idsOf itm L).map τ).Nodup := by
        rw [List.nodup_map_iff_inj_on ((idsOf_sorted itm L).imp fun h => ne_of_lt h)]
        intro a ha b hb e
        exact htinj a b (hlt _ _ (mem_idsOf.mp ha)) (hlt _ _ (mem_idsOf.mp hb)) e
      rw [List.perm_ext_iff_of_nodup ((idsOf_sorted _ _).imp fun h => ne_of_lt h) hnd]
      intro i'
      rw [mem_idsOf, List.mem_map]
      constructor
      · intro h
        obtain ⟨i, K, e1, e2, h3⟩ := H.surj i' (f L) h
        have := H.inj i j K L h3 hj e2
        subst this
        exact ⟨i, mem_idsOf.mpr h3, e1⟩
      · rintro ⟨i, hi, rfl⟩
        exact H.fwd i L (mem_idsOf.mp hi)
    refine ⟨_, _, idsOf itm' (f L), hG.attr L hL, ?_, hperm⟩
    rw [hG'.attr _ hL', hperm.length_eq, List.length_map]
  · intro L K hL hK
    obtain ⟨i, hi⟩ := (hG.mem_nodes L).mp hL
    obtain ⟨j, hj⟩ := (hG.mem_nodes K).mp hK
    rw [hG'.adj_iff, hG.adj_iff]
    constructor
    · rintro ⟨hne, i', h1, h2⟩
      obtain ⟨a, L2, e1, e2, h3⟩ := H.surj i' _ h1
      have := H.inj a i L2 L h3 hi e2
      subst this
      subst e1
      exact ⟨fun e => hne (by rw [e]), a, h3, H.bwd a j K (hlt _ _ h3) hj h2⟩
    · rintro ⟨hne, a, h1, h2⟩
      exact ⟨fun e => hne (H.inj i j L K hi hj e), τ a, H.fwd _ _ h1, H.fwd _ _ h2⟩

theorem RenamedGraph.reachable {τ : ℕ → ℕ} {f : ℤ → ℤ} {g g' : NxGraph}
    (H : RenamedGraph τ f g g') (hn : ∀ u v, g.Adj u v → g.IsNode u ∧ g.IsNode v)
    (hn' : ∀ u v, g'.Adj u v → g'.IsNode u ∧ g'.IsNode v) {L K : ℤ} (hL : g.IsNode L)
    (hK : g.IsNode K) : g'.Reachable (f L) (f K) ↔ g.Reachable L K := by
  constructor
  · intro h
    have key : ∀ M', g'.Reachable (f L) M' → ∃ M, g.IsNode M ∧ f M = M' ∧ g.Reachable L M := by
      intro M' h
      induction h with
      | refl => exact ⟨L, hL, rfl, .refl⟩
      | tail h1 h2 ih =>
        obtain ⟨M, hM, rfl, h3⟩ := ih
        obtain ⟨N, hN, rfl⟩ := (H.nodes _).mp (hn' _ _ h2).2
        exact ⟨N, hN, rfl, .tail h3 ((H.adj M N hM hN).mp h2)⟩
    obtain ⟨M, hM, e, h3⟩ := key _ h
    rw [← H.inj M K hM hK e]
    exact h3
  · intro h
    have key : ∀ M, g.Reachable L M → g'.Reachable (f L) (f M) := by
      intro M h
      induction h with
      | refl => exact .refl
      | tail h1 h2 ih => exact .tail ih ((H.adj _ _ (hn _ _ h2).1 (hn _ _ h2).2).mpr h2)
    exact key _ h

theorem pointsOf_eq {X : List S} {ids : List ℕ} (h : ∀ i ∈ ids, i < X.length) (k : ℕ) :
    (pointsOf X ids)[k]? = (ids[k]?).bind fun i => X[i]? := by
  induction ids generalizing k with
  | nil => simp [pointsOf]
  | cons i ids ih =>
    have hi : X[i]? = some (X[i]'(h i (by simp))) := List.getElem?_eq_getElem _
    have e : pointsOf X (i :: ids) = X[i]'(h i (by simp)) :: pointsOf X ids := by
      unfold pointsOf; rw [List.filterMap_cons, hi]
    rw [e]
    cases k with
    | zero => simp [hi]
    | succ k => simpa using ih (fun j hj => h j (by simp [hj])) k

theorem pointsOf_length {X : List S} {ids : List ℕ} (h : ∀ i ∈ ids, i < X.length) :
    (pointsOf X ids).length = ids.length := by
  induction ids with
  | nil => rfl
  | cons i ids ih =>
    have hi : X[i]? = some (X[i]'(h i (by simp))) := List.getElem?_eq_getElem _
    have e : pointsOf X (i :: ids) = X[i]'(h i (by simp)) :: pointsOf X ids := by
      unfold pointsOf; rw [List.filterMap_cons, hi]
    rw [e, List.length_cons, List.length_cons, ih fun j hj => h j (by simp [hj])]

/-- The positions of the entries of a rearranged list. -/
theorem shuffled_of_perm {ids ids' : List ℕ} (hp : ids'.Perm ids) (hnd : ids.Nodup) :
    Shuffled (fun m => ids.idxOf (ids'.getD m 0)) ids ids' := by
  have hget : ∀ m, m < ids.length → ∃ h : m < ids'.length, ids'.getD m 0 = ids'[m] := by
    intro m hm
    have : m < ids'.length := by rw [hp.length_eq]; exact hm
    exact ⟨this, by simp [List.getD_eq_getElem?_getD, this]⟩
  refine ⟨hp.length_eq, ?_, ?_⟩
  · intro m hm
    obtain ⟨h, e⟩ := hget m hm
    have hmem : ids'[m] ∈ ids := hp.subset (List.getElem_mem h)
    have hlt := List.idxOf_lt_length_iff.mpr hmem
    simp only [e]
    refine ⟨hlt, ?_⟩
    rw [List.getElem?_eq_getElem h, List.getElem?_eq_getElem hlt, List.getElem_idxOf]
  · intro m m' hm hm' e
    obtain ⟨h, e1⟩ := hget m hm
    obtain ⟨h', e2⟩ := hget m' hm'
    simp only [e1, e2] at e
    have hmem : ids'[m] ∈ ids := hp.subset (List.getElem_mem h)
    have := (List.idxOf_inj hmem).mp e
    exact (hp.nodup_iff.mpr hnd).getElem_inj_iff.mp this

/-- Two runs: the charts of the second one, numbered `κ c`, are those of the first one with
the points renamed by `τ`, in some order. -/
structure SameRuns (X X' : List S) (charts charts' : List (List ℕ)) (κ τ : ℕ → ℕ) : Prop where
  length : X'.length = X.length
  point : ∀ i, i < X.length → τ i < X.length ∧ X'[τ i]? = X[i]?
  tinj : ∀ i i', i < X.length → i' < X.length → τ i = τ i' → i = i'
  chart : ∀ c ids, charts[c]? = some ids → ∃ ids', charts'[κ c]? = some ids' ∧
    ids'.Perm (ids.map τ)
  kinj : ∀ c c', c < charts.length → c' < charts.length → κ c = κ c' → c = c'
  ksurj : ∀ c', c' < charts'.length → ∃ c, c < charts.length ∧ κ c = c'

theorem getElem?_lt {α : Type} {l : List α} {k : ℕ} {a : α} (h : l[k]? = some a) : k < l.length :=
  (List.getElem?_eq_some_iff.mp h).1

theorem lt_getElem? {α : Type} {l : List α} {k : ℕ} (h : k < l.length) : ∃ a, l[k]? = some a :=
  ⟨_, List.getElem?_eq_getElem h⟩

variable {X X' : List S} {charts charts' : List (List ℕ)} {κ τ : ℕ → ℕ} {clust clust' : ClustFn S}

theorem SameRuns.nodup (R : SameRuns X X' charts charts' κ τ) (hg : GoodCharts X.length charts)
    {c : ℕ} {ids : List ℕ} (h : charts[c]? = some ids) : (ids.map τ).Nodup := by
  obtain ⟨h1, h2⟩ := hg ids (List.mem_of_getElem? h)
  rw [List.nodup_map_iff_inj_on h1]
  exact fun a ha b hb e => R.tinj a b (h2 a ha) (h2 b hb) e

theorem SameRuns.good (R : SameRuns X X' charts charts' κ τ) (hg : GoodCharts X.length charts) :
    GoodCharts X'.length charts' := by
  intro ids' h
  obtain ⟨c', hc', rfl⟩ := List.mem_iff_getElem.mp h
  obtain ⟨c, hc, rfl⟩ := R.ksurj c' hc'
  obtain ⟨ids, hids⟩ := lt_getElem? hc
  obtain ⟨ids', e, hp⟩ := R.chart c ids hids
  rw [List.getElem?_eq_getElem hc'] at e
  cases e
  refine ⟨hp.nodup_iff.mpr (R.nodup hg hids), ?_⟩
  intro i' hi'
  obtain ⟨i, hi, rfl⟩ := List.mem_map.mp (hp.subset hi')
  rw [R.length]
  exact (R.point i ((hg ids (List.mem_of_getElem? hids)).2 i hi)).1

/-- One chart. -/
theorem SameRuns.one (R : SameRuns X X' charts charts' κ τ) (hg : GoodCharts X.length charts)
    (ho : OrderInsensitive clust) (hc : ∀ c xs, clust' (κ c) xs = clust c xs) {c : ℕ}
    {ids : List ℕ} {lbls : List ℤ} (h : ChartLabels X charts clust c ids lbls) :
    ∃ ids' lbls' π, ChartLabels X' charts' clust' (κ c) ids' lbls' ∧ lbls.length = ids.length ∧
      lbls'.length = ids'.length ∧ Shuffled π (ids.map τ) ids' ∧ SameClusters π lbls lbls' := by
  obtain ⟨hids, hcl⟩ := h
  obtain ⟨ids', hids', hp⟩ := R.chart c ids hids
  have hlt := (hg ids (List.mem_of_getElem? hids)).2
  have hlt' := (R.good hg ids' (List.mem_of_getElem? hids')).2
  have hS := shuffled_of_perm hp (R.nodup hg hids)
  set π := fun m => (ids.map τ).idxOf (ids'.getD m 0) with hπ
  obtain ⟨hl, hins⟩ := ho c _ _ hcl
  have hS' : Shuffled π (pointsOf X ids) (pointsOf X' ids') := by
    have hlen := hS.length
    rw [List.length_map] at hlen
    refine ⟨by rw [pointsOf_length hlt, pointsOf_length hlt', hlen], ?_, ?_⟩
    · intro m hm
      rw [pointsOf_length hlt] at hm ⊢
      obtain ⟨h1, h2⟩ := hS.entry m (by rwa [List.length_map])
      rw [List.length_map] at h1
      refine ⟨h1, ?_⟩
      rw [pointsOf_eq hlt, pointsOf_eq hlt', h2, List.getElem?_map, List.getElem?_eq_getElem h1]
      exact (R.point _ (hlt _ (List.getElem_mem h1))).2
    · intro m m' hm hm'
      rw [pointsOf_length hlt] at hm hm'
      exact hS.inj m m' (by rwa [List.length_map]) (by rwa [List.length_map])
  obtain ⟨lbls', e, hsame⟩ := hins π _ hS'
  refine ⟨ids', lbls', π, ⟨hids', by rw [hc]; exact e⟩, by rw [hl, pointsOf_length hlt], ?_, hS,
    hsame⟩
  rw [hsame.1, hl, pointsOf_length hlt, hS.length, List.length_map]

theorem SameRuns.succeeds (R : SameRuns X X' charts charts' κ τ)
    (hg : GoodCharts X.length charts) (ho : OrderInsensitive clust)
    (hc : ∀ c xs, clust' (κ c) xs = clust c xs) (hs : ClusteringSucceeds X charts clust) :
    ClusteringSucceeds X' charts' clust' := by
  intro c' ids' h
  obtain ⟨c, hlt, rfl⟩ := R.ksurj c' (getElem?_lt h)
  obtain ⟨ids, hids⟩ := lt_getElem? hlt
  obtain ⟨lbls, hl⟩ := hs c ids hids
  obtain ⟨ids2, lbls', π, h2, _⟩ := R.one hg ho hc hl
  have := h2.1
  rw [h] at this
  cases this
  exact ⟨lbls', h2⟩

theorem ChartLabels.unique {c : ℕ} {ids ids2 : List ℕ} {lbls lbls2 : List ℤ}
    (h : ChartLabels X charts clust c ids lbls) (h2 : ChartLabels X charts clust c ids2 lbls2) :
    ids = ids2 ∧ lbls = lbls2 := by
  obtain ⟨h1, h3⟩ := h
  obtain ⟨h4, h5⟩ := h2
  rw [h1] at h4
  cases h4
  rw [h3] at h5
  cases h5
  exact ⟨rfl, rfl⟩

theorem SameRuns.matching (R : SameRuns X X' charts charts' κ τ)
    (hg : GoodCharts X.length charts) (ho : OrderInsensitive clust)
    (hc : ∀ c xs, clust' (κ c) xs = clust c xs) (hs : ClusteringSucceeds X charts clust) :
    Matching X.length (LocalLabel X charts clust) (LocalLabel X' charts' clust') κ τ := by
  -- positions of corresponding points
  have pos : ∀ {c : ℕ} {ids ids' : List ℕ} {π : ℕ → ℕ}, charts[c]? = some ids →
      Shuffled π (ids.map τ) ids' → ∀ {i k k' : ℕ}, ids[k]? = some i → ids'[k']? = some (τ i) →
      π k' = k := by
    intro c ids ids' π hids hS i k k' h1 h2
    have hk' := getElem?_lt h2
    rw [hS.length] at hk'
    obtain ⟨h3, h4⟩ := hS.entry k' hk'
    have h5 : (ids.map τ)[k]? = some (τ i) := by rw [List.getElem?_map, h1]; rfl
    rw [h2, ← h5] at h4
    exact (List.getElem?_inj h3 (R.nodup hg hids)).mp h4.symm
  refine ⟨?_, ?_, ?_, ?_, ?_, R.tinj⟩
  · rintro c i l ⟨ids, lbls, k, hC, hi, hl⟩
    obtain ⟨ids', lbls', π, hC', e1, e2, hS, hsame⟩ := R.one hg ho hc hC
    obtain ⟨ids2, h1, hp⟩ := R.chart c ids hC.1
    rw [hC'.1] at h1
    cases h1
    have hmem : τ i ∈ ids' := hp.symm.subset (List.mem_map_of_mem (List.mem_of_getElem? hi))
    obtain ⟨k', hk'⟩ := List.getElem?_of_mem hmem
    have hk := pos hC.1 hS hi hk'
    obtain ⟨l', hl'⟩ := lt_getElem? (l := lbls') (k := k') (by rw [e2]; exact getElem?_lt hk')
    refine ⟨l', ⟨ids', lbls', k', hC', hk', hl'⟩, ?_⟩
    exact (hsame.2 k' k' l l l' l' (by rw [hk]; exact hl) (by rw [hk]; exact hl) hl' hl').1
  · rintro c' i' l' ⟨ids', lbls', k', hC', hi', hl'⟩
    obtain ⟨c, hlt, rfl⟩ := R.ksurj c' (getElem?_lt hC'.1)
    obtain ⟨ids, hids⟩ := lt_getElem? hlt
    obtain ⟨lbls, hC⟩ := hs c ids hids
    obtain ⟨ids2, lbls2, π, hC2, e1, e2, hS, hsame⟩ := R.one hg ho hc hC
    obtain ⟨rfl, rfl⟩ := hC'.unique hC2
    have hk' := getElem?_lt hi'
    rw [hS.length] at hk'
    obtain ⟨h3, h4⟩ := hS.entry k' hk'
    rw [List.length_map] at h3
    obtain ⟨l, hl⟩ := lt_getElem? (l := lbls) (k := π k') (by rw [e1]; exact h3)
    obtain ⟨i, hi⟩ := lt_getElem? h3
    rw [hi', List.getElem?_map, hi] at h4
    refine ⟨c, i, l, rfl, ?_, ⟨ids, lbls, π k', hC, hi, hl⟩,
      (hsame.2 k' k' l l l' l' hl hl hl' hl').1⟩
    simpa using h4.symm
  · rintro c i j l k l' k' ⟨ids, lbls, a, hC, hi, hl⟩ ⟨ids2, lbls2, b, hC2, hj, hk⟩
      ⟨ids', lbls', a', hC', hi', hl'⟩ ⟨ids2', lbls2', b', hC2', hj', hk'⟩ h0 h1
    obtain ⟨rfl, rfl⟩ := hC.unique hC2
    obtain ⟨rfl, rfl⟩ := hC'.unique hC2'
    obtain ⟨ids3, lbls3, π, hC3, e1, e2, hS, hsame⟩ := R.one hg ho hc hC
    obtain ⟨rfl, rfl⟩ := hC'.unique hC3
    exact (hsame.2 a' b' l k l' k' (by rw [pos hC.1 hS hi hi']; exact hl)
      (by rw [pos hC.1 hS hj hj']; exact hk) hl' hk').2 h0 h1
  · rintro c i l ⟨ids, lbls, a, hC, hi, hl⟩
    exact (hg ids (List.mem_of_getElem? hC.1)).2 i (List.mem_of_getElem? hi)
  · rintro c c' i i' l l' ⟨ids, _, _, hC, _, _⟩ ⟨ids2, _, _, hC2, _, _⟩ e
    exact R.kinj c c' (getElem?_lt hC.1) (getElem?_lt hC2.1) e

/-- Two runs that are the same up to names give the same graph and the same components up to
names. -/
theorem SameRuns.result {y y' : List T} {cover cover' : CoverFn T}
    (R : SameRuns X X' charts charts' κ τ) (hcov : cover y = .ok charts)
    (hcov' : cover' y' = .ok charts') (hg : GoodCharts X.length charts)
    (ho : OrderInsensitive clust) (hc : ∀ c xs, clust' (κ c) xs = clust c xs)
    (hs : ClusteringSucceeds X charts clust) (order order' : List ℤ → List ℤ)
    (hord : ∀ l L, L ∈ order l ↔ L ∈ l) (hord' : ∀ l L, L ∈ order' l ↔ L ∈ l) :
    ∃ f g g' out out', mapperGraph X y cover clust = .ok g ∧
      mapperGraph X' y' cover' clust' = .ok g' ∧ RenamedGraph τ f g g' ∧
      mapperConnectedComponents order X y cover clust = .ok out ∧
      mapperConnectedComponents order' X' y' cover' clust' = .ok out' ∧
      SameComponents τ X.length out out' ∧
      (∀ L, g.IsNode L → ∀ a, g.nodes.get? L = some a → ∀ ids, a.ids = some ids →
        ids.Pairwise (· < ·)) ∧
      (∀ L, g'.IsNode L → ∀ a, g'.nodes.get? L = some a → ∀ ids, a.ids = some ids →
        ids.Pairwise (· < ·)) := by
  have hg' := R.good hg
  have hs' := R.succeeds hg ho hc hs
  have M := R.matching hg ho hc hs
  obtain ⟨itm, off, e1, _, _, h1, h2⟩ := C32_labels_faithful X y cover clust charts hcov hg hs
  obtain ⟨itm', off', e1', _, _, h1', h2'⟩ :=
    C32_labels_faithful X' y' cover' clust' charts' hcov' hg' hs'
  obtain ⟨f, hf⟩ := M.renamed h1 h2 h1' h2'
  obtain ⟨_, itm2, g, _, e2, hlen, _, _, eg, hG⟩ := core_ok X y cover clust charts hcov hg hs
  obtain ⟨_, itm2', g', _, e2', hlen', _, _, eg', hG'⟩ :=
    core_ok X' y' cover' clust' charts' hcov' hg' hs'
  rw [e1] at e2; cases e2
  rw [e1'] at e2'; cases e2'
  have hR := hf.graph hlen R.tinj hG hG'
  obtain ⟨itm3, g3, out, e3, eg3, eo, hol, hneg, hnode, hcomp⟩ :=
    C36_connected_components X y cover clust charts hcov hg hs order hord
  obtain ⟨itm3', g3', out', e3', eg3', eo', hol', hneg', hnode', hcomp'⟩ :=
    C36_connected_components X' y' cover' clust' charts' hcov' hg' hs' order' hord'
  rw [e1] at e3; cases e3
  rw [e1'] at e3'; cases e3'
  rw [eg] at eg3; cases eg3
  rw [eg'] at eg3'; cases eg3'
  have hnd : ∀ u v, g.Adj u v → g.IsNode u ∧ g.IsNode v := by
    intro u v h
    obtain ⟨_, i, hu, hv⟩ := (hG.adj_iff u v).mp h
    exact ⟨(hG.mem_nodes u).mpr ⟨i, hu⟩, (hG.mem_nodes v).mpr ⟨i, hv⟩⟩
  have hnd' : ∀ u v, g'.Adj u v → g'.IsNode u ∧ g'.IsNode v := by
    intro u v h
    obtain ⟨_, i, hu, hv⟩ := (hG'.adj_iff u v).mp h
    exact ⟨(hG'.mem_nodes u).mpr ⟨i, hu⟩, (hG'.mem_nodes v).mpr ⟨i, hv⟩⟩
  have hnoise : ∀ i, i < X.length → ((∀ L, ¬ Carries itm i L) ↔ ∀ L, ¬ Carries itm' (τ i) L) := by
    intro i hi
    constructor
    · intro h L' hL'
      obtain ⟨i2, L, et, _, hL⟩ := hf.surj _ _ hL'
      have hlt : i2 < X.length := by
        obtain ⟨_, hx, _⟩ := hL
        rw [← hlen]; exact getElem?_lt hx
      have := R.tinj i2 i hlt hi et
      subst this
      exact h L hL
    · intro h L hL
      exact h _ (hf.fwd i L hL)
  refine ⟨f, g, g', out, out', eg, eg', hR, eo, eo', ⟨hol, by rw [hol', R.length], ?_, ?_⟩, ?_, ?_⟩
  · intro i hi
    rw [hneg i hi, hneg' (τ i) (by rw [R.length]; exact (R.point i hi).1), hnoise i hi]
  · intro i j hi hj
    have hti := (R.point i hi).1
    have htj := (R.point j hj).1
    rw [← R.length] at hti htj
    obtain ⟨r, hr⟩ := lt_getElem? (l := out) (k := i) (by rw [hol]; exact hi)
    obtain ⟨s, hs2⟩ := lt_getElem? (l := out) (k := j) (by rw [hol]; exact hj)
    obtain ⟨r', hr'⟩ := lt_getElem? (l := out') (k := τ i) (by rw [hol']; exact hti)
    obtain ⟨s', hs2'⟩ := lt_getElem? (l := out') (k := τ j) (by rw [hol']; exact htj)
    have nn : ∀ a L q, Carries itm a L → out[a]? = some q → q ≠ -1 := by
      intro a L q hL hq e
      subst e
      have ha : a < X.length := by rw [← hol]; exact getElem?_lt hq
      exact (hneg a ha).mp hq L hL
    have nn' : ∀ a L q, Carries itm' a L → out'[a]? = some q → q ≠ -1 := by
      intro a L q hL hq e
      subst e
      have ha : a < X'.length := by rw [← hol']; exact getElem?_lt hq
      exact (hneg' a ha).mp hq L hL
    by_cases hi0 : ∃ L, Carries itm i L
    · obtain ⟨L, hL⟩ := hi0
      have hL' := hf.fwd i L hL
      by_cases hj0 : ∃ K, Carries itm j K
      · obtain ⟨K, hK⟩ := hj0
        have hK' := hf.fwd j K hK
        rw [hr, hs2, hr', hs2', Option.some_inj, Option.some_inj, hcomp i j L K r s hL hK hr hs2,
          hcomp' _ _ _ _ r' s' hL' hK' hr' hs2']
        exact (hR.reachable hnd hnd' ((hG.mem_nodes L).mpr ⟨i, hL⟩)
          ((hG.mem_nodes K).mpr ⟨j, hK⟩)).symm
      · have hj1 : ∀ K, ¬ Carries itm j K := fun K h => hj0 ⟨K, h⟩
        have e1 := (hneg j hj).mpr hj1
        have e2 := (hneg' (τ j) htj).mpr ((hnoise j hj).mp hj1)
        rw [hs2] at e1; cases e1
        rw [hs2'] at e2; cases e2
        rw [hr, hs2, hr', hs2', Option.some_inj, Option.some_inj]
        exact ⟨fun h => absurd h (nn i L r hL hr), fun h => absurd h (nn' _ _ r' hL' hr')⟩
    · have hi1 : ∀ K, ¬ Carries itm i K := fun K h => hi0 ⟨K, h⟩
      have e1 := (hneg i hi).mpr hi1
      have e2 := (hneg' (τ i) hti).mpr ((hnoise i hi).mp hi1)
      rw [e1, e2, eq_comm, hneg j hj, eq_comm, hneg' (τ j) htj, hnoise j hj]
  · intro L hL a ha ids hids
    rw [hG.attr L hL] at ha
    cases ha
    cases hids
    exact idsOf_sorted _ _
  · intro L hL a ha ids hids
    rw [hG'.attr L hL] at ha
    cases ha
    cases hids
    exact idsOf_sorted _ _

/-! ### Runs over the same data -/

theorem SameCharts.sameRuns {X : List S} {charts charts' : List (List ℕ)}
    (h : SameCharts charts charts') : SameRuns X X charts charts' id id := by
  refine ⟨rfl, fun i hi => ⟨hi, rfl⟩, fun _ _ _ _ e => e, ?_, fun _ _ _ _ e => e, ?_⟩
  · intro c ids hids
    obtain ⟨ids', h1⟩ := lt_getElem? (l := charts') (k := c)
      (by rw [← List.Forall₂.length_eq h]; exact getElem?_lt hids)
    refine ⟨ids', h1, ?_⟩
    obtain ⟨hc, e1⟩ := List.getElem?_eq_some_iff.mp hids
    obtain ⟨hc', e2⟩ := List.getElem?_eq_some_iff.mp h1
    have := List.Forall₂.get h hc hc'
    rw [List.get_eq_getElem, List.get_eq_getElem, e1, e2] at this
    simpa using this.symm
  · intro c' hc'
    exact ⟨c', by rw [List.Forall₂.length_eq h]; exact hc', rfl⟩

/-! ### Covers -/

theorem proximityLoop_same {F F' : Type} (search : F → T → Py (List ℕ)) (f : F)
    (search' : F' → T → Py (List ℕ)) (f' : F') (X : List T) :
    ∀ (i : ℕ) (cov cov' : List ℕ), (∀ j, j ∈ cov ↔ j ∈ cov') →
    (∀ x ∈ X, ∃ a b, search f x = .ok a ∧ search' f' x = .ok b ∧ a.Perm b) →
    ∃ out out', proximityLoop search f i X cov = .ok out ∧
      proximityLoop search' f' i X cov' = .ok out' ∧ SameCharts out out' := by
  induction X with
  | nil => intro i cov cov' _ _; exact ⟨[], [], rfl, rfl, .nil⟩
  | cons x rest ih =>
    intro i cov cov' hcov hs
    by_cases hi : i ∈ cov
    · obtain ⟨out, out', h1, h2, h3⟩ := ih (i + 1) cov cov' hcov fun y hy => hs y (by simp [hy])
      exact ⟨out, out', by rw [proximityLoop, if_pos hi, h1],
        by rw [proximityLoop, if_pos ((hcov i).mp hi), h2], h3⟩
    · obtain ⟨a, b, ha, hb, hp⟩ := hs x (by simp)
      obtain ⟨out, out', h1, h2, h3⟩ := ih (i + 1) (cov ++ a) (cov' ++ b)
        (fun j => by rw [List.mem_append, List.mem_append, hcov, hp.mem_iff])
        fun y hy => hs y (by simp [hy])
      refine ⟨if a = [] then out else a :: out, if b = [] then out' else b :: out', ?_, ?_, ?_⟩
      · rw [proximityLoop, if_neg hi]
        simp only [ha, ok_bind, h1, pure_eq_ok]
      · rw [proximityLoop, if_neg (fun h => hi ((hcov i).mpr h))]
        simp only [hb, ok_bind, h2, pure_eq_ok]
      · by_cases ha0 : a = []
        · subst ha0
          rw [if_pos rfl, if_pos hp.nil_eq.symm]
          exact h3
        · rw [if_neg ha0, if_neg (fun h => ha0 (by subst h; exact hp.eq_nil))]
          exact .cons hp h3

theorem proximityNet_same {F F' : Type} {fit : List T → Py F} {search : F → T → Py (List ℕ)}
    {fit' : List T → Py F'} {search' : F' → T → Py (List ℕ)} {X : List T} {f : F} {f' : F'}
    (h : fit X = .ok f) (h' : fit' X = .ok f')
    (hs : ∀ x ∈ X, ∃ a b, search f x = .ok a ∧ search' f' x = .ok b ∧ a.Perm b) :
    ∃ out out', proximityNet fit search X = .ok out ∧ proximityNet fit' search' X = .ok out' ∧
      SameCharts out out' := by
  obtain ⟨out, out', h1, h2, h3⟩ := proximityLoop_same search f search' f' X 0 [] [] (by simp) hs
  refine ⟨out, out', ?_, ?_, h3⟩
  · rw [proximityNet, h]; exact h1
  · rw [proximityNet, h']; exact h2

theorem NearestIndices.perm {R : Type} [LinearOrder R] {d : T → T → R} {q : T} {k : ℕ}
    {X : List T} {a b : List ℕ}
    (hn : ∀ (i j : ℕ) xi xj, X[i]? = some xi → X[j]? = some xj → d q xi = d q xj → i = j)
    (ha : NearestIndices d q k X a) (hb : NearestIndices d q k X b) : a.Perm b := by
  have key : ∀ (a b : List ℕ), NearestIndices d q k X a → NearestIndices d q k X b →
      ∀ i ∈ a, i ∈ b := by
    intro a b ha hb i hi
    by_contra hib
    -- some index of `b` is not in `a`
    have : ∃ j ∈ b, j ∉ a := by
      by_contra hx
      have hsub : ∀ j ∈ b, j ∈ a := fun j hj => by_contra fun h => hx ⟨j, hj, h⟩
      have hp := (List.subperm_of_subset hb.1 hsub).perm_of_length_le
        (by rw [ha.2.1, hb.2.1])
      exact hib (hp.mem_iff.mpr hi)
    obtain ⟨j, hj, hja⟩ := this
    obtain ⟨xi, hxi⟩ := lt_getElem? (ha.2.2.1 i hi)
    obtain ⟨xj, hxj⟩ := lt_getElem? (hb.2.2.1 j hj)
    have h1 := ha.2.2.2 i hi j hja xi xj hxi hxj
    have h2 := hb.2.2.2 j hj i hib xj xi hxj hxi
    have := hn i j xi xj hxi hxj (le_antisymm h1 h2)
    subst this
    exact hja hi
  exact (List.perm_ext_iff_of_nodup ha.1 hb.1).mpr fun i => ⟨key a b ha hb i, key b a hb ha i⟩

section cubical
variable {R : Type} [Field R] [LinearOrder R] [FloorRing R] {m : ℕ}

theorem landmarksLoop_congr (c c' : CubCover m R) (f f' : CubFit m R) (hf : c.fitted = some f)
    (hf' : c'.fitted = some f') (hg : f.grid = f'.grid) (X : List (Fin m → R)) :
    ∀ lm, landmarksLoop c lm X = landmarksLoop c' lm X := by
  induction X with
  | nil => intro lm; rfl
  | cons x xs ih =>
    intro lm
    simp only [landmarksLoop, hf, hf', hg]
    split
    · exact ih _
    · exact ih _

omit [FloorRing R] in
theorem GridOK.unique {g g' : Grid m R} {X : List (Fin m → R)} {n : ℕ} {p : R}
    (h : GridOK g X n p) (h' : GridOK g' X n p) : g = g' := by
  obtain ⟨e1, e2⟩ := h.bounds.unique h'.bounds
  have h3 : g.delta = g'.delta := by
    funext i
    rw [h.delta_eq, h'.delta_eq, e1, e2]
  have h4 := h.n_eq.trans h'.n_eq.symm
  have h5 := h.p_eq.trans h'.p_eq.symm
  cases g; cases g'
  simp only at e1 e2 h3 h4 h5
  subst e1 e2 h3 h4 h5
  rfl

variable [IsStrictOrderedRing R]

/-- Two fits with the same intervals and overlap answer with the same indices. -/
theorem cubFit_same (dflt dflt' : ℕ → R) (c c' : CubCover m R) (ρ ρ' : ℕ → ℕ)
    (X : List (Fin m → R)) (hX : X ≠ []) (p : R) (H : CubOK dflt m c.params p)
    (H' : CubOK dflt' m c'.params p) (hn : c.params.nIntervals = c'.params.nIntervals) :
    ∃ (d d' : CubCover m R) (fd fd' : CubFit m R) (f f' : (Fin m → R) → List ℕ),
      c.fit dflt ρ X = .ok d ∧ c'.fit dflt' ρ' X = .ok d' ∧ d.fitted = some fd ∧
      d'.fitted = some fd' ∧ fd.grid = fd'.grid ∧ (∀ x, d.search x = .ok (f x)) ∧
      (∀ x, d'.search x = .ok (f' x)) ∧ ∀ x, (f x).Perm (f' x) := by
  obtain ⟨d, g, b, f, h1, hd, hg, hf, hl, _⟩ := cubFitted dflt c ρ X hX p H
  obtain ⟨d', g', b', f', h1', hd', hg', hf', hl', _⟩ := cubFitted dflt' c' ρ' X hX p H'
  rw [← hn] at hg' hl'
  have := hg.unique hg'
  subst this
  exact ⟨d, d', ⟨g, b, decide (1 / 2 < p)⟩, ⟨g, b', decide (1 / 2 < p)⟩, f, f', h1, h1', by rw [hd],
    by rw [hd'], rfl, hf, hf',
    fun x => (hl x).perm (hl' x)⟩

theorem applyProximity_same (dflt dflt' : ℕ → R) (c c' : CubCover m R) (ρ ρ' : ℕ → ℕ)
    (X : List (Fin m → R)) (hX : X ≠ []) (p : R) (H : CubOK dflt m c.params p)
    (H' : CubOK dflt' m c'.params p) (hn : c.params.nIntervals = c'.params.nIntervals) :
    ∃ out out', c.applyProximity dflt ρ X = .ok out ∧ c'.applyProximity dflt' ρ' X = .ok out' ∧
      SameCharts out out' := by
  obtain ⟨d, d', _, _, f, f', h1, h1', _, _, _, hf, hf', hp⟩ :=
    cubFit_same dflt dflt' c c' ρ ρ' X hX p H H' hn
  exact proximityNet_same h1 h1' fun x _ => ⟨_, _, hf x, hf' x, hp x⟩

theorem applyStandard_same (dflt dflt' : ℕ → R) (c c' : CubCover m R) (ρ ρ' : ℕ → ℕ)
    (X : List (Fin m → R)) (hX : X ≠ []) (p : R) (H : CubOK dflt m c.params p)
    (H' : CubOK dflt' m c'.params p) (hn : c.params.nIntervals = c'.params.nIntervals) :
    ∃ out out', c.applyStandard dflt ρ X = .ok out ∧ c'.applyStandard dflt' ρ' X = .ok out' ∧
      SameCharts out out' := by
  obtain ⟨d, d', fd, fd', f, f', h1, h1', hd, hd', hg, hf, hf', hp⟩ :=
    cubFit_same dflt dflt' c c' ρ ρ' X hX p H H' hn
  obtain ⟨lm, e1, _⟩ := landmarksLoop_ok d fd hd X X PyDict.empty (fun _ h => h)
    (by simp [PyDict.keys, PyDict.empty]) (by simp [PyDict.empty])
  have e1' : landmarksLoop d' PyDict.empty X = .ok lm := by
    rw [← landmarksLoop_congr d d' fd fd' hd hd' hg]; exact e1
  have e2 := standardLoop_ok d f hf lm.items (lm.items.length + 1) (by omega)
  have e2' := standardLoop_ok d' f' hf' lm.items (lm.items.length + 1) (by omega)
  refine ⟨(lm.items.reverse.map (fun e => f e.2)).filter (fun l => l ≠ []),
    (lm.items.reverse.map (fun e => f' e.2)).filter (fun l => l ≠ []), ?_, ?_, ?_⟩
  · unfold CubCover.applyStandard
    simp only [h1, ok_bind, e1]
    exact e2
  · unfold CubCover.applyStandard
    simp only [h1', ok_bind, e1']
    exact e2'
  · induction lm.items.reverse with
    | nil => exact .nil
    | cons e t ih =>
      simp only [List.map_cons, List.filter_cons, decide_eq_true_eq]
      have hpe := hp e.2
      by_cases h0 : f e.2 = []
      · rw [h0] at hpe
        rw [if_neg (by simp [h0]), if_neg (by simp [hpe.nil_eq.symm])]
        exact ih
      · rw [if_pos h0, if_pos (fun h => h0 (by rw [h] at hpe; exact hpe.eq_nil))]
        exact .cons hpe ih

end cubical

/-! ### Runs over shuffled data -/

theorem Shuffled.surj {α : Type} {π : ℕ → ℕ} {l l' : List α} (h : Shuffled π l l') {j : ℕ}
    (hj : j < l.length) : ∃ m, m < l.length ∧ π m = j := by
  have hnd : ((List.range l.length).map π).Nodup := by
    rw [List.nodup_map_iff_inj_on List.nodup_range]
    intro a ha b hb e
    exact h.inj a b (List.mem_range.mp ha) (List.mem_range.mp hb) e
  have hp : ((List.range l.length).map π).Perm (List.range l.length) := by
    refine (List.subperm_of_subset hnd ?_).perm_of_length_le (by simp)
    intro a ha
    obtain ⟨m, hm, rfl⟩ := List.mem_map.mp ha
    exact List.mem_range.mpr (h.entry m (List.mem_range.mp hm)).1
  obtain ⟨m, hm, e⟩ := List.mem_map.mp (hp.mem_iff.mpr (List.mem_range.mpr hj))
  exact ⟨m, List.mem_range.mp hm, e⟩

theorem Shuffled.mem_iff {α : Type} {π : ℕ → ℕ} {l l' : List α} (h : Shuffled π l l') (a : α) :
    a ∈ l' ↔ a ∈ l := by
  rw [List.mem_iff_getElem?, List.mem_iff_getElem?]
  constructor
  · rintro ⟨m, hm⟩
    have := getElem?_lt hm
    rw [h.length] at this
    exact ⟨π m, by rw [← (h.entry m this).2]; exact hm⟩
  · rintro ⟨j, hj⟩
    obtain ⟨m, hm, rfl⟩ := h.surj (getElem?_lt hj)
    exact ⟨m, by rw [(h.entry m hm).2]; exact hj⟩

theorem ListsExactly.shuffled {π : ℕ → ℕ} {y y' : List T} (h : Shuffled π y y') {P : T → Prop}
    {ids ids' : List ℕ} (hl : ListsExactly y P ids) (hl' : ListsExactly y' P ids') :
    ids.Perm (ids'.map π) := by
  have hlt : ∀ i ∈ ids', i < y.length := by
    intro i hi
    obtain ⟨z, hz, _⟩ := (hl'.2 i).mp hi
    rw [← h.length]; exact getElem?_lt hz
  have hnd : (ids'.map π).Nodup := by
    rw [List.nodup_map_iff_inj_on hl'.1]
    exact fun a ha b hb e => h.inj a b (hlt a ha) (hlt b hb) e
  rw [List.perm_ext_iff_of_nodup hl.1 hnd]
  intro j
  rw [hl.2, List.mem_map]
  constructor
  · rintro ⟨z, hz, hP⟩
    obtain ⟨m, hm, rfl⟩ := h.surj (getElem?_lt hz)
    exact ⟨m, (hl'.2 m).mpr ⟨z, by rw [(h.entry m hm).2]; exact hz, hP⟩, rfl⟩
  · rintro ⟨m, hm, rfl⟩
    obtain ⟨z, hz, hP⟩ := (hl'.2 m).mp hm
    exact ⟨z, by rw [← (h.entry m (hlt m hm)).2]; exact hz, hP⟩

/-- Charts indexed by the same cells in another order, over shuffled data. -/
theorem sameRuns_of_cells {C : Type} [DecidableEq C] {π : ℕ → ℕ} {X X' : List S} {y y' : List T}
    (hX : Shuffled π X X') (hy : Shuffled π y y')
    {P : C → T → Prop} {cells cells' : List C} {charts charts' : List (List ℕ)}
    (hnd : cells.Nodup) (hnd' : cells'.Nodup) (hm : ∀ c, c ∈ cells ↔ c ∈ cells')
    (h : List.Forall₂ (fun c chart => ListsExactly y (P c) chart) cells charts)
    (h' : List.Forall₂ (fun c chart => ListsExactly y' (P c) chart) cells' charts') :
    ∃ κ, SameRuns X' X charts' charts κ π := by
  have hl := h.length_eq
  have hl' := h'.length_eq
  have at1 : ∀ (k : ℕ) (c : C) ids, cells[k]? = some c → charts[k]? = some ids →
      ListsExactly y (P c) ids := by
    intro k c ids h1 h2
    obtain ⟨k1, e1⟩ := List.getElem?_eq_some_iff.mp h1
    obtain ⟨k2, e2⟩ := List.getElem?_eq_some_iff.mp h2
    have := h.get k1 k2
    rwa [List.get_eq_getElem, List.get_eq_getElem, e1, e2] at this
  have at2 : ∀ (k : ℕ) (c : C) ids, cells'[k]? = some c → charts'[k]? = some ids →
      ListsExactly y' (P c) ids := by
    intro k c ids h1 h2
    obtain ⟨k1, e1⟩ := List.getElem?_eq_some_iff.mp h1
    obtain ⟨k2, e2⟩ := List.getElem?_eq_some_iff.mp h2
    have := h'.get k1 k2
    rwa [List.get_eq_getElem, List.get_eq_getElem, e1, e2] at this
  have hκ : ∀ k : ℕ, ∃ k' : ℕ, k < cells'.length → ∃ c, cells'[k]? = some c ∧ cells[k']? = some c := by
    intro k
    by_cases hk : k < cells'.length
    · obtain ⟨c, hc⟩ := lt_getElem? hk
      obtain ⟨k', hk'⟩ := List.getElem?_of_mem ((hm c).mpr (List.mem_of_getElem? hc))
      exact ⟨k', fun _ => ⟨c, hc, hk'⟩⟩
    · exact ⟨0, fun h => absurd h hk⟩
  choose κ hκ using hκ
  refine ⟨κ, hX.length.symm, ?_, ?_, ?_, ?_, ?_⟩
  · intro i hi
    rw [hX.length] at hi ⊢
    obtain ⟨h1, h2⟩ := hX.entry i hi
    exact ⟨h1, h2.symm⟩
  · intro i i' hi hi' e
    rw [hX.length] at hi hi'
    exact hX.inj i i' hi hi' e
  · intro k ids hids
    obtain ⟨c, h1, h2⟩ := hκ k (by rw [hl']; exact getElem?_lt hids)
    obtain ⟨ids2, h3⟩ := lt_getElem? (l := charts) (k := κ k) (by rw [← hl]; exact getElem?_lt h2)
    exact ⟨ids2, h3, (at1 _ c _ h2 h3).shuffled hy (at2 _ c _ h1 hids)⟩
  · intro k k' hk hk' e
    obtain ⟨c, h1, h2⟩ := hκ k (by rw [hl']; exact hk)
    obtain ⟨c', h1', h2'⟩ := hκ k' (by rw [hl']; exact hk')
    rw [e, h2'] at h2
    cases h2
    exact (List.getElem?_inj (getElem?_lt h1) hnd').mp (h1.trans h1'.symm)
  · intro k hk
    obtain ⟨c, hc⟩ := lt_getElem? (l := cells) (k := k) (by rw [hl]; exact hk)
    obtain ⟨k', hk'⟩ := List.getElem?_of_mem ((hm c).mp (List.mem_of_getElem? hc))
    refine ⟨k', by rw [← hl']; exact getElem?_lt hk', ?_⟩
    obtain ⟨c', h1, h2⟩ := hκ k' (getElem?_lt hk')
    rw [hk'] at h1
    cases h1
    exact (List.getElem?_inj (getElem?_lt h2) hnd).mp (h2.trans hc.symm)

end Verif

import Verif.Spec.Nerve
import Verif.Props.Cover

/-!
# C75, C76: the Mapper graph as a nerve, its components as chains of points

`IsNerve`, `Clustered`, `InOneChart` and `Linked` are in `Verif.Spec.Nerve`.
-/

set_option autoImplicit false

namespace Verif

section
variable {S T : Type}

theorem trivial_chartLabels (X : List S) {charts : List (List ℕ)} {c : ℕ} {ids : List ℕ}
    (hi : ∀ i ∈ ids, i < X.length) (h : charts[c]? = some ids) :
    ChartLabels X charts (fun _ => trivialClustering) c ids (List.replicate ids.length 0) := by
  refine ⟨h, ?_⟩
  have hl : (pointsOf X ids).length = ids.length := by
    clear h
    induction ids with
    | nil => rfl
    | cons i ids ih =>
      have h1 := hi i (by simp)
      simp only [pointsOf] at ih ⊢
      rw [List.filterMap_cons_some (List.getElem?_eq_getElem h1), List.length_cons,
        ih (fun j hj => hi j (List.mem_cons_of_mem _ hj)), List.length_cons]
  simp [trivialClustering, ← hl]

theorem trivial_succeeds (X : List S) (charts : List (List ℕ)) :
    ClusteringSucceeds X charts (fun _ => trivialClustering) :=
  fun _ _ h => ⟨_, h, rfl⟩

theorem trivial_localLabel (X : List S) {charts : List (List ℕ)} (hg : GoodCharts X.length charts)
    {c i : ℕ} {l : ℤ} :
    LocalLabel X charts (fun _ => trivialClustering) c i l ↔
      ∃ ids, charts[c]? = some ids ∧ i ∈ ids ∧ l = 0 := by
  constructor
  · rintro ⟨ids, lbls, k, ⟨h1, h2⟩, h3, h4⟩
    have h5 := (trivial_chartLabels X (hg ids (List.mem_of_getElem? h1)).2 h1).2
    rw [h5] at h2; cases h2
    have := List.mem_of_getElem? h4
    exact ⟨ids, h1, List.mem_of_getElem? h3, List.eq_of_mem_replicate this⟩
  · rintro ⟨ids, h1, h2, rfl⟩
    obtain ⟨k, hk, rfl⟩ := List.mem_iff_getElem.mp h2
    exact ⟨ids, _, k, trivial_chartLabels X (hg ids (List.mem_of_getElem? h1)).2 h1,
      List.getElem?_eq_getElem hk, by simp [hk]⟩

/-- Labels of the trivial clustering: point `i` carries the numbers of its charts. -/
theorem trivial_carries (X : List S) (y : List T) (cover : CoverFn T)
    (charts : List (List ℕ)) (hc : cover y = .ok charts) (hg : GoodCharts X.length charts) :
    ∃ itm, mapperLabels X y cover (fun _ => trivialClustering) = .ok itm ∧
      ∀ i L, Carries itm i L ↔ ∃ (c : ℕ) (ids : List ℕ), charts[c]? = some ids ∧ i ∈ ids ∧ L = c := by
  obtain ⟨itm, off, e, h0, hoff, hm, _⟩ := C32_labels_faithful X y cover
    (fun _ => trivialClustering) charts hc hg (trivial_succeeds X charts)
  have hfold : ∀ n : ℕ, (List.replicate n (0 : ℤ)).foldl max 0 = 0 := by
    intro n; induction n with
    | zero => rfl
    | succ n ih => simpa [List.replicate_succ] using ih
  have ho : ∀ c : ℕ, c ≤ charts.length → off c = c := by
    intro c
    induction c with
    | zero => intro _; simpa using h0
    | succ c ih =>
      intro hlt
      have h1 : charts[c]? = some charts[c] := List.getElem?_eq_getElem (by omega)
      rw [hoff c _ _ (trivial_chartLabels X (hg _ (List.mem_of_getElem? h1)).2 h1), ih (by omega)]
      simp [hfold]
  refine ⟨itm, e, fun i L => ?_⟩
  rw [hm]
  constructor
  · rintro ⟨c, l, h1, _, rfl⟩
    obtain ⟨ids, h2, h3, rfl⟩ := (trivial_localLabel X hg).mp h1
    refine ⟨c, ids, h2, h3, ?_⟩
    rw [ho c (List.getElem?_eq_some_iff.mp h2).1.le]; simp
  · rintro ⟨c, ids, h1, h2, rfl⟩
    refine ⟨c, 0, (trivial_localLabel X hg).mpr ⟨ids, h1, h2, rfl⟩, le_refl _, ?_⟩
    rw [ho c (List.getElem?_eq_some_iff.mp h1).1.le]; simp

/-- **C75.** With the trivial clustering, the Mapper graph is the nerve of the cover. -/
theorem C75_nerve (X : List S) (y : List T) (cover : CoverFn T) (charts : List (List ℕ))
    (hc : cover y = .ok charts) (hg : WellFormedCharts X.length charts) :
    ∃ g, mapperGraph X y cover (fun _ => trivialClustering) = .ok g ∧ IsNerve g charts := by
  have hg' : GoodCharts X.length charts := fun ids h => (hg ids h).2
  obtain ⟨itm, e, hcar⟩ := trivial_carries X y cover charts hc hg'
  obtain ⟨itm1, g, e1, e2, hn, hnd, hattr⟩ := C34_graph_nodes X y cover _ charts hc hg'
    (trivial_succeeds X charts)
  obtain ⟨itm2, g2, e3, e4, hadj, _⟩ := C35_graph_edges X y cover _ charts hc hg'
    (trivial_succeeds X charts)
  rw [e] at e1 e3; cases e1; cases e3
  rw [e2] at e4; cases e4
  have hnode : ∀ u, g.IsNode u ↔ ∃ c : ℕ, c < charts.length ∧ u = c := by
    intro u
    rw [hn]
    constructor
    · rintro ⟨i, hi⟩
      obtain ⟨c, ids, h1, _, h3⟩ := (hcar i u).mp hi
      exact ⟨c, (List.getElem?_eq_some_iff.mp h1).1, h3⟩
    · rintro ⟨c, hlt, rfl⟩
      have h1 : charts[c]? = some charts[c] := List.getElem?_eq_getElem hlt
      obtain ⟨i, hi⟩ := List.exists_mem_of_ne_nil _ (hg _ (List.mem_of_getElem? h1)).1
      exact ⟨i, (hcar i c).mpr ⟨c, _, h1, hi, rfl⟩⟩
  have hmem : ∀ (c : ℕ) ids, charts[c]? = some ids → ∀ i, Carries itm i c ↔ i ∈ ids := by
    intro c ids h1 i
    rw [hcar]
    constructor
    · rintro ⟨c', ids', h2, h3, h4⟩
      obtain rfl : c = c' := by exact_mod_cast h4
      rw [h1] at h2; cases h2; exact h3
    · intro h; exact ⟨c, ids, h1, h, rfl⟩
  refine ⟨g, e2, hnode, ?_, ?_, fun u v h => ?_⟩
  · intro c ids h1
    obtain ⟨size, l, h2, h3, _, h5, h6⟩ := hattr c ((hnode c).mpr
      ⟨c, (List.getElem?_eq_some_iff.mp h1).1, rfl⟩)
    have hp : l.Perm ids := by
      rw [List.perm_ext_iff_of_nodup (h5.imp fun h => Nat.ne_of_lt h)
        (hg ids (List.mem_of_getElem? h1)).2.1]
      intro i; rw [h6, hmem c ids h1]
    exact ⟨l, by rw [h2, h3, hp.length_eq], h5, hp⟩
  · intro c c' ids ids' h1 h2
    rw [hadj]
    simp only [hmem c ids h1, hmem c' ids' h2]
    simp
  · obtain ⟨_, i, hi, hj⟩ := (hadj u v).mp h
    exact ⟨(hn u).mpr ⟨i, hi⟩, (hn v).mpr ⟨i, hj⟩⟩

/-- Non-vacuity. -/
example : ∃ g, mapperGraph [5, 6, 7] [0, 0, 0] demoCover (fun _ => trivialClustering) = .ok g ∧
    IsNerve g [[0, 1], [2, 1]] :=
  C75_nerve _ _ _ _ rfl (by
    intro ids h
    simp only [List.mem_cons, List.not_mem_nil, or_false] at h
    rcases h with rfl | rfl <;> decide)

/-- **C76.** Points of positive membership are in the same connected component exactly if
they are linked by a chain of points each of which is in one cluster with the next. -/
theorem C76_chains (X : List S) (y : List T) (cover : CoverFn T) (clust : ClustFn S)
    (charts : List (List ℕ)) (hc : cover y = .ok charts) (hg : GoodCharts X.length charts)
    (hs : ClusteringSucceeds X charts clust) (order : List ℤ → List ℤ)
    (ho : ∀ l L, L ∈ order l ↔ L ∈ l) :
    ∃ out, mapperConnectedComponents order X y cover clust = .ok out ∧ out.length = X.length ∧
      (∀ i, i < X.length → (out[i]? = some (-1) ↔ ¬ Clustered X charts clust i i)) ∧
      ∀ i j, Clustered X charts clust i i → Clustered X charts clust j j →
        (out[i]? = out[j]? ↔ Linked (Clustered X charts clust) i j) := by
  obtain ⟨itm, off, e, _, _, hm, hinj⟩ := C32_labels_faithful X y cover clust charts hc hg hs
  obtain ⟨itm1, g, e1, e2, hadj, hsym, _⟩ := C35_graph_edges X y cover clust charts hc hg hs
  obtain ⟨itm2, g2, out, e3, e4, e5, hl, hneg, _, hsame⟩ :=
    C36_connected_components X y cover clust charts hc hg hs order ho
  rw [e] at e1 e3; cases e1; cases e3
  rw [e2] at e4; cases e4
  have hclu : ∀ i j, Clustered X charts clust i j ↔ ∃ L, Carries itm i L ∧ Carries itm j L := by
    intro i j
    constructor
    · rintro ⟨c, l, h0, h1, h2⟩
      exact ⟨off c + l, (hm _ _).mpr ⟨c, l, h1, h0, rfl⟩, (hm _ _).mpr ⟨c, l, h2, h0, rfl⟩⟩
    · rintro ⟨L, h1, h2⟩
      obtain ⟨c, l, h3, h4, h5⟩ := (hm _ _).mp h1
      obtain ⟨c', l', h6, h7, h8⟩ := (hm _ _).mp h2
      obtain ⟨rfl, rfl⟩ := (hinj _ _ _ _ _ _ h3 h6 h4 h7).mp (h5.symm.trans h8)
      exact ⟨c, l, h4, h3, h6⟩
  have hlt : ∀ i L, Carries itm i L → i < X.length := by
    intro i L h
    obtain ⟨c, l, ⟨ids, _, k, h1, h2, _⟩, _⟩ := (hm i L).mp h
    exact (hg ids (List.mem_of_getElem? h1.1)).2 i (List.mem_of_getElem? h2)
  refine ⟨out, e5, hl, ?_, ?_⟩
  · intro i hi
    rw [hneg i hi, hclu, not_exists]
    exact ⟨fun h L hL => h L hL.1, fun h L hL => h L ⟨hL, hL⟩⟩
  · intro i j hii hjj
    obtain ⟨Li, hLi, _⟩ := (hclu i i).mp hii
    obtain ⟨Lj, hLj, hx⟩ := (hclu j j).mp hjj
    clear hx
    obtain ⟨oi, hoi⟩ : ∃ o, out[i]? = some o :=
      ⟨_, List.getElem?_eq_getElem (by rw [hl]; exact hlt i Li hLi)⟩
    obtain ⟨oj, hoj⟩ : ∃ o, out[j]? = some o :=
      ⟨_, List.getElem?_eq_getElem (by rw [hl]; exact hlt j Lj hLj)⟩
    have key := hsame i j Li Lj _ _ hLi hLj hoi hoj
    rw [hoi, hoj, Option.some.injEq, key]
    constructor
    · intro h
      clear key hoj hjj
      induction h generalizing j with
      | refl => exact .single ((hclu i j).mpr ⟨Li, hLi, hLj⟩)
      | tail _ h2 ih =>
        obtain ⟨_, k, hk1, hk2⟩ := (hadj _ _).mp h2
        exact (ih k hk1).tail ((hclu k j).mpr ⟨_, hk2, hLj⟩)
    · intro h
      clear key hoj hjj
      have hstep : ∀ k L L', Carries itm k L → Carries itm k L' → g.Reachable L L' := by
        intro k L L' h1 h2
        by_cases hne : L = L'
        · rw [hne]; exact .refl
        · exact .single ((hadj L L').mpr ⟨hne, k, h1, h2⟩)
      induction h generalizing Lj with
      | refl => exact hstep i Li Lj hLi hLj
      | tail h1 h2 ih =>
        obtain ⟨L, h3, h4⟩ := (hclu _ _).mp h2
        exact (ih L h3).trans (hstep _ L Lj h4 hLj)

/-- Non-vacuity: even and odd points of overlapping charts. -/
example : ∃ out, mapperConnectedComponents id [5, 6, 7] [0, 0, 0] demoCover demoClust = .ok out ∧
    out.length = 3 := by
  obtain ⟨out, h1, h2, _⟩ := C76_chains [5, 6, 7] [0, 0, 0] demoCover demoClust
    [[0, 1], [2, 1]] rfl demo_good (demo_succeeds _ (fun _ _ => ⟨_, rfl⟩) _ _) id (fun _ _ => Iff.rfl)
  exact ⟨out, h1, h2⟩

/-- **C76 (trivial clustering).** For a cover of all points and the trivial clustering, the
components are the classes of points linked by charts. -/
theorem C76_cover_chains (X : List S) (y : List T) (cover : CoverFn T) (charts : List (List ℕ))
    (hc : cover y = .ok charts) (hg : WellFormedCharts X.length charts)
    (hcov : Covers X.length charts) (order : List ℤ → List ℤ) (ho : ∀ l L, L ∈ order l ↔ L ∈ l) :
    ∃ out, mapperConnectedComponents order X y cover (fun _ => trivialClustering) = .ok out ∧
      out.length = X.length ∧ ∀ i j, i < X.length → j < X.length →
        (out[i]? = out[j]? ↔ Linked (InOneChart charts) i j) := by
  have hg' : GoodCharts X.length charts := fun ids h => (hg ids h).2
  obtain ⟨out, h1, h2, _, h4⟩ := C76_chains X y cover (fun _ => trivialClustering) charts hc hg'
    (trivial_succeeds X charts) order ho
  have hclu : Clustered X charts (fun _ => trivialClustering) = InOneChart charts := by
    funext i j
    apply propext
    constructor
    · rintro ⟨c, l, _, h5, h6⟩
      obtain ⟨ids, h7, h8, _⟩ := (trivial_localLabel X hg').mp h5
      obtain ⟨ids', h9, h10, _⟩ := (trivial_localLabel X hg').mp h6
      rw [h7] at h9; cases h9
      exact ⟨ids, List.mem_of_getElem? h7, h8, h10⟩
    · rintro ⟨ids, h5, h6, h7⟩
      obtain ⟨c, hc, rfl⟩ := List.mem_iff_getElem.mp h5
      exact ⟨c, 0, le_refl _,
        (trivial_localLabel X hg').mpr ⟨_, List.getElem?_eq_getElem hc, h6, rfl⟩,
        (trivial_localLabel X hg').mpr ⟨_, List.getElem?_eq_getElem hc, h7, rfl⟩⟩
  refine ⟨out, h1, h2, fun i j hi hj => ?_⟩
  rw [← hclu]
  apply h4
  · rw [hclu]; obtain ⟨ch, h5, h6⟩ := hcov i hi; exact ⟨ch, h5, h6, h6⟩
  · rw [hclu]; obtain ⟨ch, h5, h6⟩ := hcov j hj; exact ⟨ch, h5, h6, h6⟩

end

section
variable {T R : Type} [AddCommGroup R] [LinearOrder R] [IsOrderedAddMonoid R]

/-- **C75 (balls).** With `BallCover` and the trivial clustering, the graph has one node for
each centre of a maximal set of rows at mutual distance at least the radius; the node consists
of the rows nearer to the centre than the radius, and nodes are adjacent exactly if some row is
nearer than the radius to both centres. -/
theorem C75_ball_graph (c : BallCover T R) (H : BallOK c.params) (hr : 0 < c.params.radius)
    (ρ : ℕ → ℕ) (X : List T) :
    ∃ (g : NxGraph) (centres : List ℕ),
      mapperGraph X X (c.apply ρ) (fun _ => trivialClustering) = .ok g ∧
      centres.Pairwise (· < ·) ∧ (∀ i ∈ centres, i < X.length) ∧
      (∀ u, g.IsNode u ↔ ∃ k : ℕ, k < centres.length ∧ u = k) ∧
      (∀ (k i : ℕ) xi, centres[k]? = some i → X[i]? = some xi →
        ∃ l, g.nodes.get? k = some ⟨some l.length, some l⟩ ∧ l.Pairwise (· < ·) ∧
          ListsExactly X (fun z => c.params.metric xi z < c.params.radius) l) ∧
      (∀ (k k' i i' : ℕ) xi xi', centres[k]? = some i → centres[k']? = some i' →
        X[i]? = some xi → X[i']? = some xi' →
        (g.Adj k k' ↔ k ≠ k' ∧
          ∃ z ∈ X, c.params.metric xi z < c.params.radius ∧ c.params.metric xi' z < c.params.radius)) ∧
      (∀ i ∈ centres, ∀ j ∈ centres, i ≠ j → ∀ xi xj, X[i]? = some xi → X[j]? = some xj →
        c.params.radius ≤ c.params.metric xi xj) ∧
      ∀ z ∈ X, ∃ i ∈ centres, ∃ xi, X[i]? = some xi ∧ c.params.metric xi z < c.params.radius := by
  obtain ⟨out, centres, h1, h2, h3, h4, h5, h6⟩ := C18_ball_cover c H hr ρ X
  obtain ⟨g, e, hn⟩ := C75_nerve X X (c.apply ρ) out h1 h2
  have hlen := h5.length_eq
  have hget : ∀ (k i : ℕ) xi, centres[k]? = some i → X[i]? = some xi → ∃ chart,
      out[k]? = some chart ∧ ListsExactly X (fun z => c.params.metric xi z < c.params.radius) chart := by
    intro k i xi hk hi
    obtain ⟨hk', rfl⟩ := List.getElem?_eq_some_iff.mp hk
    obtain ⟨xi', h7, h8⟩ := h5.get hk' (hlen ▸ hk')
    have h7 : X[centres[k]]? = some xi' := h7
    rw [hi] at h7; cases h7
    exact ⟨_, List.getElem?_eq_getElem (hlen ▸ hk'), h8⟩
  have hcent : ∀ i ∈ centres, ∃ xi, X[i]? = some xi := by
    intro i hi
    obtain ⟨k, hk, rfl⟩ := List.mem_iff_getElem.mp hi
    obtain ⟨xi, h7, _⟩ := h5.get hk (hlen ▸ hk)
    exact ⟨xi, h7⟩
  refine ⟨g, centres, e, h4, ?_, ?_, ?_, ?_, h6, ?_⟩
  · intro i hi
    obtain ⟨xi, h⟩ := hcent i hi
    exact (List.getElem?_eq_some_iff.mp h).1
  · intro u; rw [hn.node, hlen]
  · intro k i xi hk hi
    obtain ⟨chart, h7, h8⟩ := hget k i xi hk hi
    obtain ⟨l, h9, h10, h11⟩ := hn.attr k chart h7
    refine ⟨l, by rw [h9, h11.length_eq], h10, h11.nodup_iff.mpr h8.1, fun j => ?_⟩
    rw [h11.mem_iff, h8.2]
  · intro k k' i i' xi xi' hk hk' hi hi'
    obtain ⟨ch, h7, h8⟩ := hget k i xi hk hi
    obtain ⟨ch', h9, h10⟩ := hget k' i' xi' hk' hi'
    rw [hn.adj k k' ch ch' h7 h9]
    refine and_congr_right fun _ => ⟨?_, ?_⟩
    · rintro ⟨j, h11, h12⟩
      obtain ⟨z, hz, hz'⟩ := (h8.2 j).mp h11
      obtain ⟨z', hw, hw'⟩ := (h10.2 j).mp h12
      rw [hz] at hw; cases hw
      exact ⟨z, List.mem_of_getElem? hz, hz', hw'⟩
    · rintro ⟨z, hz, h11, h12⟩
      obtain ⟨j, hj, rfl⟩ := List.mem_iff_getElem.mp hz
      exact ⟨j, (h8.2 j).mpr ⟨_, List.getElem?_eq_getElem hj, h11⟩,
        (h10.2 j).mpr ⟨_, List.getElem?_eq_getElem hj, h12⟩⟩
  · intro z hz
    obtain ⟨j, hj, rfl⟩ := List.mem_iff_getElem.mp hz
    obtain ⟨chart, h7, h8⟩ := h3 j hj
    obtain ⟨k, hk, rfl⟩ := List.mem_iff_getElem.mp h7
    have hk' : k < centres.length := hlen ▸ hk
    obtain ⟨xi, h9, h10⟩ := h5.get hk' hk
    obtain ⟨z', h11, h12⟩ := (h10.2 j).mp h8
    rw [List.getElem?_eq_getElem hj] at h11; cases h11
    exact ⟨_, List.getElem_mem hk', xi, h9, h12⟩

/-- **C76 (balls).** With `BallCover` and the trivial clustering, points of one component are
linked by steps shorter than twice the radius. -/
theorem C76_ball_steps (c : BallCover T R) (H : BallOK c.params) (hr : 0 < c.params.radius)
    (ρ : ℕ → ℕ) (X : List T) (order : List ℤ → List ℤ) (ho : ∀ l L, L ∈ order l ↔ L ∈ l) :
    ∃ out, mapperConnectedComponents order X X (c.apply ρ) (fun _ => trivialClustering) = .ok out ∧
      out.length = X.length ∧ ∀ i j, i < X.length → j < X.length → out[i]? = out[j]? →
        Linked (fun a b => ∃ xa xb, X[a]? = some xa ∧ X[b]? = some xb ∧
          c.params.metric xa xb < c.params.radius + c.params.radius) i j := by
  obtain ⟨charts, centres, h1, h2, h3, _, h5, _⟩ := C18_ball_cover c H hr ρ X
  obtain ⟨out, e, hl, hsame⟩ := C76_cover_chains X X (c.apply ρ) charts h1 h2 h3 order ho
  refine ⟨out, e, hl, fun i j hi hj h => ?_⟩
  refine Relation.ReflTransGen.mono ?_ _ _ ((hsame i j hi hj).mp h)
  rintro a b ⟨chart, h7, ha, hb⟩
  obtain ⟨k, hk, rfl⟩ := List.mem_iff_getElem.mp h7
  obtain ⟨xi, _, h8⟩ := h5.get (h5.length_eq ▸ hk) hk
  obtain ⟨xa, h9, h10⟩ := (h8.2 a).mp ha
  obtain ⟨xb, h11, h12⟩ := (h8.2 b).mp hb
  refine ⟨xa, xb, h9, h11, ?_⟩
  refine lt_of_le_of_lt (H.metric.triangle xa xi xb) ?_
  rw [H.metric.symm xa xi]
  exact add_lt_add h10 h12

end

/-- Non-vacuity for the balls: the integers below ten with radius 3. -/
example : ∃ out, mapperConnectedComponents id [0, 1, 2, 3, 4, 20, 21] [0, 1, 2, 3, 4, 20, 21]
    ((demoBall 3).apply (fun n => n)) (fun _ => trivialClustering) = .ok out ∧ out.length = 7 := by
  obtain ⟨out, h1, h2, _⟩ := C76_ball_steps (demoBall 3) (demoBall_ok 3) (by decide) (fun n => n)
    [0, 1, 2, 3, 4, 20, 21] id (fun _ _ => Iff.rfl)
  exact ⟨out, h1, h2⟩

/-- Two nodes, sharing the points 1 and 2. -/
example : ∃ (g : NxGraph) (centres : List ℕ), mapperGraph [0, 1, 2, 3] [0, 1, 2, 3] ((demoBall 3).apply (fun n => n))
    (fun _ => trivialClustering) = .ok g ∧ ∀ u, g.IsNode u ↔ ∃ k : ℕ, k < centres.length ∧ u = k := by
  obtain ⟨g, centres, h1, _, _, h2, _⟩ := C75_ball_graph (demoBall 3) (demoBall_ok 3) (by decide)
    (fun n => n) [0, 1, 2, 3]
  exact ⟨g, centres, h1, h2⟩

/-- **C76 (close points need not be connected).** Points nearer to each other than the radius,
here 95 and 105 with radius 100, can be in different components. -/
theorem C76_close_points_violation :
    ∃ (X : List ℤ) (i j : ℕ) (xi xj : ℤ) (out : List ℤ), X[i]? = some xi ∧ X[j]? = some xj ∧
      absDist xi xj < 100 ∧
      mapperConnectedComponents id X X ((demoBall 100).apply (fun n => n))
        (fun _ => trivialClustering) = .ok out ∧ out[i]? ≠ out[j]? :=
  ⟨[0, 200, 95, 105], 2, 3, 95, 105, [0, 1, 0, 1], rfl, rfl, by decide, by decide +kernel, by decide⟩

end Verif

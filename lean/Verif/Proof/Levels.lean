import Verif.Spec.Levels
import Verif.Props.Size

/-!
# Proofs: how Mapper graphs lie over the cover
-/

set_option autoImplicit false
set_option linter.unusedSectionVars false

namespace Verif

variable {S T : Type}

/-- The Mapper graph lies over the cover. -/
theorem overCharts (X : List S) (y : List T) (cover : CoverFn T) (clust : ClustFn S)
    (charts : List (List ℕ)) (hc : cover y = .ok charts) (hg : GoodCharts X.length charts)
    (hs : ClusteringSucceeds X charts clust) :
    ∃ g chart, mapperGraph X y cover clust = .ok g ∧ OverCharts g charts chart := by
  obtain ⟨itm, g, e, eg, hnode, _, hattr⟩ := C34_graph_nodes X y cover clust charts hc hg hs
  obtain ⟨itm1, g1, e1, eg1, hrow, hadj⟩ := hasRow_iff X y cover clust charts hc hg hs
  rw [e] at e1; cases e1
  rw [eg] at eg1; cases eg1
  obtain ⟨itm2, off, e2, _, _, hcar, hinj⟩ := C32_labels_faithful X y cover clust charts hc hg hs
  rw [e] at e2; cases e2
  classical
  let chart : ℤ → ℕ := fun u => if h : ∃ c i l, LocalLabel X charts clust c i l ∧ 0 ≤ l ∧ u = off c + l
    then h.choose else 0
  have key : ∀ u i, g.HasRow u i → ∃ l, LocalLabel X charts clust (chart u) i l ∧ 0 ≤ l ∧
      u = off (chart u) + l := by
    intro u i h
    obtain ⟨c, l, h1, h2, h3⟩ := (hcar i u).mp ((hrow u i).mp h)
    have hex : ∃ c i l, LocalLabel X charts clust c i l ∧ 0 ≤ l ∧ u = off c + l := ⟨c, i, l, h1, h2, h3⟩
    have hch : chart u = hex.choose := dif_pos hex
    obtain ⟨i', l', h4, h5, h6⟩ := hex.choose_spec
    obtain ⟨h7, rfl⟩ := (hinj _ _ _ _ _ _ h1 h4 h2 h5).mp (h3 ▸ h6)
    rw [hch, ← h7]
    exact ⟨l, h1, h2, h3⟩
  have dis : ∀ u v i, u ≠ v → g.HasRow u i → g.HasRow v i → chart u ≠ chart v := by
    intro u v i huv hu hv he
    obtain ⟨l, ⟨ids, lbls, k, h1, h2, h3⟩, _, h4⟩ := key u i hu
    obtain ⟨l', ⟨ids', lbls', k', h1', h2', h3'⟩, _, h4'⟩ := key v i hv
    rw [← he] at h1' h4'
    obtain ⟨rfl, rfl⟩ : ids = ids' ∧ lbls = lbls' := h1.unique h1'
    have hnd := (hg ids (List.mem_of_getElem? h1.1)).1
    have : k = k' := by
      obtain ⟨hk, hk2⟩ := List.getElem?_eq_some_iff.mp h2
      obtain ⟨hk', hk2'⟩ := List.getElem?_eq_some_iff.mp h2'
      exact (List.Nodup.getElem_inj_iff hnd).mp (hk2.trans hk2'.symm)
    subst this
    rw [h3] at h3'
    cases h3'
    exact huv (h4.trans h4'.symm)
  refine ⟨g, chart, eg, ⟨fun u hu => ?_, dis, fun u v h => ?_⟩⟩
  · obtain ⟨i, hi⟩ := (hnode u).mp hu
    obtain ⟨l, ⟨ids, lbls, k, h1, _⟩, _, _⟩ := key u i ((hrow u i).mpr hi)
    refine ⟨ids, h1.1, fun j hj => ?_⟩
    obtain ⟨l', ⟨ids', lbls', k', h1', h2', _⟩, _, _⟩ := key u j hj
    have := h1.1.symm.trans h1'.1
    cases this
    exact List.mem_of_getElem? h2'
  · obtain ⟨huv, i, hi, hj⟩ := (hadj u v).mp h
    exact ⟨(hnode u).mpr ⟨i, hi⟩, (hnode v).mpr ⟨i, hj⟩,
      dis u v i huv ((hrow u i).mpr hi) ((hrow v i).mpr hj), i, (hrow u i).mpr hi, (hrow v i).mpr hj⟩

section
variable {R : Type} [Field R] [LinearOrder R] [IsStrictOrderedRing R] [FloorRing R] {m : ℕ}

/-- Hypercubes with a common row are less than `K` cells apart. -/
theorem cells_near {lo hi : Fin m → R} {n : ℕ} (hn : 1 ≤ n) {p : R} (hp : p < 1)
    {cell cell' : Fin m → ℤ} {z : Fin m → R} (h1 : InHypercube lo hi n p cell z)
    (h2 : InHypercube lo hi n p cell' z) {i : Fin m} (h : Spread lo hi i) :
    |cell i - cell' i| < maxIntervals p := by
  have hq : 0 < 1 - p := sub_pos.mpr hp
  have hKc : ((maxIntervals p : ℤ) : R) = ((⌈1 / (1 - p)⌉ : ℤ) : R) := by
    have : 0 < ⌈1 / (1 - p)⌉ := Int.ceil_pos.mpr (by positivity)
    congr 1
    unfold maxIntervals; omega
  have a := abs_lt.mp ((inBox_iff hn (spread_lt h) hp (cell i)).mpr (h1 i h))
  have b := abs_lt.mp ((inBox_iff hn (spread_lt h) hp (cell' i)).mpr (h2 i h))
  have he : 1 / (2 - 2 * p) + 1 / (2 - 2 * p) = 1 / (1 - p) := by
    have : 1 - p ≠ 0 := hq.ne'
    have : 2 - 2 * p ≠ 0 := by
      intro h; apply this; linarith
    field_simp
    ring
  have hc := Int.le_ceil (1 / (1 - p))
  have h5 : ((cell i - cell' i : ℤ) : R) < ((maxIntervals p : ℤ) : R) := by
    rw [hKc]; push_cast; linarith [a.1, a.2, b.1, b.2]
  have h6 : ((cell' i - cell i : ℤ) : R) < ((maxIntervals p : ℤ) : R) := by
    rw [hKc]; push_cast; linarith [a.1, a.2, b.1, b.2]
  have h7 : cell i - cell' i < maxIntervals p := by exact_mod_cast h5
  have h8 : cell' i - cell i < maxIntervals p := by exact_mod_cast h6
  rw [abs_lt]
  omega

theorem maxIntervals_pos {p : R} (hp : p < 1) : 0 < maxIntervals p := by
  have hq : 0 < 1 - p := sub_pos.mpr hp
  have : 0 < ⌈1 / (1 - p)⌉ := Int.ceil_pos.mpr (by positivity)
  unfold maxIntervals; omega

end

/-- A walk of `n` edges changes the parity of the level `n` times. -/
theorem walk_parity {g : NxGraph} {level : ℤ → ℤ} (h : NextLevels g level) {n : ℕ} {u v : ℤ}
    (w : g.Walk n u v) : (2 : ℤ) ∣ level u - level v + n := by
  induction w with
  | nil u => simp
  | cons ha _ ih =>
    rcases h _ _ ha with h1 | h1 <;> push_cast <;> omega

theorem level_between {g : NxGraph} {level : ℤ → ℤ} (h : NextLevels g level) {u v : ℤ}
    (hr : g.Reachable u v) : ∀ l, (level u ≤ l ∧ l ≤ level v ∨ level v ≤ l ∧ l ≤ level u) →
    ∃ w, g.Reachable u w ∧ g.Reachable w v ∧ level w = l := by
  induction hr with
  | refl => intro l hl; exact ⟨u, .refl, .refl, by omega⟩
  | @tail b c hub hbc ih =>
    intro l hl
    by_cases hc : l = level c
    · exact ⟨c, hub.tail hbc, .refl, hc.symm⟩
    · obtain ⟨w, h1, h2, h3⟩ := ih l (by rcases h _ _ hbc with h1 | h1 <;> omega)
      exact ⟨w, h1, h2.tail hbc, h3⟩

/-- Numbers that are at least `r` apart: if two of them are less than `2 r` apart, they follow each
other. -/
theorem next_of_net {R : Type} [Field R] [LinearOrder R] [IsStrictOrderedRing R] (s : Finset R) {r : R}
    (hsep : ∀ a ∈ s, ∀ b ∈ s, a ≠ b → r ≤ |a - b|) {a b : R} (ha : a ∈ s) (hb : b ∈ s) (hlt : a < b)
    (hnear : b - a < 2 * r) : (s.filter (· < b)).card = (s.filter (· < a)).card + 1 := by
  have : s.filter (· < b) = insert a (s.filter (· < a)) := by
    ext x
    simp only [Finset.mem_filter, Finset.mem_insert]
    constructor
    · rintro ⟨hx, hxb⟩
      by_cases hxa : x = a
      · exact Or.inl hxa
      · refine Or.inr ⟨hx, ?_⟩
        by_contra hn
        have hax : a < x := lt_of_le_of_ne (not_lt.mp hn) (Ne.symm hxa)
        have h1 := hsep x hx a ha hxa
        have h2 := hsep b hb x hx hxb.ne'
        rw [abs_of_pos (sub_pos.mpr hax)] at h1
        rw [abs_of_pos (sub_pos.mpr hxb)] at h2
        linarith
    · rintro (rfl | ⟨hx, hxa⟩)
      · exact ⟨ha, hlt⟩
      · exact ⟨hx, hxa.trans hlt⟩
  rw [this, Finset.card_insert_of_notMem (by simp)]

/-- Graphs over balls on a line: levels, centres, and the charts they are the centres of. -/
theorem ball_levels {R : Type} [Field R] [LinearOrder R] [IsStrictOrderedRing R] {metric : T → T → R}
    {r : R} (hr : 0 < r) {pos : T → R} (hpos : ∀ a b, metric a b = |pos a - pos b|) {y : List T}
    {charts : List (List ℕ)} {centres : List ℕ} (h2 : WellFormedCharts y.length charts)
    (h4 : centres.Pairwise (· < ·))
    (h5 : List.Forall₂ (fun i chart => ∃ xi, y[i]? = some xi ∧
      ListsExactly y (fun z => metric xi z < r) chart) centres charts)
    (h6 : ∀ i ∈ centres, ∀ j ∈ centres, i ≠ j → ∀ xi xj, y[i]? = some xi → y[j]? = some xj →
      r ≤ metric xi xj) {g : NxGraph} {chart : ℤ → ℕ} (hg : OverCharts g charts chart) :
    ∃ level : ℤ → ℤ, ∃ centre : ℤ → R, NextLevels g level ∧
      (∀ u, g.IsNode u → ∀ i yi, g.HasRow u i → y[i]? = some yi → |centre u - pos yi| < r) ∧
      (∀ u v, g.IsNode u → g.IsNode v → (level u < level v ↔ centre u < centre v)) ∧
      ∀ u, g.IsNode u → ∃ i xi, centres[chart u]? = some i ∧ y[i]? = some xi ∧ centre u = pos xi := by
  let at' : ℕ → R := fun i => ((y[i]?).map pos).getD 0
  let s : Finset R := (centres.map at').toFinset
  let centre : ℤ → R := fun u => ((centres[chart u]?).map at').getD 0
  have hat : ∀ {i : ℕ} {x : T}, y[i]? = some x → at' i = pos x := by
    intro i x h; simp only [at', h, Option.map_some, Option.getD_some]
  have hval : ∀ i ∈ centres, ∃ x, y[i]? = some x := by
    intro i hi
    obtain ⟨q, hq, rfl⟩ := List.mem_iff_getElem.mp hi
    obtain ⟨x, hx, _⟩ := h5.get hq (h5.length_eq ▸ hq)
    exact ⟨x, hx⟩
  have hsepi : ∀ i ∈ centres, ∀ j ∈ centres, i ≠ j → r ≤ |at' i - at' j| := by
    intro i hi j hj hij
    obtain ⟨x, hx⟩ := hval i hi
    obtain ⟨x', hx'⟩ := hval j hj
    rw [hat hx, hat hx', ← hpos]
    exact h6 i hi j hj hij x x' hx hx'
  have hsep : ∀ a ∈ s, ∀ b ∈ s, a ≠ b → r ≤ |a - b| := by
    intro a ha b hb hab
    simp only [s, List.mem_toFinset, List.mem_map] at ha hb
    obtain ⟨i, hi, rfl⟩ := ha
    obtain ⟨j, hj, rfl⟩ := hb
    exact hsepi i hi j hj fun h => hab (by rw [h])
  have node : ∀ u, g.IsNode u → ∃ i, centres[chart u]? = some i ∧ centre u = at' i ∧ centre u ∈ s ∧
      ∀ j yj, g.HasRow u j → y[j]? = some yj → |centre u - pos yj| < r := by
    intro u hu
    obtain ⟨ids, h7, h8⟩ := hg.rows u hu
    obtain ⟨hq, h9⟩ := List.getElem?_eq_some_iff.mp h7
    have hq' : chart u < centres.length := h5.length_eq ▸ hq
    have hc : centre u = at' centres[chart u] := by
      simp only [centre, List.getElem?_eq_getElem hq', Option.map_some, Option.getD_some]
    refine ⟨centres[chart u], List.getElem?_eq_getElem hq', hc, ?_, fun j yj hj hyj => ?_⟩
    · rw [hc]
      simp only [s, List.mem_toFinset, List.mem_map]
      exact ⟨_, List.getElem_mem hq', rfl⟩
    · obtain ⟨x, hx, h10⟩ := h5.get hq' hq
      have hm : j ∈ charts.get ⟨chart u, hq⟩ := by rw [List.get_eq_getElem, h9]; exact h8 j hj
      obtain ⟨z, hz, hz1⟩ := (h10.2 j).mp hm
      rw [hyj] at hz; cases hz
      rw [hc, hat (i := centres[chart u]) hx, ← hpos]
      exact hz1
  have hnd : centres.Nodup := h4.imp fun h => h.ne
  refine ⟨fun u => ((s.filter (· < centre u)).card : ℤ), centre, fun u v h => ?_, fun u hu => ?_,
    fun u v hu hv => ?_, fun u hu => ?_⟩
  · obtain ⟨hu, hv, hne, i, hi1, hi2⟩ := hg.edge u v h
    obtain ⟨a, ha1, ha2, ha3, ha4⟩ := node u hu
    obtain ⟨b, hb1, hb2, hb3, hb4⟩ := node v hv
    obtain ⟨ids, h7, h8⟩ := hg.rows u hu
    have hil : i < y.length := (h2 ids (List.mem_of_getElem? h7)).2.2 i (h8 i hi1)
    have hyi := List.getElem?_eq_getElem hil
    have d1 := abs_lt.mp (ha4 i _ hi1 hyi)
    have d2 := abs_lt.mp (hb4 i _ hi2 hyi)
    have hab : a ≠ b := by
      rintro rfl
      obtain ⟨e1, e2⟩ := List.getElem?_eq_some_iff.mp ha1
      obtain ⟨e3, e4⟩ := List.getElem?_eq_some_iff.mp hb1
      exact hne ((List.Nodup.getElem_inj_iff hnd).mp (e2.trans e4.symm))
    have hcc : centre u ≠ centre v := by
      intro he
      have := hsepi a (List.mem_of_getElem? ha1) b (List.mem_of_getElem? hb1) hab
      rw [← ha2, ← hb2, he, sub_self, abs_zero] at this
      exact absurd hr (not_lt.mpr this)
    rcases lt_or_gt_of_ne hcc with hlt | hlt
    · left
      have := next_of_net s hsep ha3 hb3 hlt (by linarith [d1.1, d1.2, d2.1, d2.2])
      simp only [this]
      push_cast
      rfl
    · right
      have := next_of_net s hsep hb3 ha3 hlt (by linarith [d1.1, d1.2, d2.1, d2.2])
      simp only [this]
      push_cast
      rfl
  · obtain ⟨_, _, _, _, h⟩ := node u hu
    exact h
  · obtain ⟨_, _, _, hu1, _⟩ := node u hu
    simp only [Nat.cast_lt]
    constructor
    · intro h
      by_contra hn
      refine absurd h (not_lt.mpr (Finset.card_le_card fun x hx => ?_))
      rw [Finset.mem_filter] at hx ⊢
      exact ⟨hx.1, lt_of_lt_of_le hx.2 (not_lt.mp hn)⟩
    · intro h
      refine Finset.card_lt_card ⟨fun x hx => ?_, fun hsub => ?_⟩
      · rw [Finset.mem_filter] at hx ⊢
        exact ⟨hx.1, hx.2.trans h⟩
      · have := hsub (Finset.mem_filter.mpr ⟨hu1, h⟩)
        exact absurd (Finset.mem_filter.mp this).2 (lt_irrefl _)
  · obtain ⟨i, h7, h8, _⟩ := node u hu
    obtain ⟨x, hx⟩ := hval i (List.mem_of_getElem? h7)
    exact ⟨i, x, h7, hx, h8.trans (hat hx)⟩

end Verif

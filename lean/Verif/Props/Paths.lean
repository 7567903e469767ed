import Verif.Proof.Paths
import Verif.Props.Levels
import Mathlib.Data.Fin.VecNotation
import Mathlib.Tactic.FinCases

/-!
# C132: with the trivial clustering, graphs over a line consist of paths

Whatever the data, a Mapper graph over a one-column lens with `TrivialClustering` and the usual overlaps
consists of paths. Branches and cycles can only come from the clustering, or from a lens with more columns.
-/

set_option autoImplicit false
set_option linter.unusedSectionVars false

namespace Verif

variable {S T : Type}

/-- **C132 (what it means).** Where nodes have different levels and edges lead to the next level, a node
has at most two neighbours and there are no cycles. If one can go from a node to another one that is not
lower, each level between has one node, and the nodes of successive levels are joined. -/
theorem C132_paths {g : NxGraph} {level : ℤ → ℤ} (h : IsPaths g level) :
    NoCycle g ∧
    (∀ u a b c, g.Adj u a → g.Adj u b → g.Adj u c → a = b ∨ b = c ∨ a = c) ∧
    ∀ u v, g.IsNode u → g.IsNode v → g.Reachable u v →
      (∀ l, level u ≤ l → l ≤ level v → ∃! w, g.IsNode w ∧ level w = l) ∧
      ∀ w w', g.IsNode w → g.IsNode w' → level u ≤ level w → level w' = level w + 1 →
        level w' ≤ level v → g.Adj w w' := by
  refine ⟨paths_no_cycle h, fun u a b c h1 h2 h3 => ?_, fun u v hu hv hr => ⟨fun l h1 h2 => ?_,
    fun w w' hw hw' h1 h2 h3 => ?_⟩⟩
  · have na := (h.ends _ _ h1).2
    have nb := (h.ends _ _ h2).2
    have nc := (h.ends _ _ h3).2
    by_cases e1 : level a = level b
    · exact Or.inl (h.one _ _ na nb e1)
    · by_cases e2 : level b = level c
      · exact Or.inr (Or.inl (h.one _ _ nb nc e2))
      · refine Or.inr (Or.inr (h.one _ _ na nc ?_))
        rcases h.next _ _ h1 with k1 | k1 <;> rcases h.next _ _ h2 with k2 | k2 <;>
          rcases h.next _ _ h3 with k3 | k3 <;> omega
  · have hex : ∃ w, g.IsNode w ∧ level w = l := by
      by_cases hl : l = level v
      · exact ⟨v, hv, hl.symm⟩
      · obtain ⟨w, w', _, h3, h4, _⟩ := paths_climb h hr l h1 (by omega)
        exact ⟨w, (h.ends _ _ h3).1, h4⟩
    obtain ⟨w, h3, h4⟩ := hex
    exact ⟨w, ⟨h3, h4⟩, fun w' h5 => h.one _ _ h5.1 h3 (h5.2.trans h4.symm)⟩
  · obtain ⟨x, x', _, h4, h5, h6⟩ := paths_climb h hr (level w) h1 (by omega)
    rw [h.one w x hw (h.ends _ _ h4).1 h5.symm, h.one w' x' hw' (h.ends _ _ h4).2 (by omega)]
    exact h4

section cubical
variable {R : Type} [Field R] [LinearOrder R] [IsStrictOrderedRing R] [FloorRing R] {m : ℕ}

/-- **C132 (cubical covers of a line).** With `CubicalCover` of either algorithm and `TrivialClustering`,
if one column of the lens is not constant and `overlap_frac` is at most one half, the graph consists of
paths, lined up by the number of the interval. The rows of a node are those in its interval. -/
theorem C132_cubical (dflt : ℕ → R) (c : CubicalCover m R) (p : R) (H : CubOK dflt m c.params p)
    (hp : p ≤ 1 / 2) (ha : c.algorithm = "proximity" ∨ c.algorithm = "standard") (ρ : ℕ → ℕ)
    (X : List S) (y : List (Fin m → R)) (hlen : X.length = y.length) {lo hi : Fin m → R}
    (hb : IsBounds y lo hi) (hy : y ≠ []) (k : Fin m) (hk : ∀ i, Spread lo hi i ↔ i = k) :
    ∃ g level, mapperGraph X y (c.apply dflt ρ) (fun _ => trivialClustering) = .ok g ∧ IsPaths g level ∧
      ∀ u, g.IsNode u → 0 ≤ level u ∧ level u < c.params.nIntervals ∧
        ∀ i yi, y[i]? = some yi →
          (g.HasRow u i ↔ InBox (lo k) (hi k) c.params.nIntervals p (level u) (yi k)) := by
  obtain ⟨cells, charts, h1, h2, h3, h4⟩ := cubical_cells dflt c p H ha ρ y hb hy
  have hw : WellFormedCharts X.length charts := hlen ▸ wellFormed_of_forall₂ h4
  obtain ⟨g, eg, hn⟩ := C75_nerve X y (c.apply dflt ρ) charts h1 hw
  obtain ⟨ho, hrow⟩ := nerve_over h1 hw eg hn
  have hsk := (hk k).mpr rfl
  have node : ∀ u, g.IsNode u → ∃ q, ∃ hq : q < cells.length, u = q ∧
      ∀ i yi, y[i]? = some yi → (g.HasRow u i ↔ InHypercube lo hi c.params.nIntervals p cells[q] yi) := by
    intro u hu
    obtain ⟨q, hq, rfl⟩ := (hn.node u).mp hu
    refine ⟨q, h4.length_eq ▸ hq, rfl, fun i yi hyi => ?_⟩
    obtain ⟨h8, _⟩ := h4.get (h4.length_eq ▸ hq) hq
    rw [hrow _ (charts.get ⟨q, hq⟩) hu (by simp [hq]), h8.2 i]
    constructor
    · rintro ⟨z, hz, hz1⟩
      rw [hyi] at hz; cases hz
      exact hz1
    · exact fun h => ⟨yi, hyi, h⟩
  let level : ℤ → ℤ := fun u => (cells[u.toNat]?).elim 0 fun cell => cell k
  have hlev : ∀ q (hq : q < cells.length), level q = cells[q] k := by
    intro q hq
    simp only [level, Int.toNat_natCast, List.getElem?_eq_getElem hq, Option.elim_some]
  have hcell : ∀ q (hq : q < cells.length) q' (hq' : q' < cells.length), cells[q] k = cells[q'] k → q = q' := by
    intro q hq q' hq' he
    suffices h : cells[q] = cells[q'] from (List.Nodup.getElem_inj_iff h2).mp h
    obtain ⟨x, _, hx⟩ := h3 _ (List.getElem_mem hq)
    obtain ⟨x', _, hx'⟩ := h3 _ (List.getElem_mem hq')
    funext i
    by_cases hi' : i = k
    · rw [hi']; exact he
    · rw [(hx i).2 fun hc => hi' ((hk i).mp hc), (hx' i).2 fun hc => hi' ((hk i).mp hc)]
  refine ⟨g, level, eg, ⟨fun u v h => ⟨(ho.edge u v h).1, (ho.edge u v h).2.1⟩, fun u v hu hv he => ?_,
    fun u v h => ?_⟩, fun u hu => ?_⟩
  · obtain ⟨q, hq, rfl, _⟩ := node u hu
    obtain ⟨q', hq', rfl, _⟩ := node v hv
    rw [hlev q hq, hlev q' hq'] at he
    rw [hcell q hq q' hq' he]
  · obtain ⟨hu, hv, hne, i, hi1, hi2⟩ := ho.edge u v h
    obtain ⟨ids, h6, h7⟩ := ho.rows u hu
    have hil : i < y.length := hlen ▸ (hw ids (List.mem_of_getElem? h6)).2.2 i (h7 i hi1)
    have hyi := List.getElem?_eq_getElem hil
    obtain ⟨q, hq, rfl, h8⟩ := node u hu
    obtain ⟨q', hq', rfl, h8'⟩ := node v hv
    have h9 := cells_near H.intervals H.lt_one ((h8 i _ hyi).mp hi1) ((h8' i _ hyi).mp hi2) hsk
    rw [C113_half H.pos hp, abs_lt] at h9
    rw [hlev q hq, hlev q' hq']
    have : cells[q] k ≠ cells[q'] k := fun he => hne (by rw [hcell q hq q' hq' he])
    omega
  · obtain ⟨q, hq, rfl, h8⟩ := node u hu
    obtain ⟨x, _, hx⟩ := h3 _ (List.getElem_mem hq)
    rw [hlev q hq]
    have := (hx k).1 hsk
    refine ⟨this.1, this.2.1, fun i yi hyi => (h8 i yi hyi).trans ⟨fun h => h k hsk, fun h j hj => ?_⟩⟩
    rw [(hk j).mp hj]
    exact h

end cubical

section ball
variable {R : Type} [Field R] [LinearOrder R] [IsStrictOrderedRing R]

/-- **C132 (balls on a line).** With `BallCover` on points of a line and `TrivialClustering`, the graph
consists of paths, lined up by the centres of the nodes, which are rows. The rows of a node are those
nearer to its centre than the radius. -/
theorem C132_ball (c : BallCover T R) (H : BallOK c.params) (hr : 0 < c.params.radius)
    (pos : T → R) (hpos : ∀ a b, c.params.metric a b = |pos a - pos b|) (ρ : ℕ → ℕ) (X : List S)
    (y : List T) (hlen : X.length = y.length) :
    ∃ g level, ∃ centre : ℤ → R,
      mapperGraph X y (c.apply ρ) (fun _ => trivialClustering) = .ok g ∧ IsPaths g level ∧
      (∀ u v, g.IsNode u → g.IsNode v → (level u < level v ↔ centre u < centre v)) ∧
      ∀ u, g.IsNode u → (∃ x ∈ y, centre u = pos x) ∧
        ∀ i yi, y[i]? = some yi → (g.HasRow u i ↔ |centre u - pos yi| < c.params.radius) := by
  obtain ⟨charts, centres, h1, h2, _, h4, h5, h6⟩ := C18_ball_cover c H hr ρ y
  have hw : WellFormedCharts X.length charts := hlen ▸ h2
  obtain ⟨g, eg, hn⟩ := C75_nerve X y (c.apply ρ) charts h1 hw
  obtain ⟨ho, hrow⟩ := nerve_over h1 hw eg hn
  obtain ⟨level, centre, k1, _, k3, k4⟩ := ball_levels hr hpos h2 h4 h5 h6 ho
  refine ⟨g, level, centre, eg, ⟨fun u v h => ⟨(ho.edge u v h).1, (ho.edge u v h).2.1⟩,
    fun u v hu hv he => ?_, k1⟩, k3, fun u hu => ?_⟩
  · obtain ⟨i, x, e1, e2, e3⟩ := k4 u hu
    obtain ⟨i', x', e1', e2', e3'⟩ := k4 v hv
    have hcc : centre u = centre v := by
      rcases lt_trichotomy (centre u) (centre v) with h | h | h
      · have := (k3 u v hu hv).mpr h; omega
      · exact h
      · have := (k3 v u hv hu).mpr h; omega
    have hii : i = i' := by
      by_contra hne
      have := h6 i (List.mem_of_getElem? e1) i' (List.mem_of_getElem? e1') hne x x' e2 e2'
      rw [hpos, ← e3, ← e3', hcc, sub_self, abs_zero] at this
      exact absurd hr (not_lt.mpr this)
    subst hii
    obtain ⟨q, _, rfl⟩ := (hn.node u).mp hu
    obtain ⟨q', _, rfl⟩ := (hn.node v).mp hv
    simp only [Int.toNat_natCast] at e1 e1'
    obtain ⟨l1, l2⟩ := List.getElem?_eq_some_iff.mp e1
    obtain ⟨l3, l4⟩ := List.getElem?_eq_some_iff.mp e1'
    have hnd : centres.Nodup := h4.imp fun h => h.ne
    rw [(List.Nodup.getElem_inj_iff hnd).mp (l2.trans l4.symm)]
  · obtain ⟨i, x, e1, e2, e3⟩ := k4 u hu
    refine ⟨⟨x, List.mem_of_getElem? e2, e3⟩, fun j yj hj => ?_⟩
    obtain ⟨l1, l2⟩ := List.getElem?_eq_some_iff.mp e1
    have hq : u.toNat < charts.length := h5.length_eq ▸ l1
    obtain ⟨x', hx', h8⟩ := h5.get l1 hq
    rw [List.get_eq_getElem, l2] at hx'
    rw [e2] at hx'; cases hx'
    rw [hrow u (charts.get ⟨_, hq⟩) hu (List.getElem?_eq_getElem hq), h8.2 j, e3]
    simp only [hpos]
    constructor
    · rintro ⟨z, hz, hz1⟩
      rw [hj] at hz; cases hz
      exact hz1
    · exact fun h => ⟨yj, hj, h⟩

end ball

/-! ### Examples -/

/-- The hypotheses are met: values from 0 to 6, three intervals, overlap `1/2`. -/
example : ∃ g level, mapperGraph ([4, 7, 9, 2, 6] : List ℤ) (column [0, 2, 3, 4, 6])
      ((threeOf (1 / 2)).apply (fun _ => 0) fun _ => 0) (fun _ => trivialClustering) = .ok g ∧
      IsPaths g level ∧ NoCycle g := by
  obtain ⟨g, level, h1, h2, _⟩ := C132_cubical (fun _ => 0) (threeOf (1 / 2)) (1 / 2)
    (cubOf_ok 3 (1 / 2) (by decide) (by norm_num) (by norm_num)) (le_refl _) (Or.inr rfl) (fun _ => 0)
    ([4, 7, 9, 2, 6] : List ℤ) (column [0, 2, 3, 4, 6]) rfl
    (column_bounds [0, 2, 3, 4, 6] 0 6 (by simp) (by simp) (by decide +kernel)) (by simp [column]) 0
    (fun i => ⟨fun _ => Subsingleton.elim _ _, fun _ => by norm_num [Spread]⟩)
  exact ⟨g, level, h1, h2, (C132_paths h2).1⟩

/-- That graph is a path of three nodes. -/
example : ∃ g, mapperGraph ([4, 7, 9, 2, 6] : List ℤ) (column [0, 2, 3, 4, 6])
      ((threeOf (1 / 2)).apply (fun _ => 0) fun _ => 0) (fun _ => trivialClustering) = .ok g ∧
      g.adj.items = [(2, [1]), (1, [2, 0]), (0, [1])] := by
  exact graph_of_adj (by decide +kernel)

/-- The hypotheses are met: points of a line with radius 5. -/
example : ∃ g level, mapperGraph ([5, 6, -7, 8] : List ℤ) [20, 24, 28, 32]
      ((ratBall 5 "flat").apply fun _ => 0) (fun _ => trivialClustering) = .ok g ∧ IsPaths g level := by
  obtain ⟨g, level, _, h1, h2, _⟩ := C132_ball (ratBall 5 "flat") (ratBall_ok _ _ (Or.inl rfl))
    (by norm_num [ratBall]) id (fun _ _ => rfl) (fun _ => 0) ([5, 6, -7, 8] : List ℤ)
    [20, 24, 28, 32] rfl
  exact ⟨g, level, h1, h2⟩

/-- One cluster if there is a row 0, else the rows above and below 0. -/
def sides : ClustFn ℤ := fun _ xs =>
  .ok (xs.map fun x => if 0 ∈ xs then 0 else if x < 0 then 1 else 0)

/-- **C132, the clustering matters.** Six rows on a circle, seen from the side, with three intervals and
overlap `1/2`: if the middle interval falls into two clusters, the graph is a cycle of four nodes. -/
theorem C132_clustering_violation : ∃ g, mapperGraph ([0, 1, -1, 1, -1, 0] : List ℤ)
      (column [0, 2, 2, 4, 4, 6]) ((threeOf (1 / 2)).apply (fun _ => 0) fun _ => 0) sides = .ok g ∧
    ¬ NoCycle g := by
  obtain ⟨g, h1, h2⟩ := graph_of_adj (r := mapperGraph ([0, 1, -1, 1, -1, 0] : List ℤ)
      (column [0, 2, 2, 4, 4, 6]) ((threeOf (1 / 2)).apply (fun _ => 0) fun _ => 0) sides)
    (l := [(3, [1, 2]), (1, [3, 0]), (2, [3, 0]), (0, [1, 2])]) (by decide +kernel)
  exact ⟨g, h1, fun h => by
    obtain ⟨i, hi⟩ := h 1 ![0, 1, 3, 2] (by decide)
    refine hi ?_
    fin_cases i <;> exact adj_of_items h2 (by decide +kernel)⟩

end Verif

import Verif.Proof.LevelsFloat
import Verif.Props.Paths

/-!
# C133: graphs over a line with floating-point numbers

What C131 and C132 say of cubical covers with exact numbers, for the numbers of the machine. `MachineLaws`,
`columnWidth`, `gridCoordinate` and `ErrorBound` are in `Verif.Spec.CubicalFloat`.
-/

set_option autoImplicit false
set_option linter.unusedSectionVars false

namespace Verif

section
variable {S R K : Type} [Machine R] [Field K] [LinearOrder K] [IsStrictOrderedRing K] {m : ℕ}
  {val : R → K} {w : K} {maxInt : ℤ}

/-- **C133 (cells).** With rounded arithmetic of relative error `w`, both cubical covers and any
clustering, let `overlap_frac` exceed the rounding errors, and be below one half by more than them. Then
every node has a cell of the grid; the exact coordinates of its rows are nearer to the middle of the cell
than one interval. Joined nodes have different cells, which are neighbours (or the same) in each column.
Missing from the full statement, which has any overlap fraction up to one half: the margins; the upper one
is needed (`C133_triangle_violation`). -/
theorem C133_cubical_partial (hv : MachineLaws val w maxInt) (dflt : ℕ → R) (c : CubCover m R)
    (ρ : ℕ → ℕ) (X : List S) (y : List (Fin m → R)) (hlen : X.length = y.length) (hy : y ≠ [])
    (hm : 0 < m) (p : R) (H : FloatCubOK val maxInt dflt m c.params p) (lo hi : Fin m → R)
    (hb : IsBounds y lo hi) (E : K) (hE : ErrorBound val w c.params.nIntervals lo hi E)
    (hpE : 48 * E + 6 * w < val p) (hpE' : val p + 19 * E + 8 * w ≤ 1 / 2)
    (cover : CoverFn (Fin m → R)) (hcov : cover = c.machProximity dflt ρ ∨ cover = c.machStandard dflt ρ)
    (clust : ClustFn S) (hs : ∀ k xs, ∃ lbls, clust k xs = .ok lbls) :
    ∃ g, ∃ cell : ℤ → Fin m → ℤ, mapperGraph X y cover clust = .ok g ∧
      (∀ u, g.IsNode u → (∀ k, 0 ≤ cell u k ∧ cell u k < c.params.nIntervals) ∧
        ∀ i yi, g.HasRow u i → y[i]? = some yi → ∀ k,
          |gridCoordinate val c.params.nIntervals (lo k)
            (columnWidth c.params.nIntervals (lo k) (hi k)) (yi k) - (cell u k + 1 / 2)| < 1) ∧
      ∀ u v, g.Adj u v → g.IsNode u ∧ g.IsNode v ∧ cell u ≠ cell v ∧ ∀ k, |cell u k - cell v k| ≤ 1 := by
  obtain ⟨cells, charts, h1, h2, h3⟩ := mach_cells hv dflt c ρ y hy hm p H hb hE hpE hpE' cover hcov
  have hat : ∀ {q} (hq : q < cells.length) (hq' : q < charts.length), _ := fun hq hq' => h3.get hq hq'
  have hgood : GoodCharts X.length charts := by
    intro ids hids
    obtain ⟨q, hq, rfl⟩ := List.mem_iff_getElem.mp hids
    obtain ⟨_, e1, _, e2⟩ := hat (h3.length_eq ▸ hq) hq
    refine ⟨e1, fun j hj => ?_⟩
    obtain ⟨z, hz, _⟩ := e2 j hj
    exact hlen ▸ (List.getElem?_eq_some_iff.mp hz).1
  obtain ⟨g, chart, eg, hg⟩ := overCharts X y cover clust charts h1 hgood (fun k ids h => by
      obtain ⟨l, hl⟩ := hs k (pointsOf X ids)
      exact ⟨l, h, hl⟩)
  have node : ∀ u, g.IsNode u → ∃ hq : chart u < cells.length,
      (∀ k, 0 ≤ cells[chart u] k ∧ cells[chart u] k < c.params.nIntervals) ∧
      ∀ i, g.HasRow u i → ∃ yi, y[i]? = some yi ∧ ∀ k,
        |gridCoordinate val c.params.nIntervals (lo k)
          (columnWidth c.params.nIntervals (lo k) (hi k)) (yi k) - (cells[chart u] k + 1 / 2)| < 1 := by
    intro u hu
    obtain ⟨ids, h5, h6⟩ := hg.rows u hu
    obtain ⟨hq, h7⟩ := List.getElem?_eq_some_iff.mp h5
    have hq' : chart u < cells.length := h3.length_eq ▸ hq
    obtain ⟨e1, _, _, e2⟩ := hat hq' hq
    refine ⟨hq', e1, fun i hi => e2 i ?_⟩
    rw [List.get_eq_getElem, h7]
    exact h6 i hi
  refine ⟨g, fun u => (cells[chart u]?).getD fun _ => 0, eg, fun u hu => ?_, fun u v h => ?_⟩
  · obtain ⟨hq, e1, e2⟩ := node u hu
    simp only [List.getElem?_eq_getElem hq, Option.getD_some]
    refine ⟨e1, fun i yi hi hyi => ?_⟩
    obtain ⟨z, hz, hz1⟩ := e2 i hi
    rw [hyi] at hz; cases hz
    exact hz1
  · obtain ⟨hu, hv', hne, i, hi1, hi2⟩ := hg.edge u v h
    obtain ⟨hq, _, e1⟩ := node u hu
    obtain ⟨hq', _, e2⟩ := node v hv'
    simp only [List.getElem?_eq_getElem hq, List.getElem?_eq_getElem hq', Option.getD_some]
    refine ⟨hu, hv', fun h => hne ((List.Nodup.getElem_inj_iff h2).mp h), fun k => ?_⟩
    obtain ⟨z, hz, hz1⟩ := e1 i hi1
    obtain ⟨z', hz', hz2⟩ := e2 i hi2
    rw [hz] at hz'; cases hz'
    exact cells_next (hz1 k) (hz2 k)

/-- **C133 (levels).** Under the same conditions, if the lens has one column, edges lead from an interval
to the next one, up or down: there are no triangles (`C131_levels`). -/
theorem C133_line_partial (hv : MachineLaws val w maxInt) (dflt : ℕ → R) (c : CubCover 1 R)
    (ρ : ℕ → ℕ) (X : List S) (y : List (Fin 1 → R)) (hlen : X.length = y.length) (hy : y ≠ [])
    (p : R) (H : FloatCubOK val maxInt dflt 1 c.params p) (lo hi : Fin 1 → R)
    (hb : IsBounds y lo hi) (E : K) (hE : ErrorBound val w c.params.nIntervals lo hi E)
    (hpE : 48 * E + 6 * w < val p) (hpE' : val p + 19 * E + 8 * w ≤ 1 / 2)
    (cover : CoverFn (Fin 1 → R)) (hcov : cover = c.machProximity dflt ρ ∨ cover = c.machStandard dflt ρ)
    (clust : ClustFn S) (hs : ∀ k xs, ∃ lbls, clust k xs = .ok lbls) :
    ∃ g level, mapperGraph X y cover clust = .ok g ∧ NextLevels g level ∧
      ∀ u, g.IsNode u → 0 ≤ level u ∧ level u < c.params.nIntervals ∧
        ∀ i yi, g.HasRow u i → y[i]? = some yi →
          |gridCoordinate val c.params.nIntervals (lo 0)
            (columnWidth c.params.nIntervals (lo 0) (hi 0)) (yi 0) - (level u + 1 / 2)| < 1 := by
  obtain ⟨g, cell, eg, h1, h2⟩ := C133_cubical_partial hv dflt c ρ X y hlen hy one_pos p H lo hi hb E hE
    hpE hpE' cover hcov clust hs
  refine ⟨g, fun u => cell u 0, eg, fun u v h => ?_, fun u hu => ?_⟩
  · obtain ⟨_, _, hne, h3⟩ := h2 u v h
    have h4 : cell u 0 ≠ cell v 0 := fun he => hne (funext fun k => by rw [Subsingleton.elim k 0]; exact he)
    have h5 := abs_le.mp (h3 0)
    simp only
    omega
  · obtain ⟨h3, h4⟩ := h1 u hu
    exact ⟨(h3 0).1, (h3 0).2, fun i yi hi hyi => h4 i yi hi hyi 0⟩

/-- **C133 (paths).** Under the same conditions, if the lens has one column, with `TrivialClustering` the
graph consists of paths: there are no cycles, and nodes have at most two neighbours (`C132_paths`). -/
theorem C133_paths_partial (hv : MachineLaws val w maxInt) (dflt : ℕ → R) (c : CubCover 1 R)
    (ρ : ℕ → ℕ) (X : List S) (y : List (Fin 1 → R)) (hlen : X.length = y.length) (hy : y ≠ [])
    (p : R) (H : FloatCubOK val maxInt dflt 1 c.params p) (lo hi : Fin 1 → R)
    (hb : IsBounds y lo hi) (E : K) (hE : ErrorBound val w c.params.nIntervals lo hi E)
    (hpE : 48 * E + 6 * w < val p) (hpE' : val p + 19 * E + 8 * w ≤ 1 / 2)
    (cover : CoverFn (Fin 1 → R)) (hcov : cover = c.machProximity dflt ρ ∨ cover = c.machStandard dflt ρ) :
    ∃ g level, mapperGraph X y cover (fun _ => trivialClustering) = .ok g ∧ IsPaths g level ∧
      ∀ u, g.IsNode u → 0 ≤ level u ∧ level u < c.params.nIntervals := by
  obtain ⟨cells, charts, h1, h2, h3⟩ := mach_cells hv dflt c ρ y hy one_pos p H hb hE hpE hpE' cover hcov
  have hw : WellFormedCharts X.length charts := by
    intro ids hids
    obtain ⟨q, hq, rfl⟩ := List.mem_iff_getElem.mp hids
    obtain ⟨_, e1, e0, e2⟩ := h3.get (h3.length_eq ▸ hq) hq
    refine ⟨e0, e1, fun j hj => ?_⟩
    obtain ⟨z, hz, _⟩ := e2 j hj
    exact hlen ▸ (List.getElem?_eq_some_iff.mp hz).1
  obtain ⟨g, eg, hn⟩ := C75_nerve X y cover charts h1 hw
  obtain ⟨ho, hrow⟩ := nerve_over h1 hw eg hn
  let level : ℤ → ℤ := fun u => (cells[u.toNat]?).elim 0 fun cell => cell 0
  have hlev : ∀ q (hq : q < cells.length), level q = cells[q] 0 := by
    intro q hq
    simp only [level, Int.toNat_natCast, List.getElem?_eq_getElem hq, Option.elim_some]
  have node : ∀ u, g.IsNode u → ∃ q, ∃ hq : q < cells.length, u = q ∧
      (0 ≤ cells[q] 0 ∧ cells[q] 0 < c.params.nIntervals) ∧
      ∀ i, g.HasRow u i → ∃ yi, y[i]? = some yi ∧
        |gridCoordinate val c.params.nIntervals (lo 0)
          (columnWidth c.params.nIntervals (lo 0) (hi 0)) (yi 0) - (cells[q] 0 + 1 / 2)| < 1 := by
    intro u hu
    obtain ⟨q, hq, rfl⟩ := (hn.node u).mp hu
    obtain ⟨e1, _, _, e2⟩ := h3.get (h3.length_eq ▸ hq) hq
    refine ⟨q, h3.length_eq ▸ hq, rfl, e1 0, fun i hi => ?_⟩
    obtain ⟨z, hz, hz1⟩ := e2 i ((hrow _ (charts.get ⟨q, hq⟩) hu (by simp [hq]) i).mp hi)
    exact ⟨z, hz, hz1 0⟩
  have hcell : ∀ q (hq : q < cells.length) q' (hq' : q' < cells.length), cells[q] 0 = cells[q'] 0 → q = q' := by
    intro q hq q' hq' he
    suffices h : cells[q] = cells[q'] from (List.Nodup.getElem_inj_iff h2).mp h
    funext k
    rw [Subsingleton.elim k 0]
    exact he
  refine ⟨g, level, eg, ⟨fun u v h => ⟨(ho.edge u v h).1, (ho.edge u v h).2.1⟩, fun u v hu hv' he => ?_,
    fun u v h => ?_⟩, fun u hu => ?_⟩
  · obtain ⟨q, hq, rfl, _⟩ := node u hu
    obtain ⟨q', hq', rfl, _⟩ := node v hv'
    rw [hlev q hq, hlev q' hq'] at he
    rw [hcell q hq q' hq' he]
  · obtain ⟨hu, hv', hne, i, hi1, hi2⟩ := ho.edge u v h
    obtain ⟨q, hq, rfl, _, e1⟩ := node u hu
    obtain ⟨q', hq', rfl, _, e2⟩ := node v hv'
    obtain ⟨z, hz, hz1⟩ := e1 i hi1
    obtain ⟨z', hz', hz2⟩ := e2 i hi2
    rw [hz] at hz'; cases hz'
    have h5 := abs_le.mp (cells_next hz1 hz2)
    rw [hlev q hq, hlev q' hq']
    have : cells[q] 0 ≠ cells[q'] 0 := fun he => hne (by rw [hcell q hq q' hq' he])
    omega
  · obtain ⟨q, hq, rfl, h4, _⟩ := node u hu
    rw [hlev q hq]
    exact h4

end

/-! ### Examples -/

/-- The hypotheses are met, in double precision: the rows `0.1`, `0.2`, `0.5`, `0.9`, two intervals,
overlap fraction `1/4`. -/
example : ∃ g level, mapperGraph ([4, 7, 9, 2] : List ℤ) (doubles [1 / 10, 1 / 5, 1 / 2, 9 / 10])
      (quarterCover.machStandard (fun _ => Bin.of 52 (1 / 3)) fun n => n) parity = .ok g ∧
      NextLevels g level := by
  obtain ⟨g, level, h1, h2, _⟩ := C133_line_partial (bin_laws 52 (by norm_num))
    (fun _ => Bin.of 52 (1 / 3)) quarterCover (fun n => n) ([4, 7, 9, 2] : List ℤ)
    (doubles [1 / 10, 1 / 5, 1 / 2, 9 / 10]) rfl (by simp [doubles]) (Bin.of 52 (1 / 4))
    ⟨rfl, by decide +kernel, by decide +kernel, by decide, by decide, Or.inl rfl, by decide⟩
    (fun _ => Bin.of 52 (1 / 10)) (fun _ => Bin.of 52 (9 / 10)) (by
      intro i
      refine ⟨⟨_, List.mem_map.mpr ⟨1 / 10, by simp, rfl⟩, rfl⟩,
        ⟨_, List.mem_map.mpr ⟨9 / 10, by simp, rfl⟩, rfl⟩, ?_⟩
      intro x hx
      obtain ⟨q, hq, rfl⟩ := List.mem_map.mp hx
      simp only [List.mem_cons, List.not_mem_nil, or_false] at hq
      rcases hq with rfl | rfl | rfl | rfl <;> (revert i; decide +kernel))
    (1 / 2 ^ 40) (by
      intro i
      revert i
      unfold columnWidth
      decide +kernel) (by decide +kernel) (by decide +kernel) _ (Or.inr rfl) parity (fun _ _ => ⟨_, rfl⟩)
  exact ⟨g, level, h1, h2⟩

/-- Three intervals with overlap fraction `1/2`, in double precision. -/
def halfCover : CubCover 1 (Bin 52) :=
  ⟨⟨3, some (Bin.of 52 (1 / 2)), "flat", 1, none, "disabled"⟩, none⟩

/-- **C133 (negation of the full statement).** The rows `38`, `41.625` and `45.25` in double precision,
three intervals and overlap fraction `1/2`: the middle row is half way between the outer intervals,
and outside both. As the computed middles of these intervals are off, it is put into both,
and the graph is a triangle. -/
theorem C133_triangle_violation :
    FloatCubOK (fun x : Bin 52 => x.1) (2 ^ 53) (fun _ => Bin.of 52 (1 / 3)) 1 halfCover.params
      (Bin.of 52 (1 / 2)) ∧
    ∃ g, mapperGraph ([0, 1, 2] : List ℤ) (doubles [38, 333 / 8, 181 / 4])
      (halfCover.machStandard (fun _ => Bin.of 52 (1 / 3)) fun n => n) (fun _ => trivialClustering) = .ok g ∧
    g.Adj 0 1 ∧ g.Adj 1 2 ∧ g.Adj 2 0 := by
  refine ⟨⟨rfl, by decide +kernel, by decide +kernel, by decide, by decide, Or.inl rfl, by decide⟩, ?_⟩
  obtain ⟨g, h1, h2⟩ := graph_of_adj (r := mapperGraph ([0, 1, 2] : List ℤ)
      (doubles [38, 333 / 8, 181 / 4])
      (halfCover.machStandard (fun _ => Bin.of 52 (1 / 3)) fun n => n) (fun _ => trivialClustering))
    (l := [(2, [0, 1]), (0, [1, 2]), (1, [0, 2])]) (by decide +kernel)
  exact ⟨g, h1, adj_of_items h2 (by decide +kernel), adj_of_items h2 (by decide +kernel),
    adj_of_items h2 (by decide +kernel)⟩

end Verif

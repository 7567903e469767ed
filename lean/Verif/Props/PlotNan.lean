import Verif.Proof.PlotNan
import Verif.Props.Plot

/-!
# C91: nodes without a colour

With the default aggregation the colour of a node is the mean of the values of its points that are
not missing, and is itself missing exactly if all of them are. The range of colours of pyvis is
that of the nodes that have one; Plotly and Matplotlib have this range only if the first node of
the graph has a colour: otherwise both ends of the range are missing, whatever the colours of the
other nodes. In pyvis a node without a colour looks like the node with the greatest colour.
-/

set_option autoImplicit false
set_option linter.unusedSectionVars false

namespace Verif

variable {K : Type} [Field K] [LinearOrder K] [IsStrictOrderedRing K]

/-- C91: the colours of the nodes, in the three backends. -/
theorem C91_colors (g : NxGraph) (ids : ℤ → List ℕ) (colors : List (Option K))
    (hg : Valued g ids colors) :
    ∃ val, MeanColors g ids colors val ∧
      (∃ r, plotlyNan g colors = .ok r ∧ r.color = g.nodes.keys.map val) ∧
      (∃ r, matplotlibNan g colors = .ok r ∧ r.color = g.nodes.keys.map val) ∧
      ∃ vs lo hi, pyvisNan g colors = .ok (vs, lo, hi) ∧ vs.map PvNan.node = g.nodes.keys ∧
        vs.map PvNan.color = g.nodes.keys.map val := by
  obtain ⟨d, val, h1, h2, h3, h4⟩ := aggregate_nan hg
  refine ⟨val, h4, ⟨_, plotlyNan_eq hg h4, rfl⟩, ⟨_, matplotlibNan_eq hg h4, rfl⟩, _, _, _,
    pyvisNan_eq hg h4, ?_, ?_⟩
  · rw [List.map_map]; exact List.map_id _
  · rw [List.map_map]; rfl

/-- C91: the range of Plotly and of Matplotlib, if the first node has a colour. Missing: the range
if it has none, for which see `C91_first_violation`. -/
theorem C91_range_partial (g : NxGraph) (ids : ℤ → List ℕ) (colors : List (Option K))
    (hg : Valued g ids colors) (val : ℤ → Option K) (hv : MeanColors g ids colors val)
    (n : ℤ) (hn : g.nodes.keys.head? = some n) (v : K) (hc : val n = some v) :
    ∃ lo hi, IsLeast (presentColors g val) lo ∧ IsGreatest (presentColors g val) hi ∧
      (∃ r, plotlyNan g colors = .ok r ∧ r.cmin = some (some lo) ∧ r.cmax = some (some hi)) ∧
      ∃ r, matplotlibNan g colors = .ok r ∧ r.cmin = some (some lo) ∧ r.cmax = some (some hi) := by
  obtain ⟨rest, hk⟩ := List.head?_eq_some_iff.mp hn
  obtain ⟨lo, hi, h1, h2, h3, h4⟩ := (range_nan g val n rest hk).1 ⟨v, hc⟩
  exact ⟨lo, hi, h3, h4, ⟨_, plotlyNan_eq hg hv, h1, h2⟩, ⟨_, matplotlibNan_eq hg hv, h1, h2⟩⟩

/-- C91: if the points of the first node have no value, both ends of the range are missing in
Plotly and in Matplotlib, whatever the other nodes. -/
theorem C91_first_violation (g : NxGraph) (ids : ℤ → List ℕ) (colors : List (Option K))
    (hg : Valued g ids colors) (n : ℤ) (hn : g.nodes.keys.head? = some n)
    (hc : ∀ v ∈ pointsOf colors (ids n), v = none) :
    (∃ r, plotlyNan g colors = .ok r ∧ r.cmin = some none ∧ r.cmax = some none) ∧
      ∃ r, matplotlibNan g colors = .ok r ∧ r.cmin = some none ∧ r.cmax = some none := by
  obtain ⟨d, val, -, -, -, hv⟩ := aggregate_nan hg
  obtain ⟨rest, hk⟩ := List.head?_eq_some_iff.mp hn
  have hnode : g.IsNode n := by rw [NxGraph.IsNode, hk]; simp
  obtain ⟨h1, h2⟩ := (range_nan g val n rest hk).2 ((hv n hnode).1.mpr hc)
  exact ⟨⟨_, plotlyNan_eq hg hv, h1, h2⟩, ⟨_, matplotlibNan_eq hg hv, h1, h2⟩⟩

/-- C91: the range of pyvis is that of the nodes that have a colour. These have the position on
the colour scale that the range gives them; the other nodes have the position of the greatest
colour, if two colours differ, and otherwise that of the only colour there is. -/
theorem C91_pyvis (g : NxGraph) (ids : ℤ → List ℕ) (colors : List (Option K))
    (hg : Valued g ids colors) (val : ℤ → Option K) (hv : MeanColors g ids colors val)
    (lo hi : K) (hlo : IsLeast (presentColors g val) lo)
    (hhi : IsGreatest (presentColors g val) hi) :
    ∃ vs, pyvisNan g colors = .ok (vs, some lo, some hi) ∧ vs.map PvNan.node = g.nodes.keys ∧
      ∀ e ∈ vs, ∃ t, e.position = some t ∧ 0 ≤ t ∧ t ≤ 1 ∧
        (∀ c, val e.node = some c → OnScale lo hi c t) ∧
        (val e.node = none → OnScale lo hi hi t) := by
  have h := pyvisNan_eq hg hv
  rw [scanNan_range hlo hhi] at h
  refine ⟨_, h, ?_, ?_⟩
  · rw [List.map_map]; exact List.map_id _
  · intro e he
    obtain ⟨n, hn, rfl⟩ := List.mem_map.mp he
    have hle : lo ≤ hi := hlo.2 hhi.1
    by_cases heq : hi = lo
    · subst heq
      have hpos : pyClampNan (pvShadeNan (val n) (some hi, some hi)) = some (1 / 2) := by
        rw [pvShadeNan, if_pos rfl]
        exact pyClampNan_some _ (by positivity) (by
          rw [div_le_iff₀ (by norm_num)]; norm_num)
      refine ⟨1 / 2, hpos, by positivity, by rw [div_le_iff₀ (by norm_num)]; norm_num,
        fun c _ => ⟨fun h => absurd h (lt_irrefl _), fun _ => rfl⟩,
        fun _ => ⟨fun h => absurd h (lt_irrefl _), fun _ => rfl⟩⟩
    · have hlt : lo < hi := lt_of_le_of_ne hle (Ne.symm heq)
      have hd : 0 < hi - lo := sub_pos.mpr hlt
      cases hc : val n with
      | none =>
        refine ⟨1, ?_, zero_le_one, le_refl _, fun c h => ?_, fun _ => ⟨fun _ => by ring, fun h =>
          absurd h hlt.ne⟩⟩
        · change pyClampNan (pvShadeNan none _) = _
          rw [pvShadeNan, if_neg heq]; exact pyClampNan_none
        · cases h
      | some c =>
        have hmem : c ∈ presentColors g val := ⟨n, hn, hc⟩
        have h0 : 0 ≤ (c - lo) / (hi - lo) := div_nonneg (sub_nonneg.mpr (hlo.2 hmem)) hd.le
        have h1 : (c - lo) / (hi - lo) ≤ 1 :=
          (div_le_one hd).mpr (sub_le_sub_right (hhi.2 hmem) lo)
        refine ⟨(c - lo) / (hi - lo), ?_, h0, h1, fun c' h => ?_, fun h => ?_⟩
        · change pyClampNan (pvShadeNan (some c) _) = _
          rw [pvShadeNan, if_neg heq]
          exact pyClampNan_some _ h0 h1
        · cases h
          exact ⟨fun _ => div_mul_cancel₀ _ hd.ne', fun h => absurd h hlt.ne⟩
        · cases h

/-- C91: if no node has a colour, the range of pyvis is empty (it is still made of the initial
infinities) and all nodes have the position 1. -/
theorem C91_pyvis_none (g : NxGraph) (ids : ℤ → List ℕ) (colors : List (Option K))
    (hg : Valued g ids colors)
    (hc : ∀ n, g.IsNode n → ∀ v ∈ pointsOf colors (ids n), v = none) :
    ∃ vs, pyvisNan g colors = .ok (vs, none, none) ∧ vs.map PvNan.node = g.nodes.keys ∧
      ∀ e ∈ vs, e.position = some 1 := by
  obtain ⟨d, val, -, -, -, hv⟩ := aggregate_nan hg
  have h := pyvisNan_eq hg hv
  rw [scanNan_all_none _ _ (by
    intro v h
    obtain ⟨n, hn, rfl⟩ := List.mem_map.mp h
    exact (hv n hn).1.mpr (hc n hn))] at h
  refine ⟨_, h, ?_, ?_⟩
  · rw [List.map_map]; exact List.map_id _
  · intro e he
    obtain ⟨n, hn, rfl⟩ := List.mem_map.mp he
    exact pyClampNan_none

/-- C91: with no missing value these ranges and positions are those of `Verif.Model.Plot` and
`Verif.Model.PlotBackends`. -/
theorem C91_agrees (l : List K) (c lo hi : K) (d : PyDict ℤ K) (n : ℤ) (hd : d.get? n = some c) :
    pyMinNan (l.map some) = (minColor l).map some ∧ pyMaxNan (l.map some) = (maxColor l).map some ∧
      scanNan (l.map some) (none, none) = scanRange l (none, none) ∧
      ∃ t, pvColor d (some lo, some hi) n = .ok t ∧
        pyClampNan (pvShadeNan (some c) (some lo, some hi)) = some t := by
  refine ⟨pyMinNan_map l, pyMaxNan_map l, ?_, ?_⟩
  · rw [scanNan_eq, List.filterMap_map]
    have : (id ∘ some : K → Option K) = some := rfl
    rw [this, List.filterMap_some]
  · have hdi : d.getItem n = .ok c := by rw [PyDict.getItem, hd]
    by_cases h : hi = lo
    · subst h
      refine ⟨_, by rw [pvColor, pvShade, if_pos rfl, ok_bind]; rfl, ?_⟩
      rw [pvShadeNan, if_pos rfl, pyClampNan_eq]
    · refine ⟨_, by
        rw [pvColor, pvShade, if_neg (by simpa using h), hdi]; rfl, ?_⟩
      rw [pvShadeNan, if_neg h, Option.map_some, pyClampNan_eq]
      rfl

/-! ## The hypotheses are met -/

/-- The points of the nodes of the graph of `demoPlot`. -/
def demoNanIds (n : ℤ) : List ℕ := if n = 0 then [0, 1] else if n = 1 then [1] else [2]

theorem demoNan_valued (colors : List (Option ℚ)) (h : colors.length = 3) :
    Valued demoPlotGraph demoNanIds colors where
  nodup := by decide
  attr n hn := by
    have : n = 0 ∨ n = 1 ∨ n = 2 := by simpa [NxGraph.IsNode, demoPlotGraph, PyDict.keys] using hn
    rcases this with rfl | rfl | rfl
    · exact ⟨some 2, rfl⟩
    · exact ⟨some 1, rfl⟩
    · exact ⟨some 1, rfl⟩
  ids_lt n hn i hi := by
    rw [h]
    unfold demoNanIds at hi
    split at hi
    · simp at hi; omega
    · split at hi
      · simp at hi; omega
      · simp at hi; omega

/-- The second value is missing: the first node has the colour of its first point, the second has
none, and the range of all three backends is that of the first and the third. -/
example : plotlyNan demoPlotGraph [some (4 : ℚ), none, some 10] =
      .ok ⟨[some 4, none, some 10], some (some 4), some (some 10)⟩ ∧
    pyvisNan demoPlotGraph [some (4 : ℚ), none, some 10] =
      .ok ([⟨0, some 4, some 0⟩, ⟨1, none, some 1⟩, ⟨2, some 10, some 1⟩], some 4, some 10) := by
  decide +kernel

/-- C91: the values of the two points of the first node are missing: the range is missing in Plotly
and in Matplotlib, though the third node has a colour. -/
theorem C91_range_violation : ∃ (g : NxGraph) (ids : ℤ → List ℕ) (colors : List (Option ℚ))
    (val : ℤ → Option ℚ), Valued g ids colors ∧ MeanColors g ids colors val ∧
      10 ∈ presentColors g val ∧ 4 ∈ presentColors g val ∧
      (∃ r, plotlyNan g colors = .ok r ∧ r.cmin = some none ∧ r.cmax = some none) ∧
      ∃ r, matplotlibNan g colors = .ok r ∧ r.cmin = some none ∧ r.cmax = some none := by
  let g : NxGraph := ⟨⟨[(0, ⟨some 1, some [0]⟩), (1, ⟨some 1, some [1]⟩), (2, ⟨some 1, some [2]⟩)]⟩,
    ⟨[(0, []), (1, []), (2, [])]⟩⟩
  let ids : ℤ → List ℕ := fun n => [n.toNat]
  let colors : List (Option ℚ) := [none, some 4, some 10]
  have hcases : ∀ n, g.IsNode n → n = 0 ∨ n = 1 ∨ n = 2 := fun n hn => by
    simpa [g, NxGraph.IsNode, PyDict.keys] using hn
  have hg : Valued g ids colors := by
    refine ⟨by decide, fun n hn => ?_, fun n hn i hi => ?_⟩
    · rcases hcases n hn with rfl | rfl | rfl <;> exact ⟨some 1, rfl⟩
    · rcases hcases n hn with rfl | rfl | rfl <;> simp [ids, colors] at hi ⊢ <;> omega
  have h0 := C91_first_violation g ids colors hg 0 rfl (by decide)
  obtain ⟨val, hv, ⟨r, hr, hrc⟩, -⟩ := C91_colors g ids colors hg
  have e : plotlyNan g colors = .ok ⟨[none, some 4, some 10], some none, some none⟩ := by
    decide +kernel
  rw [e] at hr
  have hr' := Except.ok.inj hr
  have hl : [none, some 4, some 10] = [val 0, val 1, val 2] := by
    rw [← hr'] at hrc; exact hrc
  simp only [List.cons.injEq] at hl
  exact ⟨g, ids, colors, val, hg, hv, ⟨2, by unfold NxGraph.IsNode; decide, hl.2.2.1.symm⟩,
    ⟨1, by unfold NxGraph.IsNode; decide, hl.2.1.symm⟩,
    h0.1, h0.2⟩

/-- C91: in pyvis a node without a colour is drawn like the node with the greatest one. -/
theorem C91_pyvis_violation : ∃ (g : NxGraph) (ids : ℤ → List ℕ) (colors : List (Option ℚ)),
    Valued g ids colors ∧
      pyvisNan g colors = .ok ([⟨0, some 4, some 0⟩, ⟨1, none, some 1⟩, ⟨2, some 10, some 1⟩],
        some 4, some 10) :=
  ⟨demoPlotGraph, demoNanIds, [some 4, none, some 10], demoNan_valued _ rfl, by decide +kernel⟩

/-- A graph and colours that meet the hypotheses of `C91_colors`, `C91_range_partial` and
`C91_pyvis`. -/
example : ∃ val : ℤ → Option ℚ, MeanColors demoPlotGraph demoNanIds [some 4, none, some 10] val ∧
    demoPlotGraph.nodes.keys.head? = some 0 ∧ val 0 = some 4 ∧
    IsLeast (presentColors demoPlotGraph val) 4 ∧
    IsGreatest (presentColors demoPlotGraph val) 10 := by
  have hg := demoNan_valued [some 4, none, some 10] rfl
  obtain ⟨val, hv, ⟨r, hr, hrc⟩, -⟩ := C91_colors demoPlotGraph demoNanIds _ hg
  have e : plotlyNan demoPlotGraph [some (4 : ℚ), none, some 10] =
      .ok ⟨[some 4, none, some 10], some (some 4), some (some 10)⟩ := by decide +kernel
  have hr2 := hr
  rw [e] at hr2
  have hr' := Except.ok.inj hr2
  have hl : [some 4, none, some 10] = [val 0, val 1, val 2] := by
    rw [← hr'] at hrc; exact hrc
  simp only [List.cons.injEq] at hl
  obtain ⟨lo, hi, h1, h2, ⟨r', h3, h4, h5⟩, -⟩ :=
    C91_range_partial demoPlotGraph demoNanIds _ hg val hv 0 rfl 4 hl.1.symm
  rw [e] at h3
  cases h3
  cases h4
  cases h5
  exact ⟨val, hv, rfl, hl.1.symm, h1, h2⟩

end Verif

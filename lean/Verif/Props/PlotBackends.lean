import Verif.Proof.PlotBackends
import Verif.Props.Plot
import Mathlib.Analysis.Real.Sqrt

/-!
# Properties of the PyVis and matplotlib backends: C58, C68
-/

set_option autoImplicit false

namespace Verif

variable {K V : Type}

/-! ### Concrete cases -/

/-- The square root of the real numbers is one of those considered. -/
theorem sqrtLike_real : SqrtLike Real.sqrt where
  nonneg x _ := Real.sqrt_nonneg x
  mono _ _ _ h := Real.sqrt_le_sqrt h
  one := Real.sqrt_one

/-- A square root of rational numbers, rounded down to thousandths. -/
def ratSqrt (x : ℚ) : ℚ := (Nat.sqrt (⌊x * 1000000⌋₊) : ℚ) / 1000

theorem sqrtLike_rat : SqrtLike ratSqrt where
  nonneg x _ := div_nonneg (Nat.cast_nonneg _) (by norm_num)
  mono x y _ h := by
    unfold ratSqrt
    have : Nat.sqrt ⌊x * 1000000⌋₊ ≤ Nat.sqrt ⌊y * 1000000⌋₊ :=
      Nat.sqrt_le_sqrt (Nat.floor_le_floor (by linarith))
    have : (Nat.sqrt ⌊x * 1000000⌋₊ : ℚ) ≤ (Nat.sqrt ⌊y * 1000000⌋₊ : ℚ) := by exact_mod_cast this
    linarith [div_le_div_of_nonneg_right this (show (0 : ℚ) ≤ 1000 by norm_num)]
  one := by decide +kernel

/-- A colour scale of two colours. -/
def demoSample (t : ℚ) : String := if t < 1 / 2 then "low" else "high"

/-- Only one name is known. -/
def demoScale (name : String) : Py (ℚ → String) :=
  if name = "jet" then .ok demoSample else .error .valueError

/-- The colours of the points. -/
def demoValues : List ℚ := [1, 3, 5]

/-- The colours of the nodes. -/
def demoVal (n : ℤ) : ℚ := if n = 0 then 2 else if n = 1 then 3 else 5

theorem demo_colorable : Colorable demoPlot demoIds demoValues demoMean demoVal where
  ids_lt := by
    intro n h
    simp only [NxGraph.IsNode, demoPlot, demoPlotGraph, PyDict.keys, List.map_cons, List.map_nil,
      List.mem_cons, List.not_mem_nil, or_false] at h
    rcases h with rfl | rfl | rfl <;> decide
  agg_eq := by
    intro n h
    simp only [NxGraph.IsNode, demoPlot, demoPlotGraph, PyDict.keys, List.map_cons, List.map_nil,
      List.mem_cons, List.not_mem_nil, or_false] at h
    rcases h with rfl | rfl | rfl <;> decide +kernel

/-! ### C58 -/

section
variable [Field K] [LinearOrder K] [IsStrictOrderedRing K] [FloorRing K] {p : MapperPlot K}
  {size : ℤ → ℕ} {ids : ℤ → List ℕ} {pos : ℤ → List K} {colors : List V} {agg : List V → Py K}
  {val : ℤ → K}

/-- **C58 (the page).** `plot_pyvis` writes one page and no other file. The network has
one vertex for each node of the graph, in order, at its position, with the colour of the
node in its hover text, and one edge for each edge of the graph. The colour bar has the
title and the colour scale asked for, and goes from the least to the greatest colour. -/
theorem C58_page (sqrt : K → K) (scale : String → Py (K → String)) (writable : String → Bool)
    (hp : Plottable p size ids pos) (hc : Colorable p ids colors agg val) (out : String)
    (nodeSize width height : K) (title : Option String) (cmap : String) (sample : K → String)
    (hs : scale cmap = .ok sample) (hw : writable out = true) (files : PyDict String (PvPage K)) :
    ∃ files' page,
      plotPyvis sqrt scale writable p out colors nodeSize agg title width height cmap files =
        (.ok (), files') ∧
      files'.get? out = some page ∧ (∀ f, f ≠ out → files'.get? f = files.get? f) ∧
      page.title = title ∧ page.cmap = cmap ∧
      page.net.nodes.map (·.id) = p.graph.nodes.keys ∧
      (∀ v ∈ page.net.nodes, v.label = v.id ∧ v.title = (val v.id, v.id, v.size) ∧
        ∃ x y, (pos v.id)[0]? = some x ∧ (pos v.id)[1]? = some y ∧ v.x = x * width ∧
          v.y = -(y * height)) ∧
      p.graph.IsEdgeList page.net.edges ∧
      (∀ lo, IsLeast (nodeValues p.graph val) lo → page.cmin = some lo) ∧
      (∀ hi, IsGreatest (nodeValues p.graph val) hi → page.cmax = some hi) := by
  by_cases he : p.graph.nodes.keys = []
  · have hee : p.graph.edges = [] := by
      rcases h : p.graph.edges with _ | ⟨e, es⟩
      · rfl
      · have := (edges_ends hp.graph (u := e.1) (v := e.2) (by rw [h]; exact List.mem_cons_self ..)).1
        rw [NxGraph.IsNode, he] at this
        cases this
    refine ⟨files.set out ⟨{}, cmap, none, none, title⟩, ⟨{}, cmap, none, none, title⟩, ?_, by rw [PyDict.get?_set, if_pos rfl], ?_, rfl, rfl, ?_, ?_, ?_,
      ?_, ?_⟩
    · rw [plotPyvis, computeNet_empty sqrt hp hc nodeSize width height hs he]
      simp only [hw, if_true]
    · intro f hf
      rw [PyDict.get?_set, if_neg hf]
    · exact he.symm
    · intro v hv; cases hv
    · have := edges_isEdgeList hp.graph
      rw [hee] at this
      exact this
    · rintro lo ⟨⟨n, hn, _⟩, _⟩
      rw [NxGraph.IsNode, he] at hn; cases hn
    · rintro lo ⟨⟨n, hn, _⟩, _⟩
      rw [NxGraph.IsNode, he] at hn; cases hn
  · obtain ⟨slo, shi, h1, h2⟩ := exists_range (l := p.graph.nodes.keys.map size) (by simpa using he)
    obtain ⟨clo, chi, h3, h4⟩ := exists_range (l := p.graph.nodes.keys.map val) (by simpa using he)
    rw [nodeValues_eq] at h1 h2 h3 h4
    refine ⟨files.set out ⟨⟨p.graph.nodes.keys.map (vertexOf sqrt sample size pos val slo shi clo chi
        nodeSize width height), p.graph.edges⟩, cmap, some clo, some chi, title⟩, _, ?_,
      by rw [PyDict.get?_set, if_pos rfl], ?_, rfl, rfl, ?_, ?_, ?_, ?_, ?_⟩
    · rw [plotPyvis, computeNet_ok sqrt hp hc nodeSize width height hs h1 h2 h3 h4]
      simp only [hw, if_true]
    · intro f hf
      rw [PyDict.get?_set, if_neg hf]
    · dsimp only
      rw [List.map_map]
      exact List.map_id _
    · intro v hv
      obtain ⟨n, hn, rfl⟩ := List.mem_map.mp hv
      have hl : 2 ≤ (pos n).length := by
        rw [hp.pos_dim n hn]; rcases hp.dim with h | h <;> omega
      refine ⟨rfl, rfl, (pos n)[0], (pos n)[1], ?_, ?_, ?_, ?_⟩
      · exact List.getElem?_eq_getElem _
      · exact List.getElem?_eq_getElem _
      · simp [vertexOf, List.getD_eq_getElem?_getD, show 0 < (pos n).length by omega]
      · simp [vertexOf, List.getD_eq_getElem?_getD, show 1 < (pos n).length by omega]
    · exact edges_isEdgeList hp.graph
    · intro lo h; rw [h3.unique h]
    · intro hi h; rw [h4.unique h]

/-- The vertices of a page that was written. -/
theorem page_nodes {sqrt : K → K} {scale : String → Py (K → String)} {writable : String → Bool}
    (hp : Plottable p size ids pos) (hc : Colorable p ids colors agg val) {out : String}
    {nodeSize width height : K} {title : Option String} {cmap : String} {sample : K → String}
    (hs : scale cmap = .ok sample) {files files' : PyDict String (PvPage K)} {page : PvPage K}
    (h : plotPyvis sqrt scale writable p out colors nodeSize agg title width height cmap files =
      (.ok (), files')) (hpage : files'.get? out = some page) {slo shi : ℕ} {clo chi : K}
    (h1 : IsLeast (nodeValues p.graph size) slo) (h2 : IsGreatest (nodeValues p.graph size) shi)
    (h3 : IsLeast (nodeValues p.graph val) clo) (h4 : IsGreatest (nodeValues p.graph val) chi) :
    page.net.nodes =
      p.graph.nodes.keys.map (vertexOf sqrt sample size pos val slo shi clo chi nodeSize width height) := by
  rw [plotPyvis, computeNet_ok sqrt hp hc nodeSize width height hs h1 h2 h3 h4] at h
  dsimp only at h
  split at h
  · simp only [Prod.mk.injEq, true_and] at h
    rw [← h, PyDict.get?_set, if_pos rfl] at hpage
    cases hpage
    rfl
  · simp only [Prod.mk.injEq, reduceCtorEq, false_and] at h

/-- **C58 (colours).** Each vertex has the colour found on the colour scale at a position
between 0 and 1 that grows with the colour of the node: in proportion from the least
colour to the greatest, or in the middle of the scale if all colours are equal. -/
theorem C58_colors (sqrt : K → K) (scale : String → Py (K → String)) (writable : String → Bool)
    (hp : Plottable p size ids pos) (hc : Colorable p ids colors agg val) (out : String)
    (nodeSize width height : K) (title : Option String) (cmap : String) (sample : K → String)
    (hs : scale cmap = .ok sample) (files files' : PyDict String (PvPage K)) (page : PvPage K)
    (h : plotPyvis sqrt scale writable p out colors nodeSize agg title width height cmap files =
      (.ok (), files')) (hpage : files'.get? out = some page) (lo hi : K)
    (hlo : IsLeast (nodeValues p.graph val) lo) (hhi : IsGreatest (nodeValues p.graph val) hi) :
    ∃ shade : K → K, (∀ v ∈ page.net.nodes, v.color = sample (shade (val v.id)) ∧
        0 ≤ shade (val v.id) ∧ shade (val v.id) ≤ 1 ∧
        (lo < hi → shade (val v.id) * (hi - lo) = val v.id - lo) ∧
        (lo = hi → shade (val v.id) = 1 / 2)) ∧
      Monotone shade := by
  obtain ⟨n0, hn0, _⟩ := hlo.1
  have hne : p.graph.nodes.keys.map size ≠ [] := by
    intro e
    rw [List.map_eq_nil_iff] at e
    rw [NxGraph.IsNode, e] at hn0
    cases hn0
  obtain ⟨slo, shi, h1, h2⟩ := exists_range hne
  rw [nodeValues_eq] at h1 h2
  have hle : lo ≤ hi := hhi.2 hlo.1
  refine ⟨shadeOf lo hi, ?_, ?_⟩
  · intro v hv
    rw [page_nodes hp hc hs h hpage h1 h2 hlo hhi] at hv
    obtain ⟨n, hn, rfl⟩ := List.mem_map.mp hv
    have hn' : p.graph.IsNode n := hn
    have hl : lo ≤ val n := hlo.2 ⟨n, hn', rfl⟩
    have hh : val n ≤ hi := hhi.2 ⟨n, hn', rfl⟩
    refine ⟨rfl, le_max_left _ _, max_le zero_le_one (min_le_left _ _), ?_, ?_⟩
    · intro hlt
      have hpos : 0 < hi - lo := sub_pos.mpr hlt
      have e0 : 0 ≤ (val n - lo) / (hi - lo) := div_nonneg (sub_nonneg.mpr hl) hpos.le
      have e1 : (val n - lo) / (hi - lo) ≤ 1 := by
        rw [div_le_one hpos]; linarith
      show max 0 (min 1 (if hi = lo then 1 / 2 else (val n - lo) / (hi - lo))) * (hi - lo) = val n - lo
      rw [if_neg hlt.ne', min_eq_right e1, max_eq_right e0, div_mul_cancel₀ _ hpos.ne']
    · intro he
      show max 0 (min 1 (if hi = lo then 1 / 2 else (val n - lo) / (hi - lo))) = 1 / 2
      rw [if_pos he.symm, min_eq_right (by norm_num), max_eq_right (by norm_num)]
  · intro a b hab
    refine max_le_max le_rfl (min_le_min le_rfl ?_)
    split
    · exact le_rfl
    · exact div_le_div_of_nonneg_right (by linarith) (sub_nonneg.mpr hle)

/-- **C58 (sizes).** If the nodes differ in size, the marker of a node has the size
`25 * node_size * sqrt(size / largest size)`, rounded. Marker sizes grow with the number
of points; they are at least 0 and at most `25 * node_size` rounded, which is the size of
the marker of a largest node. -/
theorem C58_sizes (sqrt : K → K) (hq : SqrtLike sqrt) (scale : String → Py (K → String))
    (writable : String → Bool) (hp : Plottable p size ids pos) (hc : Colorable p ids colors agg val)
    (out : String) (nodeSize width height : K) (title : Option String) (cmap : String)
    (sample : K → String) (hs : scale cmap = .ok sample) (files files' : PyDict String (PvPage K))
    (page : PvPage K)
    (h : plotPyvis sqrt scale writable p out colors nodeSize agg title width height cmap files =
      (.ok (), files')) (hpage : files'.get? out = some page) (hns : 0 ≤ nodeSize)
    (hdiff : ∃ a b, p.graph.IsNode a ∧ p.graph.IsNode b ∧ size a ≠ size b)
    (m : ℕ) (hm : IsMaxSize p.graph size m) (r : ℤ) (hr : IsRounded (nodeSize * 25) r) :
    ∀ v ∈ page.net.nodes,
      IsRounded (nodeSize * 25 * sqrt ((size v.id : K) / (m : K))) v.size ∧
      0 ≤ v.size ∧ v.size ≤ r ∧ (size v.id = m → v.size = r) ∧
      ∀ w ∈ page.net.nodes, size v.id ≤ size w.id → v.size ≤ w.size := by
  obtain ⟨a, b, ha, hb, hab⟩ := hdiff
  have hne : ∀ {α : Type} (f : ℤ → α), p.graph.nodes.keys.map f ≠ [] := by
    intro α f e
    rw [List.map_eq_nil_iff] at e
    rw [NxGraph.IsNode, e] at ha
    cases ha
  obtain ⟨slo, shi, h1, h2⟩ := exists_range (hne size)
  obtain ⟨clo, chi, h3, h4⟩ := exists_range (hne val)
  rw [nodeValues_eq] at h1 h2 h3 h4
  have hmg : IsGreatest (nodeValues p.graph size) m := by
    obtain ⟨k1, n, k2, k3⟩ := hm
    refine ⟨⟨n, k2, k3⟩, ?_⟩
    rintro x ⟨y, hy, rfl⟩
    exact k1 y hy
  have := h2.unique hmg
  subst this
  have hlt : shi ≠ slo := by
    intro e
    have u1 := h1.2 ⟨a, ha, rfl⟩
    have u2 := h2.2 ⟨a, ha, rfl⟩
    have u3 := h1.2 ⟨b, hb, rfl⟩
    have u4 := h2.2 ⟨b, hb, rfl⟩
    omega
  have hshi : 0 < shi := by
    have := h2.2 h1.1
    omega
  have hK : (0 : K) < (shi : K) := by exact_mod_cast hshi
  have hrd : ∀ s : ℕ, IsRounded (nodeSize * 25 * sqrt ((s : K) / (shi : K)))
      (markOf sqrt slo shi nodeSize s) := by
    intro s
    rw [markOf, if_neg hlt]
    exact pyRound_spec _
  have h25 : 0 ≤ nodeSize * 25 := by positivity
  have hq0 : ∀ s : ℕ, (0 : K) ≤ (s : K) / (shi : K) := fun s => div_nonneg (Nat.cast_nonneg _) hK.le
  intro v hv
  rw [page_nodes hp hc hs h hpage h1 h2 h3 h4] at hv
  obtain ⟨n, hn, rfl⟩ := List.mem_map.mp hv
  have hsn : size n ≤ shi := h2.2 ⟨n, hn, rfl⟩
  refine ⟨hrd _, ?_, ?_, ?_, ?_⟩
  · have := isRounded_int (K := K) 0
    refine this.mono (hrd (size n)) ?_
    rw [Int.cast_zero]
    exact mul_nonneg h25 (hq.nonneg _ (hq0 _))
  · refine (hrd (size n)).mono hr ?_
    have : sqrt ((size n : K) / (shi : K)) ≤ 1 := by
      rw [← hq.one]
      refine hq.mono _ _ (hq0 _) ?_
      rw [div_le_one hK]
      exact_mod_cast hsn
    calc nodeSize * 25 * sqrt ((size n : K) / (shi : K)) ≤ nodeSize * 25 * 1 :=
          mul_le_mul_of_nonneg_left this h25
      _ = nodeSize * 25 := mul_one _
  · intro e
    refine (hrd (size n)).unique ?_
    have e' : size n = shi := e
    rw [e', div_self hK.ne', hq.one, mul_one]
    exact hr
  · intro w hw hle
    rw [page_nodes hp hc hs h hpage h1 h2 h3 h4] at hw
    obtain ⟨n', hn', rfl⟩ := List.mem_map.mp hw
    refine (hrd (size n)).mono (hrd (size n')) (mul_le_mul_of_nonneg_left (hq.mono _ _ (hq0 _) ?_) h25)
    refine div_le_div_of_nonneg_right ?_ hK.le
    exact_mod_cast hle

/-- **C58 (equal sizes).** If all nodes have the same size, every marker has size 25: the
argument `node_size` has no effect. -/
theorem C58_equal_sizes (sqrt : K → K) (scale : String → Py (K → String))
    (writable : String → Bool) (hp : Plottable p size ids pos) (hc : Colorable p ids colors agg val)
    (out : String) (nodeSize width height : K) (title : Option String) (cmap : String)
    (sample : K → String) (hs : scale cmap = .ok sample) (files files' : PyDict String (PvPage K))
    (page : PvPage K)
    (h : plotPyvis sqrt scale writable p out colors nodeSize agg title width height cmap files =
      (.ok (), files')) (hpage : files'.get? out = some page)
    (heq : ∀ a b, p.graph.IsNode a → p.graph.IsNode b → size a = size b) :
    ∀ v ∈ page.net.nodes, v.size = 25 := by
  by_cases he : p.graph.nodes.keys = []
  · rw [plotPyvis, computeNet_empty sqrt hp hc nodeSize width height hs he] at h
    dsimp only at h
    split at h
    · simp only [Prod.mk.injEq, true_and] at h
      rw [← h, PyDict.get?_set, if_pos rfl] at hpage
      cases hpage
      intro v hv; cases hv
    · simp only [Prod.mk.injEq, reduceCtorEq, false_and] at h
  · obtain ⟨slo, shi, h1, h2⟩ := exists_range (l := p.graph.nodes.keys.map size) (by simpa using he)
    obtain ⟨clo, chi, h3, h4⟩ := exists_range (l := p.graph.nodes.keys.map val) (by simpa using he)
    rw [nodeValues_eq] at h1 h2 h3 h4
    obtain ⟨a, ha, ea⟩ := h1.1
    obtain ⟨b, hb, eb⟩ := h2.1
    have : shi = slo := by rw [← ea, ← eb]; exact (heq a b ha hb).symm
    intro v hv
    rw [page_nodes hp hc hs h hpage h1 h2 h3 h4] at hv
    obtain ⟨n, hn, rfl⟩ := List.mem_map.mp hv
    show markOf sqrt slo shi nodeSize (size n) = 25
    rw [markOf, if_pos this]

omit [IsStrictOrderedRing K] in
/-- **C58 (failure).** If `plot_pyvis` raises, for instance because the colour scale is
unknown, an aggregation fails or the file cannot be opened, no file has changed. -/
theorem C58_failure (sqrt : K → K) (scale : String → Py (K → String)) (writable : String → Bool)
    (p : MapperPlot K) (out : String) (colors : List V) (nodeSize : K) (agg : List V → Py K)
    (title : Option String) (width height : K) (cmap : String) (files files' : PyDict String (PvPage K))
    (e : PyErr)
    (h : plotPyvis sqrt scale writable p out colors nodeSize agg title width height cmap files =
      (.error e, files')) : files' = files := by
  unfold plotPyvis at h
  split at h
  · exact (Prod.mk.inj h).2.symm
  · split at h
    · exact absurd (Prod.mk.inj h).1 (by simp)
    · exact (Prod.mk.inj h).2.symm

end

/-- The page of a concrete plot. -/
def demoPage : PvPage ℚ where
  net := {
    nodes := [⟨0, 0, 50, "low", (2, 0, 50), 0, 0⟩, ⟨1, 1, 35, "low", (3, 1, 35), 100, 0⟩,
      ⟨2, 2, 35, "high", (5, 2, 35), 300, -400⟩]
    edges := [(0, 1)] }
  cmap := "jet"
  cmin := some 2
  cmax := some 5
  title := some "values"

/-- The concrete case of **C58**: the hypotheses are met, and this page is written. -/
example : plotPyvis ratSqrt demoScale (fun _ => true) demoPlot "out.html" demoValues 2 demoMean
    (some "values") 100 100 "jet" PyDict.empty = (.ok (), ⟨[("out.html", demoPage)]⟩) := by
  decide +kernel

/-- **C58 (violation: hover text).** The hover text of a vertex gives the size of its
marker as `size`, not the number of points of the node: a node with two points is said to
have size 50. -/
theorem C58_hover_size_violation :
    ∃ (p : MapperPlot ℚ) (size : ℤ → ℕ) (ids : ℤ → List ℕ) (pos : ℤ → List ℚ) (val : ℤ → ℚ)
      (page : PvPage ℚ) (v : PvNode ℚ),
      Plottable p size ids pos ∧ Colorable p ids demoValues demoMean val ∧
      plotPyvis ratSqrt demoScale (fun _ => true) p "out.html" demoValues 2 demoMean
        (some "values") 100 100 "jet" PyDict.empty = (.ok (), ⟨[("out.html", page)]⟩) ∧
      v ∈ page.net.nodes ∧ v.title = (2, 0, 50) ∧ size 0 = 2 ∧ ids 0 = [0, 1] :=
  ⟨demoPlot, demoSize, demoIds, demoPos, demoVal, demoPage, ⟨0, 0, 50, "low", (2, 0, 50), 0, 0⟩,
    demo_plottable, demo_colorable, by decide +kernel, by decide, rfl, rfl, rfl⟩

/-! ### C68 -/

section
variable [Field K] [LinearOrder K] {p : MapperPlot K} {size : ℤ → ℕ} {ids : ℤ → List ℕ}
  {pos : ℤ → List K} {colors : List V} {agg : List V → Py K} {val : ℤ → K}

/-- **C68 (partial: two dimensions, or no edges).** `plot_matplotlib` draws each node once,
in order, with its position, its colour, and the size
`200 * node_size * sqrt(size / largest size)`, and each edge once, from the position of one
end to that of the other. The colours go from the least to the greatest. -/
theorem C68_matplotlib_partial (sqrt : K → K) (known : String → Bool) (hp : Plottable p size ids pos)
    (hc : Colorable p ids colors agg val) (nodeSize width height : K) (title : Option String)
    (cmap : String) (hk : known cmap = true) (h2 : p.dim = 2 ∨ ∀ u v, ¬ p.graph.Adj u v) :
    ∃ f es, plotMatplotlib sqrt known p width height title colors nodeSize agg cmap = .ok f ∧
      f.width = width ∧ f.height = height ∧ f.label = title ∧ f.cmap = cmap ∧
      f.x.length = p.graph.nodes.len ∧ f.y.length = p.graph.nodes.len ∧
      f.c.length = p.graph.nodes.len ∧ f.s.length = p.graph.nodes.len ∧
      (∀ m, IsMaxSize p.graph size m → ∀ (i : ℕ) n, p.graph.nodes.keys[i]? = some n →
        f.x[i]? = (pos n)[0]? ∧ f.y[i]? = (pos n)[1]? ∧ f.c[i]? = some (val n) ∧
        f.s[i]? = some (nodeSize * 200 * sqrt ((size n : K) / (m : K)))) ∧
      p.graph.IsEdgeList es ∧ f.segments = es.map (fun e => (pos e.1, pos e.2)) ∧
      (∀ lo, IsLeast (nodeValues p.graph val) lo → f.vmin = some lo) ∧
      (∀ hi, IsGreatest (nodeValues p.graph val) hi → f.vmax = some hi) := by
  have h2' : p.dim = 2 ∨ p.graph.edges = [] := by
    rcases h2 with h | h
    · exact .inl h
    · right
      rcases he : p.graph.edges with _ | ⟨e, es⟩
      · rfl
      · exact absurd ((edges_isEdgeList hp.graph).sound e.1 e.2 (by rw [he]; exact List.mem_cons_self ..))
          (h _ _)
  have hlen : p.graph.nodes.len = p.graph.nodes.keys.length := by
    simp [PyDict.len, PyDict.keys]
  refine ⟨_, p.graph.edges, plotMatplotlib_ok sqrt hp hc nodeSize width height title hk h2',
    rfl, rfl, rfl, rfl, ?_, ?_, ?_, ?_, ?_, edges_isEdgeList hp.graph, rfl, ?_, ?_⟩
  · simp [hlen]
  · simp [hlen]
  · simp [hlen]
  · simp [hlen]
  · intro m hm i n hi
    have hn : p.graph.IsNode n := List.mem_of_getElem? hi
    have hd := hp.pos_dim n hn
    have hdim : 2 ≤ p.dim := by rcases hp.dim with h | h <;> omega
    have hgd : ∀ j, j < p.dim → (p.graph.nodes.keys.map fun n => (pos n).getD j 0)[i]? = (pos n)[j]? := by
      intro j hj
      rw [List.getElem?_map, hi, Option.map_some, List.getD_eq_getElem?_getD]
      have : j < (pos n).length := by omega
      simp [this]
    refine ⟨hgd 0 (by omega), hgd 1 (by omega), ?_, ?_⟩
    · rw [List.getElem?_map, hi, Option.map_some]
    · simp only [List.getElem?_map, hi, Option.map_some, maxSize_spec hm]
  · intro lo h
    rw [← nodeValues_eq] at h
    exact minColor_eq h
  · intro hi h
    rw [← nodeValues_eq] at h
    exact maxColor_eq h

/-- **C68 (violation: three dimensions).** A plot in three dimensions whose graph has an
edge cannot be drawn with matplotlib: `plot_matplotlib` raises `ValueError`. -/
theorem C68_three_dimensions_violation (sqrt : K → K) (known : String → Bool)
    (hp : Plottable p size ids pos) (nodeSize width height : K) (title : Option String)
    (cmap : String) (h3 : p.dim = 3) (u v : ℤ) (he : p.graph.Adj u v) :
    plotMatplotlib sqrt known p width height title colors nodeSize agg cmap = .error .valueError := by
  have hne : p.graph.edges ≠ [] := by
    intro e
    rcases (edges_isEdgeList hp.graph).complete u v he with h | h <;> (rw [e] at h; cases h)
  rw [plotMatplotlib, mplEdges_error hp (by omega) hne]
  rfl

end

/-- The concrete case of **C68**. -/
example : plotMatplotlib ratSqrt (fun _ => true) demoPlot 100 100 (some "values") demoValues 2 demoMean
    "jet" = .ok ⟨[0, 1, 3], [0, 0, 4], [2, 3, 5], [400, 1414 / 5, 1414 / 5], some 2, some 5, "jet",
      some "values", [([0, 0], [1, 0])], 100, 100⟩ := by
  decide +kernel

/-- In three dimensions the same graph cannot be drawn. -/
example : plotMatplotlib ratSqrt (fun _ => true) demoPlot3 100 100 (some "values") demoValues 2
    demoMean "jet" = .error .valueError := by
  decide +kernel

end Verif

import Verif.Proof.PlotFrame
import Verif.Props.Core

/-!
# Properties of plots: C51, C52, C53, C66, C67
-/

set_option autoImplicit false

namespace Verif

variable {K V : Type}

/-! ### A concrete plot -/

/-- Two nodes sharing a point, and a third one apart. -/
def demoPlotGraph : NxGraph where
  nodes := ⟨[(0, ⟨some 2, some [0, 1]⟩), (1, ⟨some 1, some [1]⟩), (2, ⟨some 1, some [2]⟩)]⟩
  adj := ⟨[(0, [1]), (1, [0]), (2, [])]⟩

/-- Its plot in two dimensions. -/
def demoPlot : MapperPlot ℚ where
  graph := demoPlotGraph
  dim := 2
  positions := ⟨[(0, [0, 0]), (1, [1, 0]), (2, [3, 4])]⟩

/-- Its plot in three dimensions. -/
def demoPlot3 : MapperPlot ℚ where
  graph := demoPlotGraph
  dim := 3
  positions := ⟨[(0, [0, 0, 1]), (1, [1, 0, 1]), (2, [3, 4, 1])]⟩

/-- Colour scales named after themselves; one is not in Plotly's list of names. -/
def demoPalette : Palette ℚ where
  scale name := .ok [(0, name), (1, name)]
  known name := if name = "hidden" then none else some name

/-- The mean. -/
def demoMean (l : List ℚ) : Py ℚ :=
  if l.length = 0 then .error .zeroDivisionError else .ok (l.sum / l.length)

/-- Two columns of colours. -/
def demoColors : Colors ℚ := ⟨[[1, 10], [3, 10], [5, 40]], 2⟩

/-- Arguments of `plot_plotly`. -/
def demoPlotArgs : PlotArgs ℚ ℚ where
  colors := .two demoColors
  nodeSize := some (.many [1, 2, 4])
  title := some (.many ["a", "b"])
  agg := demoMean
  cmap := some (.many ["Jet", "Viridis"])
  width := some 100
  height := none

theorem demoGraph_wellFormed : demoPlotGraph.WellFormed where
  nodup := by decide
  adjKeys := rfl
  nbrs := by
    intro u nb h
    have := PyDict.mem_of_get?_eq_some h
    simp only [demoPlotGraph, List.mem_cons, Prod.mk.injEq, List.not_mem_nil, or_false] at this
    rcases this with ⟨_, rfl⟩ | ⟨_, rfl⟩ | ⟨_, rfl⟩ <;> decide
  symm := by
    rintro u v ⟨nb, h, hv⟩
    have := PyDict.mem_of_get?_eq_some h
    simp only [demoPlotGraph, List.mem_cons, Prod.mk.injEq, List.not_mem_nil, or_false] at this
    rcases this with ⟨rfl, rfl⟩ | ⟨rfl, rfl⟩ | ⟨rfl, rfl⟩
    · rw [List.mem_singleton] at hv; subst hv
      exact ⟨[0], rfl, by decide⟩
    · rw [List.mem_singleton] at hv; subst hv
      exact ⟨[1], rfl, by decide⟩
    · cases hv

/-- The sizes of the nodes of the concrete plot. -/
def demoSize (n : ℤ) : ℕ := if n = 0 then 2 else 1
/-- Their points. -/
def demoIds (n : ℤ) : List ℕ := if n = 0 then [0, 1] else if n = 1 then [1] else [2]
/-- Their positions. -/
def demoPos (n : ℤ) : List ℚ := if n = 0 then [0, 0] else if n = 1 then [1, 0] else [3, 4]

theorem demo_plottable : Plottable demoPlot demoSize demoIds demoPos where
  graph := demoGraph_wellFormed
  dim := .inl rfl
  attr := by
    intro n h
    simp only [NxGraph.IsNode, demoPlot, demoPlotGraph, PyDict.keys, List.map_cons, List.map_nil,
      List.mem_cons, List.not_mem_nil, or_false] at h
    rcases h with rfl | rfl | rfl <;> rfl
  size_pos := by
    intro n _
    rw [demoSize]; split <;> omega
  placed := by
    intro n h
    simp only [NxGraph.IsNode, demoPlot, demoPlotGraph, PyDict.keys, List.map_cons, List.map_nil,
      List.mem_cons, List.not_mem_nil, or_false] at h
    rcases h with rfl | rfl | rfl <;> rfl
  pos_dim := by
    intro n _
    rw [demoPos]; split
    · rfl
    · split <;> rfl

section
variable [Field K] [LinearOrder K] {p : MapperPlot K} {size : ℤ → ℕ} {ids : ℤ → List ℕ}
  {pos : ℤ → List K}

/-! ### C51 -/

/-- **C51 (drawing succeeds).** For a plot whose nodes have sizes, points and positions,
an array of colours with a row for every point, an aggregation that succeeds on the nodes,
a title for every column, at least one size and one colour scale, and colour scales known
to Plotly, `plot_plotly` returns a figure. -/
theorem C51_succeeds (P : Palette K) (hp : Plottable p size ids pos) (A : PlotArgs V K) (c : Colors V)
    (hc : A.colors.IsArray c) (hcol : 0 < c.cols)
    (hids : ∀ n, p.graph.IsNode n → ∀ i ∈ ids n, i < c.rows.length) (val : ℕ → ℤ → K)
    (hv : ∀ k < c.cols, ∀ n, p.graph.IsNode n → A.agg (c.valuesAt k (ids n)) = .ok (val k n))
    (ht : ∃ t, titleOf A.title c.cols 0 = some t) (hs : sizesOf A.nodeSize ≠ [])
    (hm : namesOf A.cmap ≠ []) (hP : ∀ name, ∃ s, P.scale name = .ok s) :
    ∃ f, A.plot P p = .ok f := by
  obtain ⟨hcc, hr⟩ := toColors_array hc
  obtain ⟨titles, htt⟩ := toTitles_ok ht
  obtain ⟨hlen, hget⟩ := toTitles_get htt
  obtain ⟨t, ht⟩ := ht
  obtain ⟨jet, hj⟩ := hP "Jet"
  obtain ⟨name, rest, hn⟩ := List.exists_cons_of_ne_nil hm
  obtain ⟨sc, hsc⟩ := hP name
  have hsz : (sizesOf A.nodeSize).length / 2 < (sizesOf A.nodeSize).length := by
    have := List.length_pos_iff.mpr hs
    omega
  have hpaint := fun k (hk : k < c.cols) => paintOf_ok hp hr hk hids (hv k hk)
  have hmc : ∃ mc, menuCmap P p (namesOf A.cmap) = .ok mc := by
    unfold menuCmap
    dsimp only
    split
    · refine mapPy_exists fun c _ => ?_
      obtain ⟨sc, h⟩ := hP c
      obtain ⟨r, hr⟩ := updateCmap_ok (p := p) h
      exact ⟨(c, r), by simp only [hr, ok_bind, pure_eq_ok]⟩
    · exact ⟨_, rfl⟩
  have hmo : ∃ mo, menuColor p c titles A.agg = .ok mo := by
    unfold menuColor
    split
    · refine mapPy_exists fun i hi => ?_
      have hi := List.mem_range.mp hi
      have hg := getItem_getD (l := titles) "" (show i < titles.length by omega)
      obtain ⟨r, hr⟩ := updateColors_ok (hpaint i hi) hg
      exact ⟨_, by simp only [hg, hr, ok_bind, pure_eq_ok]; rfl⟩
    · exact ⟨_, rfl⟩
  obtain ⟨mc, hmc⟩ := hmc
  obtain ⟨mo, hmo⟩ := hmo
  exact ⟨_, plot_eq_ok.mpr ⟨_, c, titles, _, _, _, t, (sizesOf A.nodeSize)[_], _, sc, mc, mo,
    toCmaps_ok hm, hcc, htt, toNodeSizes_ok hs, canvas_ok hj hp,
    ⟨getItem_ok (by rw [hget, ht]), getItem_lt hsz, hpaint 0 hcol,
      ⟨name, by rw [hn]; rfl, hsc⟩, hmc, hmo⟩, rfl⟩⟩

/-- **C51 (nodes).** In the figure drawn by `plot_plotly` the marker number `i` has the
position, the size, the colour and the hover text of the `i`-th node of the graph: its
size is in proportion to the number of points of the node, its colour is the aggregate of
the first column of colours over the points of the node. There is a marker for every node.
The colour range goes from the least to the greatest colour. -/
theorem C51_nodes (P : Palette K) (hp : Plottable p size ids pos) (A : PlotArgs V K) (c : Colors V)
    (hc : A.colors.IsArray c) (hcol : 0 < c.cols)
    (hids : ∀ n, p.graph.IsNode n → ∀ i ∈ ids n, i < c.rows.length) (val : ℤ → K)
    (hv : ∀ n, p.graph.IsNode n → A.agg (c.valuesAt 0 (ids n)) = .ok (val n))
    (f : Fig K) (hf : A.plot P p = .ok f) :
    ∃ text color, f.nodes.text = some text ∧ f.nodes.color = some color ∧
      f.nodes.x.length = p.graph.nodes.len ∧ f.nodes.y.length = p.graph.nodes.len ∧
      f.nodes.size.length = p.graph.nodes.len ∧ text.length = p.graph.nodes.len ∧
      color.length = p.graph.nodes.len ∧
      (∀ m, IsMaxSize p.graph size m → ∀ (i : ℕ) n, p.graph.nodes.keys[i]? = some n →
        f.nodes.x[i]? = (pos n)[0]? ∧ f.nodes.y[i]? = (pos n)[1]? ∧
        (p.dim = 2 → f.nodes.z = none) ∧
        (p.dim = 3 → ∃ z, f.nodes.z = some z ∧ z.length = p.graph.nodes.len ∧ z[i]? = (pos n)[2]?) ∧
        f.nodes.size[i]? = some ((if p.dim = 3 then 600 else 400) * (size n : K) / (m : K)) ∧
        color[i]? = some (val n) ∧ text[i]? = some ⟨val n, n, size n⟩) ∧
      (∀ n, p.graph.IsNode n → ∃ lo hi, f.nodes.cmin = some lo ∧ f.nodes.cmax = some hi ∧
        lo ≤ val n ∧ val n ≤ hi ∧ (∃ n', p.graph.IsNode n' ∧ val n' = lo) ∧
        ∃ n', p.graph.IsNode n' ∧ val n' = hi) := by
  obtain ⟨cmaps, c', titles, sizes, n0, e0, t, s, pc, sc, mc, mo, a1, a2, a3, a4, ac, ad, rfl⟩ :=
    plot_eq_ok.mp hf
  obtain ⟨hcc, hr⟩ := toColors_array hc
  rw [hcc] at a2
  cases a2
  have hj := ac
  obtain ⟨_, _, jet, _, _, hj, _, _⟩ := hj
  obtain ⟨rfl, rfl⟩ := ac.unique (canvas_ok hj hp)
  have hpaint := paintOf_ok hp hr hcol hids hv
  rw [ad.paint] at hpaint
  cases hpaint
  have hlen : p.graph.nodes.len = p.graph.nodes.keys.length := by
    simp [PyDict.len, PyDict.keys]
  refine ⟨_, _, rfl, rfl, ?_, ?_, ?_, ?_, ?_, ?_, ?_⟩
  · simp [mkFig, hlen]
  · simp [mkFig, hlen]
  · simp [mkFig, hlen]
  · simp [hlen]
  · simp [hlen]
  · intro m hm i n hi
    have hn : p.graph.IsNode n := List.mem_of_getElem? hi
    have hd := hp.pos_dim n hn
    have hgd : ∀ j, j < p.dim → (p.graph.nodes.keys.map fun n => (pos n).getD j 0)[i]? = (pos n)[j]? := by
      intro j hj
      rw [List.getElem?_map, hi, Option.map_some, List.getD_eq_getElem?_getD]
      have : j < (pos n).length := by omega
      simp [this]
    have h2 : 2 ≤ p.dim := by rcases hp.dim with h | h <;> omega
    refine ⟨hgd 0 (by omega), hgd 1 (by omega), ?_, ?_, ?_, ?_, ?_⟩
    · intro h; simp [mkFig, h]
    · intro h
      exact ⟨_, by simp [mkFig, h], by simp [hlen], hgd 2 (by omega)⟩
    · simp only [mkFig, List.getElem?_map, hi, Option.map_some, maxSize_spec hm]
    · rw [List.getElem?_map, hi, Option.map_some]
    · rw [List.getElem?_map, hi, Option.map_some]
  · intro n hn
    have hmin : ∀ (l : List K) (a : K), l.foldl min a ≤ a ∧ (∀ x ∈ l, l.foldl min a ≤ x) ∧
        (l.foldl min a = a ∨ l.foldl min a ∈ l) := by
      intro l
      induction l with
      | nil => intro a; exact ⟨le_refl _, (fun _ h => by cases h), .inl rfl⟩
      | cons b l ih =>
        intro a
        obtain ⟨h1, h2, h3⟩ := ih (min a b)
        rw [List.foldl_cons]
        refine ⟨le_trans h1 (min_le_left a b), ?_, ?_⟩
        · intro x hx
          rcases List.mem_cons.mp hx with rfl | hx
          · exact le_trans h1 (min_le_right a x)
          · exact h2 x hx
        · rcases h3 with h3 | h3
          · rcases min_choice a b with h | h
            · exact .inl (h3.trans h)
            · exact .inr (by rw [h3, h]; exact List.mem_cons_self ..)
          · exact .inr (List.mem_cons_of_mem _ h3)
    have hmax : ∀ (l : List K) (a : K), a ≤ l.foldl max a ∧ (∀ x ∈ l, x ≤ l.foldl max a) ∧
        (l.foldl max a = a ∨ l.foldl max a ∈ l) := by
      intro l
      induction l with
      | nil => intro a; exact ⟨le_refl _, (fun _ h => by cases h), .inl rfl⟩
      | cons b l ih =>
        intro a
        obtain ⟨h1, h2, h3⟩ := ih (max a b)
        rw [List.foldl_cons]
        refine ⟨le_trans (le_max_left a b) h1, ?_, ?_⟩
        · intro x hx
          rcases List.mem_cons.mp hx with rfl | hx
          · exact le_trans (le_max_right a x) h1
          · exact h2 x hx
        · rcases h3 with h3 | h3
          · rcases max_choice a b with h | h
            · exact .inl (h3.trans h)
            · exact .inr (by rw [h3, h]; exact List.mem_cons_self ..)
          · exact .inr (List.mem_cons_of_mem _ h3)
    have hn' : n ∈ p.graph.nodes.keys := hn
    rcases hk : p.graph.nodes.keys with _ | ⟨a, l⟩
    · rw [hk] at hn'; cases hn'
    · obtain ⟨g1, g2, g3⟩ := hmin (l.map val) (val a)
      obtain ⟨k1, k2, k3⟩ := hmax (l.map val) (val a)
      have isn : ∀ x, x ∈ a :: l → p.graph.IsNode x := by
        intro x hx; rw [NxGraph.IsNode, hk]; exact hx
      rw [hk] at hn'
      refine ⟨_, _, rfl, rfl, ?_, ?_, ?_, ?_⟩
      · rcases List.mem_cons.mp hn' with rfl | h
        · exact g1
        · exact g2 _ (List.mem_map_of_mem h)
      · rcases List.mem_cons.mp hn' with rfl | h
        · exact k1
        · exact k2 _ (List.mem_map_of_mem h)
      · rcases g3 with g3 | g3
        · exact ⟨a, isn a (List.mem_cons_self ..), g3.symm⟩
        · obtain ⟨x, hx, e⟩ := List.mem_map.mp g3
          exact ⟨x, isn x (List.mem_cons_of_mem _ hx), e⟩
      · rcases k3 with k3 | k3
        · exact ⟨a, isn a (List.mem_cons_self ..), k3.symm⟩
        · obtain ⟨x, hx, e⟩ := List.mem_map.mp k3
          exact ⟨x, isn x (List.mem_cons_of_mem _ hx), e⟩

/-- **C51 (parameters).** The figure has the requested width and height, the title of the
first column of colours, and the colour scale that is named first; the nodes are drawn with
the middle one of the given sizes, as scaling factor of their diameter: Plotly divides the area
of a marker by `sizeref`, so `sizeref` times the square of the size is one. For the size zero
the divisor is `10 ^ 9`. -/
theorem C51_parameters (P : Palette K) (A : PlotArgs V K) (c : Colors V) (hc : A.colors.IsArray c)
    (f : Fig K) (hf : A.plot P p = .ok f) :
    f.width = A.width ∧ f.height = A.height ∧ titleOf A.title c.cols 0 = some f.nodes.title ∧
      (∃ name, (namesOf A.cmap)[0]? = some name ∧ P.scale name = .ok f.nodes.scale) ∧
      ∃ s, (sizesOf A.nodeSize)[(sizesOf A.nodeSize).length / 2]? = some s ∧
        (s ≠ 0 → f.nodes.sizeref * s ^ 2 = 1) ∧ (s = 0 → f.nodes.sizeref = 10 ^ 9) := by
  obtain ⟨cmaps, c', titles, sizes, n0, e0, t, s, pc, sc, mc, mo, a1, a2, a3, a4, ac, ad, rfl⟩ :=
    plot_eq_ok.mp hf
  obtain ⟨hcc, _⟩ := toColors_array hc
  rw [hcc] at a2
  cases a2
  have hs := toNodeSizes_sizes a4
  have hn := toCmaps_names a1
  subst hs hn
  refine ⟨rfl, rfl, ?_, ?_, s, getItem_eq_ok.mp ad.size, ?_, ?_⟩
  · rw [← (toTitles_get a3).2]
    exact getItem_eq_ok.mp ad.title
  · obtain ⟨name, h1, h2⟩ := ad.scale
    exact ⟨name, getItem_eq_ok.mp h1, h2⟩
  · intro h0
    simp only [mkFig, sizerefOf, if_neg h0]
    rw [← mul_pow, one_div, inv_mul_cancel₀ h0, one_pow]
  · intro h0
    simp only [mkFig, sizerefOf, if_pos h0]
    norm_num

/-- **C51 (edges).** There is a list of the edges of the graph, each once, such that edge
number `k` contributes to the trace of the edges the position of one end, the position of
the other, and a gap; in three dimensions the line goes from the colour of one end to that
of the other. Nothing else is in the trace. -/
theorem C51_edges (P : Palette K) (hp : Plottable p size ids pos) (A : PlotArgs V K) (c : Colors V)
    (hc : A.colors.IsArray c) (hcol : 0 < c.cols)
    (hids : ∀ n, p.graph.IsNode n → ∀ i ∈ ids n, i < c.rows.length) (val : ℤ → K)
    (hv : ∀ n, p.graph.IsNode n → A.agg (c.valuesAt 0 (ids n)) = .ok (val n))
    (f : Fig K) (hf : A.plot P p = .ok f) :
    ∃ es, p.graph.IsEdgeList es ∧ f.edges.x.length = 3 * es.length ∧
      f.edges.y.length = 3 * es.length ∧
      (∀ (k : ℕ) u v, es[k]? = some (u, v) →
        f.edges.x[3 * k]? = some (pos u)[0]? ∧ f.edges.x[3 * k + 1]? = some (pos v)[0]? ∧
        f.edges.x[3 * k + 2]? = some none ∧
        f.edges.y[3 * k]? = some (pos u)[1]? ∧ f.edges.y[3 * k + 1]? = some (pos v)[1]? ∧
        f.edges.y[3 * k + 2]? = some none) ∧
      (p.dim = 2 → f.edges.z = none ∧ f.edges.color = none) ∧
      (p.dim = 3 → ∃ z col, f.edges.z = some z ∧ f.edges.color = some col ∧
        f.edges.cmin = f.nodes.cmin ∧ f.edges.cmax = f.nodes.cmax ∧
        f.edges.scale = some f.nodes.scale ∧ z.length = 3 * es.length ∧ col.length = 3 * es.length ∧
        ∀ (k : ℕ) u v, es[k]? = some (u, v) →
          z[3 * k]? = some (pos u)[2]? ∧ z[3 * k + 1]? = some (pos v)[2]? ∧ z[3 * k + 2]? = some none ∧
          col[3 * k]? = some (val u) ∧ col[3 * k + 1]? = some (val v) ∧
          col[3 * k + 2]? = some (val v)) := by
  obtain ⟨cmaps, c', titles, sizes, n0, e0, t, s, pc, sc, mc, mo, a1, a2, a3, a4, ac, ad, rfl⟩ :=
    plot_eq_ok.mp hf
  obtain ⟨hcc, hr⟩ := toColors_array hc
  rw [hcc] at a2
  cases a2
  have hj := ac
  obtain ⟨_, _, jet, _, _, hj, _, _⟩ := hj
  obtain ⟨rfl, rfl⟩ := ac.unique (canvas_ok hj hp)
  have hpaint := paintOf_ok hp hr hcol hids hv
  rw [ad.paint] at hpaint
  cases hpaint
  have hL := edges_isEdgeList hp.graph
  have hco : ∀ j, j < p.dim → ∀ (k : ℕ) u v, p.graph.edges[k]? = some (u, v) →
      (edgeCoords pos p.graph.edges j)[3 * k]? = some (pos u)[j]? ∧
      (edgeCoords pos p.graph.edges j)[3 * k + 1]? = some (pos v)[j]? ∧
      (edgeCoords pos p.graph.edges j)[3 * k + 2]? = some none := by
    intro j hj k u v he
    obtain ⟨hu, hv⟩ := edges_ends hp.graph (List.mem_of_getElem? he)
    have hu' : j < (pos u).length := by rw [hp.pos_dim u hu]; exact hj
    have hv' : j < (pos v).length := by rw [hp.pos_dim v hv]; exact hj
    obtain ⟨h1, h2, h3⟩ := triples_get (fun e : ℤ × ℤ => some ((pos e.1).getD j 0))
      (fun e => some ((pos e.2).getD j 0)) (fun _ => none) _ k (u, v) he
    refine ⟨h1.trans ?_, h2.trans ?_, h3⟩
    · simp [List.getD_eq_getElem?_getD, hu']
    · simp [List.getD_eq_getElem?_getD, hv']
  have hlen : ∀ j, (edgeCoords pos p.graph.edges j).length = 3 * p.graph.edges.length :=
    fun j => triples_length _ _ _ _
  have h2 : 2 ≤ p.dim := by rcases hp.dim with h | h <;> omega
  have hx : ∀ w h t s (c : Paint K) (sc : Scale K) ui (n0 : NodesTrace K) (e0 : EdgesTrace K),
      (mkFig n0 e0 (decide (p.dim = 3)) w h t s c sc ui).edges.x = e0.x ∧
      (mkFig n0 e0 (decide (p.dim = 3)) w h t s c sc ui).edges.y = e0.y ∧
      (mkFig n0 e0 (decide (p.dim = 3)) w h t s c sc ui).edges.z = e0.z := by
    intro w h t s c sc ui n0 e0
    simp only [mkFig]
    split <;> exact ⟨rfl, rfl, rfl⟩
  refine ⟨p.graph.edges, hL, ?_, ?_, ?_, ?_, ?_⟩
  · rw [(hx ..).1]; exact hlen 0
  · rw [(hx ..).2.1]; exact hlen 1
  · intro k u v he
    rw [(hx ..).1, (hx ..).2.1]
    obtain ⟨g1, g2, g3⟩ := hco 0 (by omega) k u v he
    obtain ⟨k1, k2, k3⟩ := hco 1 (by omega) k u v he
    exact ⟨g1, g2, g3, k1, k2, k3⟩
  · intro h; simp [mkFig, h]
  · intro h
    refine ⟨edgeCoords pos p.graph.edges 2, _, by simp [mkFig, h], by simp [mkFig, h],
      by simp [mkFig, h], by simp [mkFig, h], by simp [mkFig, h], hlen 2,
      triples_length (fun e : ℤ × ℤ => val e.1) (fun e => val e.2) (fun e => val e.2) _, ?_⟩
    intro k u v he
    obtain ⟨g1, g2, g3⟩ := hco 2 (by omega) k u v he
    obtain ⟨k1, k2, k3⟩ := triples_get (fun e : ℤ × ℤ => val e.1) (fun e => val e.2)
      (fun e => val e.2) _ k (u, v) he
    exact ⟨g1, g2, g3, k1, k2, k3⟩

end

/-- Non-vacuity: the concrete plot meets the hypotheses of C51. -/
example : ∃ f, demoPlotArgs.plot demoPalette demoPlot = .ok f :=
  C51_succeeds demoPalette demo_plottable demoPlotArgs demoColors ⟨rfl, by decide⟩ (by decide)
    (by
      intro n _ i hi
      simp only [demoIds] at hi
      split at hi
      · simp only [List.mem_cons, List.not_mem_nil, or_false] at hi
        change i < 3; omega
      · split at hi <;> (rw [List.mem_singleton] at hi; change i < 3; omega))
    (fun k n => if n = 0 then (if k = 0 then 2 else 10) else
      if n = 1 then (if k = 0 then 3 else 10) else (if k = 0 then 5 else 40))
    (by
      intro k hk n hn
      have hk : k < 2 := hk
      simp only [NxGraph.IsNode, demoPlot, demoPlotGraph, PyDict.keys, List.map_cons, List.map_nil,
        List.mem_cons, List.not_mem_nil, or_false] at hn
      rcases hn with rfl | rfl | rfl <;> rcases k with _ | _ | k <;> first | omega | decide +kernel)
    ⟨"a", rfl⟩ (by decide) (by decide) (fun name => ⟨_, rfl⟩)

instance : DecidableEq (List (Option ℚ)) := inferInstance
instance : DecidableEq (Option (List (NodeText ℚ)) × List (Option ℚ)) := inferInstance
instance : DecidableEq (Option (List ℚ) × Option (List (Option ℚ))) := inferInstance

/-- The figure of the concrete plot, and the one in three dimensions. -/
example : (demoPlotArgs.plot demoPalette demoPlot).toOption.map (fun f =>
      (f.nodes.x, f.nodes.size, f.nodes.color, f.nodes.text, f.edges.x)) =
    some ([0, 1, 3], [400, 200, 200], some [2, 3, 5], some [⟨2, 0, 2⟩, ⟨3, 1, 1⟩, ⟨5, 2, 1⟩],
      [some 0, some 1, none]) := by decide +kernel

example : (demoPlotArgs.plot demoPalette demoPlot3).toOption.map (fun f =>
      (f.nodes.z, f.nodes.size, f.edges.color, f.edges.z)) =
    some (some [1, 1, 1], [600, 300, 300], some [2, 3, 3], some [some 1, some 1, none]) := by
  decide +kernel

section
variable [Field K] [LinearOrder K] {p : MapperPlot K}

/-! ### C52 -/

/-- **C52 (an update draws what a new plot would).** Let a figure be drawn by
`plot_plotly`. If `plot_plotly` with the arguments given to the update in the place of
the old ones draws a figure, then `plot_plotly_update` returns and the figure is that one:
all given parts are changed, all others are as before.

Partial: colours, aggregation and title must be given together or not at all, see the
violations below. -/
theorem C52_update_partial (P : Palette K) (A : PlotArgs V K) (B : UpdateArgs V K) (f g : Fig K)
    (hf : A.plot P p = .ok f) (hg : (A.override B).plot P p = .ok g) :
    B.apply P p f = (.ok (), g) :=
  update_replot hf hg

/-- **C52 (what is not asked for stays).** Whatever the arguments, and even if it raises,
`plot_plotly_update` never moves a node or an edge nor changes the sizes of the nodes; it
leaves width, height, scale of the markers with the slider, colours with texts and ranges,
title, colour menu, and colour scales with their menu as they are when the corresponding
argument is not given. -/
theorem C52_frame (P : Palette K) (f : Fig K) (width height : Option ℤ)
    (nodeSize : Option (OneOrMany K)) (colors : Option (ColorsArg V))
    (title : Option (OneOrMany String)) (agg : Option (List V → Py K))
    (cmap : Option (OneOrMany String)) (r : Py Unit) (g : Fig K)
    (h : plotPlotlyUpdate P p f width height nodeSize colors title agg cmap = (r, g)) :
    (g.nodes.x = f.nodes.x ∧ g.nodes.y = f.nodes.y ∧ g.nodes.z = f.nodes.z ∧
      g.nodes.size = f.nodes.size) ∧
    (g.edges.x = f.edges.x ∧ g.edges.y = f.edges.y ∧ g.edges.z = f.edges.z) ∧
    (width = none → g.width = f.width) ∧ (height = none → g.height = f.height) ∧
    (nodeSize = none → g.nodes.sizeref = f.nodes.sizeref ∧ g.ui.sizes = f.ui.sizes) ∧
    (colors = none → g.nodes.text = f.nodes.text ∧ g.nodes.color = f.nodes.color ∧
      g.nodes.cmin = f.nodes.cmin ∧ g.nodes.cmax = f.nodes.cmax ∧ g.edges.color = f.edges.color ∧
      g.edges.cmin = f.edges.cmin ∧ g.edges.cmax = f.edges.cmax ∧ g.ui.colors = f.ui.colors) ∧
    (title = none → g.nodes.title = f.nodes.title) ∧
    (cmap = none → g.nodes.scale = f.nodes.scale ∧ g.edges.scale = f.edges.scale ∧
      g.ui.cmaps = f.ui.cmaps) := by
  have k := update_kept P p f width height nodeSize colors title agg cmap
  rw [h] at k
  refine ⟨k.nodes, k.edges, k.width, k.height, ?_, ?_, ?_, ?_⟩
  · rintro rfl; exact k.size rfl
  · rintro rfl
    obtain ⟨h1, h2, h3, h4, h5, h6, h7⟩ := k.paint rfl
    exact ⟨h1, h2, h3, h4, h5, h6, h7, k.menu rfl⟩
  · rintro rfl; exact k.title rfl
  · rintro rfl; exact k.scale rfl

/-- **C52 (violation: a title alone).** With a title but no colours,
`plot_plotly_update` always raises. -/
theorem C52_title_violation (P : Palette K) (f : Fig K) (width height : Option ℤ)
    (nodeSize : Option (OneOrMany K)) (title : OneOrMany String) (agg : Option (List V → Py K))
    (cmap : Option (OneOrMany String)) :
    ∃ e g, plotPlotlyUpdate P p f width height nodeSize none (some title) agg cmap = (.error e, g) := by
  have key : ∀ F, outcome (plotPlotlyUpdate P p f width height nodeSize none (some title) agg cmap) ≠
      .ok F := by
    intro F hF
    rw [plotPlotlyUpdate] at hF
    split at hF
    · cases hF
    · rename_i cmaps cols titles sizes hargs
      obtain ⟨x1, k1, hargs⟩ := bind_eq_ok.mp hargs
      obtain ⟨x2, k2, hargs⟩ := bind_eq_ok.mp hargs
      obtain ⟨x3, k3, hargs⟩ := bind_eq_ok.mp hargs
      obtain ⟨x4, k4, hargs⟩ := bind_eq_ok.mp hargs
      cases hargs
      cases k2
      obtain ⟨l, k3', e⟩ := bind_eq_ok.mp k3
      cases e
      have hl : l = [] := List.length_eq_zero_iff.mp (toTitles_get k3').1
      subst hl
      rw [updateFigure_outcome] at hF
      obtain ⟨_, _, hF⟩ := bind_eq_ok.mp hF
      obtain ⟨_, _, hF⟩ := bind_eq_ok.mp hF
      obtain ⟨_, _, hF⟩ := bind_eq_ok.mp hF
      obtain ⟨_, hT, hF⟩ := bind_eq_ok.mp hF
      obtain ⟨t, hT, _⟩ := setTitle_eq.mp hT
      cases hT
  cases hr : plotPlotlyUpdate P p f width height nodeSize none (some title) agg cmap with
  | mk r g =>
    cases r with
    | error e => exact ⟨e, g, rfl⟩
    | ok u => exact absurd (by rw [hr]; rfl) (key g)

/-- **C52 (violation: colours alone).** Colours given without an aggregation are
ignored: the figure of a plot does not change at all. -/
theorem C52_colors_violation (P : Palette K) (A : PlotArgs V K) (f : Fig K) (hf : A.plot P p = .ok f)
    (c : ColorsArg V) (a : Colors V) (hc : c.IsArray a) :
    plotPlotlyUpdate P p f none none none (some c) none none none = (.ok (), f) := by
  obtain ⟨cmaps, c', titles, sizes, n0, e0, t, s, pc, sc, mc, mo, a1, a2, a3, a4, ac, ad, rfl⟩ :=
    plot_eq_ok.mp hf
  simp only [plotPlotlyUpdate, convert, (toColors_array hc).1, ok_bind, pure_eq_ok]
  rfl

/-- **C52 (violation: an aggregation alone).** So is an aggregation given without
colours. -/
theorem C52_agg_violation (P : Palette K) (A : PlotArgs V K) (f : Fig K) (hf : A.plot P p = .ok f)
    (agg : List V → Py K) :
    plotPlotlyUpdate P p f none none none none none (some agg) none = (.ok (), f) := by
  obtain ⟨cmaps, c', titles, sizes, n0, e0, t, s, pc, sc, mc, mo, a1, a2, a3, a4, ac, ad, rfl⟩ :=
    plot_eq_ok.mp hf
  rfl

/-! ### C67 -/

/-- Updates one after the other. -/
def applyAll (P : Palette K) (p : MapperPlot K) : List (UpdateArgs V K) → Fig K → Py Unit × Fig K
  | [], f => (.ok (), f)
  | B :: rest, f =>
    match B.apply P p f with
    | (.ok _, f') => applyAll P p rest f'
    | r => r

/-- **C67.** After any sequence of updates the figure is the one `plot_plotly` draws with
the arguments given last: the history does not matter. (Each intermediate set of arguments
must be one that can be drawn.) -/
theorem C67_update_history (P : Palette K) (Bs : List (UpdateArgs V K)) : ∀ (A : PlotArgs V K) (f : Fig K),
    A.plot P p = .ok f →
    (∀ k ≤ Bs.length, ∃ g, ((Bs.take k).foldl PlotArgs.override A).plot P p = .ok g) →
    ∃ g, (Bs.foldl PlotArgs.override A).plot P p = .ok g ∧ applyAll P p Bs f = (.ok (), g) := by
  induction Bs with
  | nil => intro A f hf _; exact ⟨f, hf, rfl⟩
  | cons B Bs ih =>
    intro A f hf h
    obtain ⟨g1, hg1⟩ := h 1 (by simp)
    have hg1' : (A.override B).plot P p = .ok g1 := by simpa using hg1
    obtain ⟨g, hg, e⟩ := ih (A.override B) g1 hg1' (by
      intro k hk
      obtain ⟨g, hg⟩ := h (k + 1) (by simpa using hk)
      exact ⟨g, by simpa using hg⟩)
    refine ⟨g, by simpa using hg, ?_⟩
    rw [applyAll, update_replot hf hg1']
    exact e

/-! ### C66 -/

/-- **C66 (colour menu).** With several columns of colours the colour menu has a button
for each column, labelled with its title, and pressing it shows exactly what
`plot_plotly` draws for that column alone with that title. With one column there is no
button. -/
theorem C66_color_menu (hdim : p.dim = 2 ∨ p.dim = 3) (P : Palette K) (A : PlotArgs V K) (f : Fig K)
    (hf : A.plot P p = .ok f) (c : Colors V) (hc : A.colors.IsArray c) :
    ∃ bs, f.ui.colors = some bs ∧ (c.cols ≤ 1 → bs = []) ∧ (1 < c.cols → bs.length = c.cols ∧
      ∀ i : ℕ, i < c.cols → ∃ t r g, titleOf A.title c.cols i = some t ∧ bs[i]? = some (t, r) ∧
        { A with colors := .one (c.rows.filterMap fun row => row[i]?), title := some (.one t) }.plot
          P p = .ok g ∧ SameTraces (r.press f) g) := by
  obtain ⟨cmaps, c', titles, sizes, n0, e0, t, s, pc, sc, mc, mo, a1, a2, a3, a4, ac, ad, rfl⟩ :=
    plot_eq_ok.mp hf
  rw [(toColors_array hc).1] at a2
  cases a2
  obtain ⟨h1, h2⟩ := menuColor_get hdim ad.menuO
  refine ⟨mo, rfl, h1, fun h => ⟨(h2 h).1, fun i hi => ?_⟩⟩
  obtain ⟨t', pc', k1, k2, k3⟩ := (h2 h).2 i hi
  have hti : titleOf A.title c.cols i = some t' := by
    rw [← (toTitles_get a3).2 i]; exact getItem_eq_ok.mp k1
  refine ⟨t', _, _, hti, k3, plot_eq_ok.mpr ⟨cmaps,
    ⟨(c.rows.filterMap fun row => row[i]?).map fun x => [x], 1⟩, [t'], sizes, n0, e0, t', s, pc', sc,
    mc, [], a1, rfl, rfl, a4, ac, ⟨rfl, ad.size, paintOf_single k2, ad.scale, ad.menuC, ?_⟩, rfl⟩,
    press_paint hdim⟩
  rw [menuColor, if_neg (by simp)]

/-- **C66 (colour menu, active entry).** The active (first) entry is what the figure
shows. -/
theorem C66_color_menu_active (hdim : p.dim = 2 ∨ p.dim = 3) (P : Palette K) (A : PlotArgs V K)
    (f : Fig K) (hf : A.plot P p = .ok f) (t : String) (r : Restyle K) (bs : List (String × Restyle K))
    (hb : f.ui.colors = some ((t, r) :: bs)) :
    SameTraces (r.press f) f ∧ f.nodes.title = t := by
  obtain ⟨cmaps, c, titles, sizes, n0, e0, t0, s, pc, sc, mc, mo, a1, a2, a3, a4, ac, ad, rfl⟩ :=
    plot_eq_ok.mp hf
  have hb : mo = (t, r) :: bs := Option.some.inj hb
  obtain ⟨h1, h2⟩ := menuColor_get hdim ad.menuO
  have hc : 1 < c.cols := by
    by_contra h
    rw [h1 (by omega)] at hb; cases hb
  obtain ⟨t', pc', k1, k2, k3⟩ := (h2 hc).2 0 (by omega)
  rw [ad.title] at k1; cases k1
  rw [ad.paint] at k2; cases k2
  rw [hb] at k3
  simp only [List.getElem?_cons_zero, Option.some.injEq, Prod.mk.injEq] at k3
  obtain ⟨rfl, rfl⟩ := k3
  exact ⟨press_paint hdim, rfl⟩

/-- **C66 (size slider).** The slider has one step for each given size, labelled with it;
choosing it shows exactly what `plot_plotly` draws with that size; and the active step is
what the figure shows. -/
theorem C66_slider (P : Palette K) (A : PlotArgs V K) (f : Fig K) (hf : A.plot P p = .ok f) :
    ∃ steps active, f.ui.sizes = some (steps, active) ∧
      steps.map Prod.fst = sizesOf A.nodeSize ∧
      (∀ (k : ℕ) s r, steps[k]? = some (s, r) →
        ∃ g, { A with nodeSize := some (.one s) }.plot P p = .ok g ∧ SameTraces (r.press f) g) ∧
      ∃ s r, steps[active]? = some (s, r) ∧ SameTraces (r.press f) f := by
  obtain ⟨cmaps, c, titles, sizes, n0, e0, t0, s, pc, sc, mc, mo, a1, a2, a3, a4, ac, ad, rfl⟩ :=
    plot_eq_ok.mp hf
  have hs := toNodeSizes_sizes a4
  subst hs
  refine ⟨_, _, rfl, by simp [Function.comp_def], ?_, ?_⟩
  · intro k s' r hk
    rw [List.getElem?_map, Option.map_eq_some_iff] at hk
    obtain ⟨s'', _, e⟩ := hk
    simp only [Prod.mk.injEq] at e
    obtain ⟨rfl, rfl⟩ := e
    exact ⟨_, plot_eq_ok.mpr ⟨cmaps, c, titles, [s''], n0, e0, t0, s'', pc, sc, mc, mo, a1, a2, a3,
      rfl, ac, ⟨ad.title, getItem_ok (by simp), ad.paint, ad.scale, ad.menuC, ad.menuO⟩, rfl⟩, press_size⟩
  · refine ⟨s, { targets := [1], sizeref := [some (sizerefOf s)] }, ?_, press_size⟩
    rw [List.getElem?_map, List.length_map, getItem_eq_ok.mp ad.size]
    rfl

/-- **C66 (menu of colour scales).** If at least two of the given names are in Plotly's
list, the menu has a button for each of these, labelled with Plotly's name, and pressing
it shows exactly what `plot_plotly` draws with that colour scale; otherwise it has no
button. -/
theorem C66_cmap_menu (hdim : p.dim = 2 ∨ p.dim = 3) (P : Palette K) (A : PlotArgs V K) (f : Fig K)
    (hf : A.plot P p = .ok f) :
    ∃ bs, f.ui.cmaps = some bs ∧
      (((namesOf A.cmap).filterMap P.known).length ≤ 1 → bs = []) ∧
      (1 < ((namesOf A.cmap).filterMap P.known).length →
        bs.map Prod.fst = (namesOf A.cmap).filterMap P.known ∧
        ∀ (i : ℕ) name r, bs[i]? = some (name, r) →
          ∃ g, { A with cmap := some (.one name) }.plot P p = .ok g ∧ SameTraces (r.press f) g) := by
  obtain ⟨cmaps, c, titles, sizes, n0, e0, t0, s, pc, sc, mc, mo, a1, a2, a3, a4, ac, ad, rfl⟩ :=
    plot_eq_ok.mp hf
  have hs := toCmaps_names a1
  subst hs
  obtain ⟨h1, h2⟩ := menuCmap_get hdim ad.menuC
  refine ⟨mc, rfl, h1, fun h => ⟨?_, ?_⟩⟩
  · obtain ⟨g1, g2⟩ := h2 h
    apply List.ext_getElem?
    intro i
    rw [List.getElem?_map]
    cases hi : ((namesOf A.cmap).filterMap P.known)[i]? with
    | none =>
      rw [List.getElem?_eq_none_iff] at hi
      rw [List.getElem?_eq_none (by omega)]; rfl
    | some name =>
      obtain ⟨sc', _, k2⟩ := g2 i name hi
      rw [k2]; rfl
  · intro i name r hi
    obtain ⟨g1, g2⟩ := h2 h
    have hlt : i < mc.length := (List.getElem?_eq_some_iff.mp hi).1
    obtain ⟨sc', k1, k2⟩ := g2 i _ (List.getElem?_eq_getElem (by omega))
    rw [hi] at k2
    simp only [Option.some.injEq, Prod.mk.injEq] at k2
    obtain ⟨hn, rfl⟩ := k2
    rw [← hn] at k1
    refine ⟨_, plot_eq_ok.mpr ⟨[name], c, titles, sizes, n0, e0, t0, s, pc, sc', [], mo, rfl, a2, a3,
      a4, ac, ⟨ad.title, ad.size, ad.paint, ⟨name, rfl, k1⟩, ?_, ad.menuO⟩, rfl⟩, press_cmap hdim⟩
    unfold menuCmap
    rw [if_neg]
    have := List.length_filterMap_le P.known [name]
    rw [List.length_singleton] at this
    omega

/-- **C66 (menu of colour scales, active entry).** If the first given name is in
Plotly's list, under a name of the same colour scale, the active (first) entry is what the
figure shows. -/
theorem C66_cmap_menu_active (hdim : p.dim = 2 ∨ p.dim = 3) (P : Palette K) (A : PlotArgs V K)
    (f : Fig K) (hf : A.plot P p = .ok f) (first name : String) (rest : List String)
    (hn : namesOf A.cmap = first :: rest) (hk : P.known first = some name)
    (hs : P.scale name = P.scale first) (t : String) (r : Restyle K) (bs : List (String × Restyle K))
    (hb : f.ui.cmaps = some ((t, r) :: bs)) : t = name ∧ SameTraces (r.press f) f := by
  obtain ⟨cmaps, c, titles, sizes, n0, e0, t0, s, pc, sc, mc, mo, a1, a2, a3, a4, ac, ad, rfl⟩ :=
    plot_eq_ok.mp hf
  have hns := toCmaps_names a1
  subst hns
  have hb : mc = (t, r) :: bs := Option.some.inj hb
  obtain ⟨h1, h2⟩ := menuCmap_get hdim ad.menuC
  have hc : 1 < ((namesOf A.cmap).filterMap P.known).length := by
    by_contra h
    rw [h1 (by omega)] at hb; cases hb
  have hf0 : ((namesOf A.cmap).filterMap P.known)[0]? = some name := by
    rw [hn, List.filterMap_cons, hk]; rfl
  obtain ⟨sc', k1, k2⟩ := (h2 hc).2 0 name hf0
  rw [hb] at k2
  simp only [List.getElem?_cons_zero, Option.some.injEq, Prod.mk.injEq] at k2
  obtain ⟨rfl, rfl⟩ := k2
  obtain ⟨first', k3, k4⟩ := ad.scale
  rw [hn] at k3
  cases k3
  rw [hs, k4] at k1
  cases k1
  exact ⟨rfl, press_cmap hdim⟩

end

/-! ### Concrete cases of C52, C66 and C67 -/

/-- An update of the colours, with aggregation and title, and of the sizes. -/
def demoUpdate : UpdateArgs ℚ ℚ where
  colors := some (.one [7, 8, 9], demoMean, .one "new")
  nodeSize := some (.one 3)
  cmap := none
  width := none
  height := some 50

/-- The figure of the concrete plot. -/
def demoFig : Fig ℚ :=
  ((demoPlotArgs.plot demoPalette demoPlot).toOption).getD
    ⟨⟨[], [], none, [], none, none, none, none, 0, "", []⟩, ⟨[], [], none, none, none, none, none⟩, {},
      none, none⟩

theorem demoFig_eq : demoPlotArgs.plot demoPalette demoPlot = .ok demoFig := by decide +kernel

/-- Non-vacuity of C51 (parameters). -/
example : demoFig.width = some 100 ∧ demoFig.height = none ∧ some "a" = some demoFig.nodes.title ∧
    (∃ name, ["Jet", "Viridis"][0]? = some name ∧
      demoPalette.scale name = .ok demoFig.nodes.scale) ∧
    ∃ s : ℚ, ([1, 2, 4] : List ℚ)[1]? = some s ∧ (s ≠ 0 → demoFig.nodes.sizeref * s ^ 2 = 1) ∧
      (s = 0 → demoFig.nodes.sizeref = 10 ^ 9) :=
  C51_parameters (p := demoPlot) demoPalette demoPlotArgs demoColors ⟨rfl, by decide⟩ demoFig
    demoFig_eq

/-- Non-vacuity of C52 and C67: the hypotheses hold of the concrete plot and updates. -/
example : ∃ g, applyAll demoPalette demoPlot
    [demoUpdate, ⟨none, none, some (.one "Ice"), some 3, none⟩] demoFig = (.ok (), g) ∧
    g.nodes.color = some [15 / 2, 8, 9] ∧ g.nodes.title = "new" ∧ g.width = some 3 ∧
    g.height = some 50 ∧ g.nodes.scale = [(0, "Ice"), (1, "Ice")] ∧ g.nodes.sizeref = 1 / 9 ∧
    g.ui.colors = some [] := by
  obtain ⟨g, hg, e⟩ := C67_update_history (p := demoPlot) demoPalette
    [demoUpdate, ⟨none, none, some (.one "Ice"), some 3, none⟩] demoPlotArgs demoFig demoFig_eq (by
      intro k hk
      have h : ∀ a : PlotArgs ℚ ℚ, (a.plot demoPalette demoPlot).toOption.isSome = true →
          ∃ g, a.plot demoPalette demoPlot = .ok g := by
        intro a ha
        cases h : a.plot demoPalette demoPlot with
        | error e => rw [h] at ha; cases ha
        | ok g => exact ⟨g, rfl⟩
      have hk : k ≤ 2 := hk
      apply h
      rcases k with _ | _ | _ | k
      · decide +kernel
      · decide +kernel
      · decide +kernel
      · omega)
  refine ⟨g, e, ?_⟩
  have e2 : g = (applyAll demoPalette demoPlot
    [demoUpdate, ⟨none, none, some (.one "Ice"), some 3, none⟩] demoFig).2 := by rw [e]
  subst e2
  decide +kernel

/-- **C52 (violation: a title alone, partial update).** Though it raises, the figure has
been changed. -/
theorem C52_partial_update_violation : ∃ g : Fig ℚ,
    demoPlotArgs.plot demoPalette demoPlot = .ok demoFig ∧
    plotPlotlyUpdate (V := ℚ) demoPalette demoPlot demoFig (some 7) none none none (some (.one "title")) none
      none = (.error .indexError, g) ∧ demoFig.width = some 100 ∧ g.width = some 7 :=
  ⟨_, demoFig_eq, Prod.ext (by decide +kernel) rfl, by decide +kernel, by decide +kernel⟩

/-- **C52 (violation: colours without title).** With colours and aggregation but no
title the figure gets the new colours, but the colour menu is that of the old ones: its
active entry is not what the figure shows. -/
theorem C52_menu_violation : ∃ (g : Fig ℚ) (t : String) (r : Restyle ℚ) (rest : List (String × Restyle ℚ)),
    demoPlotArgs.plot demoPalette demoPlot = .ok demoFig ∧
    plotPlotlyUpdate demoPalette demoPlot demoFig none none none (some (.one [7, 8, 9])) none
      (some demoMean) none = (.ok (), g) ∧
    g.ui.colors = some ((t, r) :: rest) ∧ g.nodes.color = some [15 / 2, 8, 9] ∧
    (r.press g).nodes.color = some [2, 3, 5] := by
  obtain ⟨⟨t, r⟩, rest, hb⟩ : ∃ x rest, demoFig.ui.colors = some (x :: rest) := by
    have : ∃ l, demoFig.ui.colors = some l ∧ l ≠ [] := by
      refine ⟨(demoFig.ui.colors).getD [], ?_, ?_⟩ <;> decide +kernel
    obtain ⟨l, h1, h2⟩ := this
    obtain ⟨x, rest, rfl⟩ := List.exists_cons_of_ne_nil h2
    exact ⟨x, rest, h1⟩
  have hpress : ∀ g : Fig ℚ, ((demoFig.ui.colors).getD []).head?.map (fun x => (x.2.press g).nodes.color) =
      some ((r.press g).nodes.color) := by
    intro g; rw [hb]; rfl
  refine ⟨_, t, r, rest, demoFig_eq, Prod.ext (by decide +kernel) rfl, ?_, by decide +kernel, ?_⟩
  · rw [← hb]
  · apply Option.some.inj
    rw [← hpress]
    decide +kernel

/-- **C66 (violation: active colour scale).** When the first given name is not in
Plotly's list, the active entry of the menu of colour scales is not what the figure
shows. -/
theorem C66_active_cmap_violation : ∃ (f : Fig ℚ) (t : String) (r : Restyle ℚ)
    (rest : List (String × Restyle ℚ)),
    { demoPlotArgs with cmap := some (.many ["hidden", "Jet", "Viridis"]) }.plot demoPalette demoPlot =
      .ok f ∧ f.ui.cmaps = some ((t, r) :: rest) ∧ f.nodes.scale = [(0, "hidden"), (1, "hidden")] ∧
    (r.press f).nodes.scale = [(0, "Jet"), (1, "Jet")] := by
  obtain ⟨f, hf⟩ : ∃ f, { demoPlotArgs with cmap := some (.many ["hidden", "Jet", "Viridis"]) }.plot
      demoPalette demoPlot = .ok f := by
    cases h : { demoPlotArgs with cmap := some (.many ["hidden", "Jet", "Viridis"]) }.plot
      demoPalette demoPlot with
    | error e =>
      have : ({ demoPlotArgs with cmap := some (.many ["hidden", "Jet", "Viridis"]) }.plot
        demoPalette demoPlot).toOption.isSome = true := by decide +kernel
      rw [h] at this; cases this
    | ok f => exact ⟨f, rfl⟩
  have key : (({ demoPlotArgs with cmap := some (.many ["hidden", "Jet", "Viridis"]) }.plot
      demoPalette demoPlot).toOption.bind fun f => (f.ui.cmaps.bind List.head?).map fun (x : String × Restyle ℚ) =>
        (f.nodes.scale, (x.2.press f).nodes.scale)) =
      some (([(0, "hidden"), (1, "hidden")] : Scale ℚ), ([(0, "Jet"), (1, "Jet")] : Scale ℚ)) := by
    decide +kernel
  rw [hf] at key
  cases hc : f.ui.cmaps with
  | none => simp [Except.toOption, hc] at key
  | some l =>
    cases l with
    | nil => simp [Except.toOption, hc] at key
    | cons x rest =>
      obtain ⟨t, r⟩ := x
      simp only [Except.toOption, Option.bind_some, hc, List.head?_cons, Option.map_some,
        Option.some.injEq, Prod.mk.injEq] at key
      exact ⟨f, t, r, rest, hf, hc, key.1, key.2⟩

/-- The colour menu, the slider and the menu of colour scales of the concrete plot are
not empty. -/
example : (demoFig.ui.colors.map fun l => l.map Prod.fst) = some ["a", "b"] ∧
    (demoFig.ui.cmaps.map fun l => l.map Prod.fst) = some ["Jet", "Viridis"] ∧
    (demoFig.ui.sizes.map fun l => (l.1.map Prod.fst, l.2)) = some ([1, 2, 4], 1) := by
  decide +kernel

/-! ### C53 -/

theorem defaultRng_ok {seed : Option ℤ} (h : ∀ s, seed = some s → 0 ≤ s) :
    defaultRng seed = .ok () := by
  unfold defaultRng
  split
  · rename_i s
    rw [if_neg (by have := h s rfl; omega)]
  · rfl

/-- **C53.** With the engine "igraph", dimension 2 or 3, a seed that is not negative, and a layout with a row of at
least as many coordinates for every vertex, `MapperPlot` gives every node of the graph, and
nothing else, a position: the `i`-th node has the coordinates in the `i`-th row of the
layout. -/
theorem C53_positions (E : Engines K) (g : NxGraph) (hn : g.nodes.keys.Nodup) (dim : ℕ)
    (iterations : ℤ) (seed : Option ℤ) (hseed : ∀ s, seed = some s → 0 ≤ s) (layout : List (List K))
    (hdim : dim = 2 ∧ E.fr2 g iterations seed = .ok layout ∨
      dim = 3 ∧ E.fr3 g iterations seed = .ok layout)
    (hl : layout.length = g.nodes.len) (hr : ∀ row ∈ layout, row.length = dim) :
    ∃ p, newPlot E g dim iterations seed "igraph" = .ok p ∧ p.graph = g ∧ p.dim = dim ∧
      p.positions.keys = g.nodes.keys ∧
      ∀ (i : ℕ) n, g.nodes.keys[i]? = some n → p.positions.get? n = layout[i]? := by
  have hlen : g.nodes.len = g.nodes.keys.length := by simp [PyDict.len, PyDict.keys]
  obtain ⟨d, e, h1, h2, _⟩ := layoutDict_ok dim layout g.nodes.keys 0 PyDict.empty hn
    (by simp [PyDict.empty, PyDict.keys]) (by omega) (fun row hrow => by rw [hr row hrow])
  have hpos : computePosIg E g dim iterations seed = .ok d := by
    unfold computePosIg
    split
    · rename_i h0
      rw [hlen, List.length_eq_zero_iff] at h0
      rw [h0] at e
      exact e
    · rw [defaultRng_ok hseed, ok_bind]
      rcases hdim with ⟨rfl, h⟩ | ⟨rfl, h⟩
      · rw [if_pos rfl, h]; exact e
      · rw [if_neg (by omega), if_pos rfl, h]; exact e
  refine ⟨⟨g, dim, d⟩, ?_, rfl, rfl, by simpa [PyDict.empty, PyDict.keys] using h1, ?_⟩
  · rw [newPlot, if_pos rfl, hpos, ok_bind]; rfl
  · intro i n hi
    obtain ⟨row, k1, k2⟩ := h2 i n hi
    rw [Nat.zero_add] at k1
    rw [k2, k1, List.take_of_length_le (by rw [hr row (List.mem_of_getElem? k1)])]

/-- **C53 (networkx).** With the engine "networkx" the positions are those of the spring
layout for the given graph, dimension, iterations and seed. -/
theorem C53_networkx (E : Engines K) (g : NxGraph) (dim : ℕ) (iterations : ℤ) (seed : Option ℤ)
    (pos : PyDict ℤ (List K)) (h : E.spring g dim iterations seed = .ok pos) :
    newPlot E g dim iterations seed "networkx" = .ok ⟨g, dim, pos⟩ := by
  rw [newPlot, if_neg (by decide), if_pos rfl, h, ok_bind]; rfl

/-- **C53 (unknown engine).** Any other engine raises `ValueError`. -/
theorem C53_unknown_engine (E : Engines K) (g : NxGraph) (dim : ℕ) (iterations : ℤ) (seed : Option ℤ)
    (engine : String) (h1 : engine ≠ "igraph") (h2 : engine ≠ "networkx") :
    newPlot E g dim iterations seed engine = .error .valueError := by
  rw [newPlot, if_neg h1, if_neg h2]; rfl

/-- **C53 (negative seed).** With "igraph" and a negative seed, a graph with nodes raises
`ValueError`. -/
theorem C53_negative_seed (E : Engines K) (g : NxGraph) (dim : ℕ) (iterations seed : ℤ) (n : ℤ)
    (hn : g.IsNode n) (hs : seed < 0) :
    newPlot E g dim iterations (some seed) "igraph" = .error .valueError := by
  have h0 : g.nodes.len ≠ 0 := by
    intro h
    have : g.nodes.keys = [] := by
      rw [← List.length_eq_zero_iff, ← h]; simp [PyDict.len, PyDict.keys]
    simp [NxGraph.IsNode, this] at hn
  have : computePosIg E g dim iterations (some seed) = .error .valueError := by
    simp only [computePosIg, if_neg h0, defaultRng, if_pos hs]; rfl
  rw [newPlot, if_pos rfl, this]; rfl

/-- **C53 (other dimensions).** With "igraph" and a dimension that is not 2 or 3 there is
no exception, and no node has a position. -/
theorem C53_other_dimension (E : Engines K) (g : NxGraph) (dim : ℕ) (iterations : ℤ) (seed : Option ℤ)
    (hseed : ∀ s, seed = some s → 0 ≤ s) (h2 : dim ≠ 2) (h3 : dim ≠ 3) :
    newPlot E g dim iterations seed "igraph" = .ok ⟨g, dim, PyDict.empty⟩ := by
  have : computePosIg E g dim iterations seed = .ok PyDict.empty := by
    unfold computePosIg
    rw [defaultRng_ok hseed, ok_bind, if_neg h2, if_neg h3, ite_self]
  rw [newPlot, if_pos rfl, this, ok_bind]; rfl

/-- Engines placing the vertices in a row. -/
def demoEngines : Engines ℚ where
  fr2 g _ _ := .ok <| (List.range g.nodes.len).map fun i => [(i : ℚ), 0]
  fr3 g _ _ := .ok <| (List.range g.nodes.len).map fun i => [(i : ℚ), 0, 1]
  spring _ _ _ _ := .ok PyDict.empty

theorem demoEngines_place {dim : ℕ} (hdim : dim = 2 ∨ dim = 3) (iterations : ℤ) (seed : Option ℤ) :
    demoEngines.Place dim iterations seed := by
  intro g
  rcases hdim with rfl | rfl
  · refine ⟨_, .inl ⟨rfl, rfl⟩, by simp, ?_⟩
    intro row hrow
    obtain ⟨i, _, rfl⟩ := List.mem_map.mp hrow
    rfl
  · refine ⟨_, .inr ⟨rfl, rfl⟩, by simp, ?_⟩
    intro row hrow
    obtain ⟨i, _, rfl⟩ := List.mem_map.mp hrow
    rfl

/-- Non-vacuity of C53. -/
example : ∃ p, newPlot demoEngines demoPlotGraph 3 50 none "igraph" = .ok p ∧
    p.positions.get? 2 = some [2, 0, 1] := by
  obtain ⟨p, h1, _, _, _, h2⟩ := C53_positions demoEngines demoPlotGraph (by decide) 3 50 none
    (by simp) _ (.inr ⟨rfl, rfl⟩) (by simp) (by
      intro row hrow
      obtain ⟨i, _, rfl⟩ := List.mem_map.mp hrow
      rfl)
  exact ⟨p, h1, (h2 2 2 rfl).trans (by decide +kernel)⟩

/-! ### Mapper graphs can be plotted -/

/-- **C51 (Mapper graphs).** Every graph built by `mapper_graph` is one to which C51
applies: with positions from the engine "igraph", its plot has sizes, points and positions
for all nodes. -/
theorem C51_mapper_graph {S T : Type} (X : List S) (y : List T) (cover : CoverFn T) (clust : ClustFn S)
    (charts : List (List ℕ)) (hc : cover y = .ok charts) (hg : GoodCharts X.length charts)
    (hs : ClusteringSucceeds X charts clust) (E : Engines K) (dim : ℕ) (iterations : ℤ)
    (seed : Option ℤ) (hseed : ∀ s, seed = some s → 0 ≤ s) (hE : E.Place dim iterations seed) :
    ∃ itm g p size ids pos, mapperLabels X y cover clust = .ok itm ∧
      mapperGraph X y cover clust = .ok g ∧ newPlot E g dim iterations seed "igraph" = .ok p ∧
      p.graph = g ∧ Plottable p size ids pos ∧
      ∀ n, g.IsNode n → ∀ i, i ∈ ids n ↔ Carries itm i n := by
  obtain ⟨_, itm, g, _, e, _, _, _, e', hG⟩ := core_ok X y cover clust charts hc hg hs
  obtain ⟨layout, hl1, hl2, hl3⟩ := hE g
  obtain ⟨p, hp, h1, h2, h3, h4⟩ := C53_positions E g hG.nodup dim iterations seed hseed layout hl1 hl2 hl3
  subst h1
  have hlen : p.graph.nodes.len = p.graph.nodes.keys.length := by simp [PyDict.len, PyDict.keys]
  have hpos : ∀ n, p.graph.IsNode n → ∃ row, p.positions.get? n = some row ∧ row.length = dim := by
    intro n hn
    obtain ⟨i, hi⟩ := List.mem_iff_getElem?.mp hn
    have hlt : i < layout.length := by
      have := (List.getElem?_eq_some_iff.mp hi).1
      omega
    exact ⟨layout[i], by rw [h4 i n hi, List.getElem?_eq_getElem hlt], hl3 _ (List.getElem_mem hlt)⟩
  refine ⟨itm, p.graph, p, fun n => (idsOf itm n).length, idsOf itm,
    fun n => (p.positions.get? n).getD [], e, e', hp, rfl, ?_, fun n _ i => mem_idsOf⟩
  refine ⟨⟨hG.nodup, hG.adjKeys, hG.adj_nodup, ?_⟩, ?_, hG.attr, ?_, ?_, ?_⟩
  · intro u v h
    rw [hG.adj_iff] at h ⊢
    obtain ⟨h1, n, h2, h3⟩ := h
    exact ⟨h1.symm, n, h3, h2⟩
  · rw [h2]
    rcases hl1 with ⟨h, _⟩ | ⟨h, _⟩
    · exact .inl h
    · exact .inr h
  · intro n hn
    obtain ⟨i, hi⟩ := (hG.mem_nodes n).mp hn
    exact List.length_pos_of_mem (mem_idsOf.mpr hi)
  · intro n hn
    obtain ⟨row, k1, _⟩ := hpos n hn
    rw [k1]; rfl
  · intro n hn
    obtain ⟨row, k1, k2⟩ := hpos n hn
    rw [k1, h2]; exact k2

/-- Non-vacuity: a Mapper graph placed by the concrete engines. -/
example : ∃ g p size ids pos, mapperGraph [5, 6, 7] [0, 0, 0] demoCover demoClust = .ok g ∧
    newPlot demoEngines g 2 50 none "igraph" = .ok p ∧ Plottable p size ids pos := by
  obtain ⟨_, g, p, size, ids, pos, _, h1, h2, _, h3, _⟩ := C51_mapper_graph [5, 6, 7] [0, 0, 0] demoCover
    demoClust [[0, 1], [2, 1]] rfl demo_good (demo_succeeds _ (fun _ _ => ⟨_, rfl⟩) _ _) demoEngines 2
    50 none (by simp) (demoEngines_place (.inl rfl) _ _)
  exact ⟨g, p, size, ids, pos, h1, h2, h3⟩

end Verif

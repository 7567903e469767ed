import Verif.Proof.AppFigure
import Verif.Props.App

/-!
# Properties of the figure of the web app: C79
-/

set_option autoImplicit false

namespace Verif
variable {K : Type} [Field K] [LinearOrder K] [CharZero K] {E : Engines K} {d : Drawing K NxGraph}
  {ids : ℤ → List ℕ}

omit [LinearOrder K] [CharZero K] in
theorem figureArgs_isArray (d : Drawing K NxGraph) :
    (figureArgs d).colors.IsArray (concatFrames [d.labels, d.dfY, d.df]).toColors := by
  refine ⟨rfl, fun row hrow => ?_⟩
  obtain ⟨i, _, rfl⟩ := List.mem_map.mp hrow
  simp [Frame.toColors]

omit [Field K] [LinearOrder K] [CharZero K] in
theorem concat_cols (d : Drawing K NxGraph) :
    (concatFrames [d.labels, d.dfY, d.df]).toColors.cols = d.columns.length := by
  simp [Frame.toColors, concat_columns]

omit [LinearOrder K] [CharZero K] in
theorem figure_title {k : ℕ} {c : Column K} (hc : d.columns[k]? = some c) :
    titleOf (figureArgs d).title (concatFrames [d.labels, d.dfY, d.df]).toColors.cols k = some c.name := by
  simp [titleOf, figureArgs, concat_cols, hc]

omit [Field K] [LinearOrder K] [CharZero K] in
theorem figure_column {k : ℕ} {c : Column K} (hc : d.columns[k]? = some c) :
    ((concatFrames [d.labels, d.dfY, d.df]).toColors.rows.filterMap fun row => row[k]?) =
      (List.range (concatFrames [d.labels, d.dfY, d.df]).rows).map fun i =>
        (c.cells.pad (concatFrames [d.labels, d.dfY, d.df]).rows).at i := by
  simp only [Frame.toColors, List.filterMap_map]
  rw [← List.filterMap_eq_map]
  refine List.filterMap_congr fun i _ => ?_
  simp [concat_columns, hc]

omit [Field K] [LinearOrder K] [CharZero K] in
theorem valuesAt_single {α : Type} {a : ℕ → α} {rows : ℕ} {is : List ℕ} (h : ∀ i ∈ is, i < rows) :
    (⟨((List.range rows).map a).map fun x => [x], 1⟩ : Colors α).valuesAt 0 is = is.map a := by
  rw [Colors.valuesAt, pointsOf, List.filterMap_filterMap]
  have e : is.map a = is.filterMap (some ∘ a) := by rw [List.filterMap_eq_map]
  rw [e]
  refine List.filterMap_congr fun i hi => ?_
  simp [h i hi]

omit [LinearOrder K] in
theorem figure_value (h : Drawable E d ids) {k : ℕ} {c : Column K} (hc : d.columns[k]? = some c) :
    ∃ val : ℤ → K, ∀ n, d.graph.IsNode n →
      nanMean ((concatFrames [d.labels, d.dfY, d.df]).toColors.valuesAt k (ids n)) = .ok (val n) ∧
      IsMean (val n) ((ids n).map c.value) := by
  classical
  have key : ∀ n, d.graph.IsNode n → ∃ m,
      nanMean ((concatFrames [d.labels, d.dfY, d.df]).toColors.valuesAt k (ids n)) = .ok m ∧
      IsMean m ((ids n).map c.value) := by
    intro n hn
    rw [valuesAt_concat hc (h.rows n hn)]
    have hm := List.mem_of_getElem? hc
    exact nanMean_ok (h.numbers c hm) _ (h.present c hm n hn)
  refine ⟨fun n => if hn : d.graph.IsNode n then (key n hn).choose else 0, fun n hn => ?_⟩
  simp only [dif_pos hn]
  exact (key n hn).choose_spec

/-- **C79 (success).** If Plotly knows the colour scales, every drawable input gives a
figure. -/
theorem C79_succeeds (P : Palette K) (hP : ∀ name, ∃ s, P.scale name = .ok s) (h : Drawable E d ids) :
    ∃ f, createMapperFigure E P d = .ok f := by
  obtain ⟨p, pos, hp, hg, _, hpl, _⟩ := drawable_plot h
  have hcols := List.length_pos_iff.mpr h.colored
  have hval : ∀ k, k < d.columns.length → ∃ val : ℤ → K, ∀ n, d.graph.IsNode n →
      nanMean ((concatFrames [d.labels, d.dfY, d.df]).toColors.valuesAt k (ids n)) = .ok (val n) :=
    fun k hk => by
      obtain ⟨val, hv⟩ := figure_value h (List.getElem?_eq_getElem hk)
      exact ⟨val, fun n hn => (hv n hn).1⟩
  classical
  obtain ⟨f, hf⟩ := C51_succeeds P hpl (figureArgs d) _ (figureArgs_isArray d)
    (by rw [concat_cols]; exact hcols)
    (fun n hn i hi => by
      have := h.rows n (hg ▸ hn) i hi
      have := concat_rows d
      simp only [Frame.toColors, List.length_map, List.length_range]
      omega)
    (fun k n => if hk : k < d.columns.length then (hval k hk).choose n else 0)
    (fun k hk n hn => by
      rw [concat_cols] at hk
      simp only [dif_pos hk]
      exact (hval k hk).choose_spec n (hg ▸ hn))
    ⟨_, figure_title (List.getElem?_eq_getElem hcols)⟩
    (by simp [sizesOf, figureArgs, appNodeSizes, List.range_succ]) (by simp [namesOf, figureArgs, appCmaps]) hP
  exact ⟨_, figure_eq_ok.mpr ⟨p, f, hp, hf, rfl⟩⟩

/-- **C79 (first colours).** The figure shows the mean of the first column over the points
of each node: labels if there are any, else the first lens value. Its name is the title. -/
theorem C79_colors (P : Palette K) (h : Drawable E d ids) (f : Fig K)
    (hf : createMapperFigure E P d = .ok f) :
    ∃ c, d.columns[0]? = some c ∧ ColoredBy d.graph ids c f.nodes ∧ f.nodes.title = c.name := by
  obtain ⟨p, g, hp, hA, rfl⟩ := figure_eq_ok.mp hf
  obtain ⟨p', pos, hp', hg, _, hpl, _⟩ := drawable_plot h
  rw [hp'] at hp
  cases hp
  have hcols := List.length_pos_iff.mpr h.colored
  have hc := List.getElem?_eq_getElem hcols
  obtain ⟨val, hv⟩ := figure_value h hc
  obtain ⟨text, color, _, e2, _, _, _, _, e7, e8, _⟩ := C51_nodes P hpl (figureArgs d) _
    (figureArgs_isArray d) (by rw [concat_cols]; exact hcols)
    (fun n hn i hi => by
      have := h.rows n (hg ▸ hn) i hi
      have := concat_rows d
      simp only [Frame.toColors, List.length_map, List.length_range]
      omega) val (fun n hn => (hv n (hg ▸ hn)).1) g hA
  refine ⟨_, hc, ⟨color, e2, hg ▸ e7, fun i n hi => ?_⟩, ?_⟩
  · have hn : d.graph.IsNode n := List.mem_of_getElem? hi
    obtain ⟨m, hm⟩ := exists_maxSize (g := p.graph) (fun n => (ids n).length) (hg ▸ hn)
    obtain ⟨_, _, _, _, _, hcol, _⟩ := e8 m hm i n (hg ▸ hi)
    exact ⟨val n, hcol, (hv n hn).2⟩
  · have := (C51_parameters P (figureArgs d) _ (figureArgs_isArray d) g hA).2.2.1
    rw [figure_title hc] at this
    exact (Option.some.inj this).symm


/-- **C79 (colour menu).** With several columns there is a menu with an entry for each of
them: first the labels, then the lens values, then the data. Pressing the entry of a column
shows the mean of this column over the points of each node, with its name as title. -/
theorem C79_color_menu (P : Palette K) (h : Drawable E d ids) (f : Fig K)
    (hf : createMapperFigure E P d = .ok f) (hc : 1 < d.columns.length) :
    ∃ bs, f.ui.colors = some bs ∧ bs.map Prod.fst = d.columns.map Column.name ∧
      ∀ (k : ℕ) c, d.columns[k]? = some c → ∃ r, bs[k]? = some (c.name, r) ∧
        ColoredBy d.graph ids c (r.press f).nodes ∧ (r.press f).nodes.title = c.name := by
  obtain ⟨p, g, hp, hA, rfl⟩ := figure_eq_ok.mp hf
  obtain ⟨p', pos, hp', hg, _, hpl, _⟩ := drawable_plot h
  rw [hp'] at hp
  cases hp
  obtain ⟨bs, hb, _, hmenu⟩ := C66_color_menu hpl.dim P (figureArgs d) g hA _ (figureArgs_isArray d)
  rw [concat_cols] at hmenu
  obtain ⟨hlen, hmenu⟩ := hmenu hc
  have hk : ∀ (k : ℕ) c, d.columns[k]? = some c → ∃ r, bs[k]? = some (c.name, r) ∧
      ColoredBy d.graph ids c (r.press g).nodes ∧ (r.press g).nodes.title = c.name := by
    intro k c hck
    have hlt := (List.getElem?_eq_some_iff.mp hck).1
    obtain ⟨t, r, g', ht, hbk, hg', hsame⟩ := hmenu k hlt
    rw [← concat_cols, figure_title hck] at ht
    cases ht
    refine ⟨r, hbk, ?_⟩
    rw [hsame.1]
    obtain ⟨val, hv⟩ := figure_value h hck
    have hrows := concat_rows d
    rw [figure_column hck] at hg'
    have hids : ∀ n, p.graph.IsNode n → ∀ i ∈ ids n,
        i < (concatFrames [d.labels, d.dfY, d.df]).rows := fun n hn i hi => by
      have := h.rows n (hg ▸ hn) i hi
      omega
    obtain ⟨text, color, _, e2, _, _, _, _, e7, e8, _⟩ := C51_nodes P hpl _
      ⟨(List.map _ (List.range _)).map fun x => [x], 1⟩ (by exact ⟨rfl, rfl⟩)
      Nat.one_pos (fun n hn i hi => by simpa using hids n hn i hi) val (fun n hn => by
        rw [← (hv n (hg ▸ hn)).1, valuesAt_concat hck (h.rows n (hg ▸ hn))]
        exact congrArg nanMean (valuesAt_single fun i hi => hids n hn i hi)) g' hg'
    refine ⟨⟨color, e2, hg ▸ e7, fun i n hi => ?_⟩, ?_⟩
    · have hn : d.graph.IsNode n := List.mem_of_getElem? hi
      obtain ⟨m, hm⟩ := exists_maxSize (g := p.graph) (fun n => (ids n).length) (hg ▸ hn)
      obtain ⟨_, _, _, _, _, hcol, _⟩ := e8 m hm i n (hg ▸ hi)
      exact ⟨val n, hcol, (hv n hn).2⟩
    · have := (C51_parameters P _ ⟨(List.map _ (List.range _)).map fun x => [x], 1⟩
        (by exact ⟨rfl, rfl⟩) g' hg').2.2.1
      simpa [titleOf] using this.symm
  refine ⟨bs, hb, ?_, hk⟩
  apply List.ext_getElem?
  intro k
  rw [List.getElem?_map, List.getElem?_map]
  cases hck : d.columns[k]? with
  | none =>
    rw [List.getElem?_eq_none_iff] at hck
    rw [List.getElem?_eq_none (by omega)]; rfl
  | some c =>
    obtain ⟨r, e, _⟩ := hk k c hck
    rw [e]; rfl

/-- **C79 (layout).** The figure shows the layout by igraph with the dimensions, the
iterations and the seed of the settings: marker number `i` is in the place of vertex number
`i`, its size is in proportion to the number of points of the node, and there are lines
between the places of adjacent vertices, one for every edge. -/
theorem C79_layout (P : Palette K) (h : Drawable E d ids) (f : Fig K)
    (hf : createMapperFigure E P d = .ok f) (layout : List (List K))
    (hl : E.Layout d.graph d.config.plotDimensions d.config.plotIterations d.config.plotSeed layout) :
    f.nodes.x.length = d.graph.nodes.len ∧
    (∀ m, IsMaxSize d.graph (fun n => (ids n).length) m → ∀ (i : ℕ) n,
      d.graph.nodes.keys[i]? = some n → ∃ pos, layout[i]? = some pos ∧
        f.nodes.x[i]? = pos[0]? ∧ f.nodes.y[i]? = pos[1]? ∧
        (d.config.plotDimensions = 2 → f.nodes.z = none) ∧
        (d.config.plotDimensions = 3 → ∃ z, f.nodes.z = some z ∧ z[i]? = pos[2]?) ∧
        f.nodes.size[i]? = some
          ((if d.config.plotDimensions = 3 then 600 else 400) * ((ids n).length : K) / (m : K))) ∧
    ∃ es, d.graph.IsEdgeList es ∧ f.edges.x.length = 3 * es.length ∧
      f.edges.y.length = 3 * es.length ∧
      ∀ (k i j : ℕ) u v, es[k]? = some (u, v) → d.graph.nodes.keys[i]? = some u →
        d.graph.nodes.keys[j]? = some v → ∃ a b, layout[i]? = some a ∧ layout[j]? = some b ∧
        f.edges.x[3 * k]? = some a[0]? ∧ f.edges.x[3 * k + 1]? = some b[0]? ∧
        f.edges.x[3 * k + 2]? = some none ∧
        f.edges.y[3 * k]? = some a[1]? ∧ f.edges.y[3 * k + 1]? = some b[1]? ∧
        f.edges.y[3 * k + 2]? = some none := by
  obtain ⟨p, g, hp, hA, rfl⟩ := figure_eq_ok.mp hf
  obtain ⟨p', pos, hp', hg, hd, hpl, hpos⟩ := drawable_plot h
  rw [hp'] at hp
  cases hp
  have hpos := hpos layout hl
  have hcols := List.length_pos_iff.mpr h.colored
  obtain ⟨val, hv⟩ := figure_value h (List.getElem?_eq_getElem hcols)
  have hids : ∀ n, p.graph.IsNode n → ∀ i ∈ ids n,
      i < (concatFrames [d.labels, d.dfY, d.df]).toColors.rows.length := fun n hn i hi => by
    have := h.rows n (hg ▸ hn) i hi
    have := concat_rows d
    simp only [Frame.toColors, List.length_map, List.length_range]
    omega
  have hdim : ∀ k : ℕ, k = 2 ∨ k = 3 → (d.config.plotDimensions = k ↔ p.dim = k) := by
    intro k hk
    rw [hd]
    rcases h.dim with e | e <;> rw [e] <;> rcases hk with rfl | rfl <;> decide
  obtain ⟨_, _, _, _, e3, _, _, _, _, e8, _⟩ := C51_nodes P hpl (figureArgs d) _
    (figureArgs_isArray d) (by rw [concat_cols]; exact hcols) hids val
    (fun n hn => (hv n (hg ▸ hn)).1) g hA
  obtain ⟨es, k1, k2, k3, k4, _⟩ := C51_edges P hpl (figureArgs d) _
    (figureArgs_isArray d) (by rw [concat_cols]; exact hcols) hids val
    (fun n hn => (hv n (hg ▸ hn)).1) g hA
  rw [hg] at e3 e8 k1
  refine ⟨e3, fun m hm i n hi => ?_, es, k1, k2, k3, fun k i j u v hk hi hj => ?_⟩
  · obtain ⟨g1, g2, g3, g4, g5, _⟩ := e8 m hm i n hi
    refine ⟨_, hpos i n hi, g1, g2, fun e => g3 ((hdim 2 (.inl rfl)).mp e), fun e => ?_, ?_⟩
    · obtain ⟨z, z1, _, z2⟩ := g4 ((hdim 3 (.inr rfl)).mp e)
      exact ⟨z, z1, z2⟩
    · rw [g5]
      have : d.config.plotDimensions = 3 ↔ p.dim = 3 := hdim 3 (.inr rfl)
      by_cases h3 : p.dim = 3
      · rw [if_pos h3, if_pos (this.mpr h3)]
      · rw [if_neg h3, if_neg fun e => h3 (this.mp e)]
  · obtain ⟨g1, g2, g3, g4, g5, g6⟩ := k4 k u v hk
    exact ⟨_, _, hpos i u hi, hpos j v hj, g1, g2, g3, g4, g5, g6⟩

omit [LinearOrder K] [CharZero K] in
theorem appNodeSizes_length : (appNodeSizes : List K).length = 17 := by simp [appNodeSizes]

omit [LinearOrder K] [CharZero K] in
theorem appNodeSizes_get {i : ℕ} (h : i < 17) : (appNodeSizes : List K)[i]? = some ((i : K) / 8) := by
  rw [appNodeSizes, List.getElem?_map, List.getElem?_range h]
  simp [div_eq_mul_inv]

/-- **C79 (controls).** The figure has no fixed width and height; the colour scale is
Viridis; there is a slider with seventeen node sizes from 0 to 2, and the active one is 1,
which is the one shown; and a menu of the five colour scales, if Plotly has them under these
names. -/
theorem C79_controls (P : Palette K) (f : Fig K) (hf : createMapperFigure E P d = .ok f) :
    f.width = none ∧ f.height = none ∧ P.scale "Viridis" = .ok f.nodes.scale ∧
    f.nodes.sizeref = 1 ∧
    (∃ steps, f.ui.sizes = some (steps, 8) ∧ steps.length = 17 ∧
      ∀ i : ℕ, i < 17 → ∃ s r, steps[i]? = some (s, r) ∧ 8 * s = (i : K)) ∧
    ((∀ name ∈ ["Viridis", "Cividis", "Jet", "Plasma", "RdBu"], P.known name = some name) →
      d.config.plotDimensions = 2 ∨ d.config.plotDimensions = 3 →
      ∃ bs, f.ui.cmaps = some bs ∧
        bs.map Prod.fst = ["Viridis", "Cividis", "Jet", "Plasma", "RdBu"]) := by
  obtain ⟨p, g, hp, hA, rfl⟩ := figure_eq_ok.mp hf
  obtain ⟨_, _, _, ⟨name, hn, hsc⟩, s, hs, hs1, _⟩ :=
    C51_parameters P (figureArgs d) _ (figureArgs_isArray d) g hA
  have h8 : (8 : K) ≠ 0 := by exact_mod_cast (by norm_num : (8 : ℕ) ≠ 0)
  refine ⟨rfl, rfl, ?_, ?_, ?_, ?_⟩
  · cases hn; exact hsc
  · have e : s = 1 := by
      rw [show sizesOf (figureArgs d).nodeSize = appNodeSizes from rfl, appNodeSizes_length,
        appNodeSizes_get (by norm_num)] at hs
      rw [← Option.some.inj hs]
      push_cast
      field_simp
    subst e
    simpa using hs1 one_ne_zero
  · obtain ⟨cmaps, c, titles, sizes, n0, e0, t0, s', pc, sc, mc, mo, _, _, _, a4, _, _, rfl⟩ :=
      plot_eq_ok.mp hA
    have hs' := toNodeSizes_sizes a4
    subst hs'
    refine ⟨_, Option.some_inj.mpr (Prod.ext rfl ?_), ?_, fun i hi => ?_⟩
    · simp [sliderSize, sizesOf, figureArgs, appNodeSizes]
    · simp [sliderSize, mkFig, sizesOf, figureArgs, appNodeSizes]
    · refine ⟨(i : K) / 8, { targets := [1], sizeref := [some (sizerefOf ((i : K) / 8))] }, ?_,
        by field_simp⟩
      simp only [sliderSize]
      rw [List.getElem?_map, show sizesOf (figureArgs d).nodeSize = appNodeSizes from rfl,
        appNodeSizes_get hi]
      rfl
  · intro hk hd
    have hdim : p.dim = 2 ∨ p.dim = 3 := by
      obtain ⟨pos, _, hp⟩ := bind_eq_ok.mp hp
      cases hp
      rcases hd with e | e <;> rw [e] <;> simp
    obtain ⟨bs, h1, _, h2⟩ := C66_cmap_menu hdim P (figureArgs d) g hA
    have e : (namesOf (figureArgs d).cmap).filterMap P.known =
        ["Viridis", "Cividis", "Jet", "Plasma", "RdBu"] := by
      simp at hk
      simp [namesOf, figureArgs, appCmaps, hk]
    rw [e] at h2
    exact ⟨bs, h1, (h2 (by simp)).1⟩

/-- **C79 (after a run).** If the libraries keep their promises, tables read by the app are
drawn: for data and labels prepared by `fix_data` (or without labels), whenever `run_mapper`
returns a graph and lens values, `create_mapper_figure` draws them for all settings of the
widgets with a seed that is not negative. -/
theorem C79_run (L : Libs K NxGraph) (hL : L.Good) (P : Palette K)
    (hP : ∀ name, ∃ s, P.scale name = .ok s) (raw rawLabels labels : Frame K) (hraw : raw.WellFormed)
    (hlab : rawLabels.WellFormed) (hrows : rawLabels.rows = raw.rows)
    (hl : labels = fixData rawLabels ∨ labels = .none) (cfg cfg' : MapperConfig) (w : Widgets)
    (hw : getMapperConfig w = .ok cfg') (hseed : 0 ≤ cfg'.plotSeed)
    (hE : E.Place cfg'.plotDimensions.toNat cfg'.plotIterations (some cfg'.plotSeed)) (g : NxGraph)
    (dfY : Frame K) (hrun : runMapper L (some (fixData raw)) cfg = .ok (some (g, dfY))) :
    ∃ f, createMapperFigure E P ⟨fixData raw, dfY, labels, g, cfg'⟩ = .ok f := by
  obtain ⟨hdf, hdfc⟩ := C56_complete raw hraw
  obtain ⟨hlf, hlfc⟩ := C56_complete rawLabels hlab
  have hdim : cfg'.plotDimensions = 2 ∨ cfg'.plotDimensions = 3 := by
    unfold getMapperConfig at hw
    split at hw
    · cases hw
    · cases hw
      dsimp only
      split
      · exact .inl rfl
      · split
        · exact .inr rfl
        · exact .inl rfl
  have hne : (fixData raw).rows ≠ 0 ∧ (fixData raw).columns ≠ [] := by
    constructor <;> intro h0 <;> simp [runMapper, Frame.empty, h0] at hrun
  obtain ⟨cv, hcv⟩ : ∃ cv, chooseCover cfg = some cv := by
    cases h0 : chooseCover cfg with
    | none => simp [runMapper, h0] at hrun
    | some cv => exact ⟨cv, rfl⟩
  obtain ⟨cl, hcl⟩ : ∃ cl, chooseClustering cfg = some cl := by
    cases h0 : chooseClustering cfg with
    | none => simp [runMapper, hcv, h0] at hrun
    | some cl => exact ⟨cl, rfl⟩
  obtain ⟨X, y, X', y', hX, hy, hY, hy', hX', hg⟩ := (C57_result L hne.1 hne.2
    ((coverFor_iff _ _).mpr hcv) ((clusteringFor_iff _ _).mpr hcl) g dfY).mp hrun
  have cX : X.Complete := by
    intro c hc
    rw [hX.2] at hc
    obtain ⟨col, hcol, rfl⟩ := List.mem_map.mp hc
    have hm := List.mem_of_mem_filter hcol
    obtain ⟨l, e, _, h0⟩ := hdfc col hm
    have := hdf.lengths col hm
    rw [e] at this
    exact ⟨l, e, by rw [hX.1]; exact this, h0⟩
  obtain ⟨ry, cy⟩ : y.rows = X.rows ∧ y.Complete := by
    generalize hr : (Except.ok y : Py (Array2 K)) = r at hy
    cases hy with
    | identity _ => cases hr; exact ⟨rfl, cX⟩
    | pca _ => exact hL.pca _ _ _ _ cX hr.symm
    | umap _ => exact hL.umap _ _ _ _ cX hr.symm
    | unknown _ _ _ => exact hL.pca _ _ _ _ cX hr.symm
  have hscale : ∀ flag (a b : Array2 K), a.Complete → Scaled L flag a b →
      b.rows = a.rows ∧ b.Complete := by
    intro flag a b ha h
    cases flag with
    | true => exact hL.scale _ _ ha (h.1 rfl)
    | false => rw [h.2 rfl]; exact ⟨rfl, ha⟩
  obtain ⟨ry', cy'⟩ := hscale _ _ _ cy hy'
  obtain ⟨rX', cX'⟩ := hscale _ _ _ cX hX'
  obtain ⟨ids, hpts, hin⟩ := hL.mapper _ _ _ _ _ cX' cy' (by rw [rX', ry', ry]) hg
  have hrY : dfY.rows = (fixData raw).rows := by rw [hY.1, ry, hX.1]
  have cY : ∀ c ∈ dfY.columns, ∃ l, c.cells = .number l ∧ l.length = dfY.rows ∧ none ∉ l := by
    intro c hc
    obtain ⟨i, hi⟩ := List.mem_iff_getElem?.mp hc
    have hlt : i < y.cols.length := by
      rw [← hY.2.1]; exact (List.getElem?_eq_some_iff.mp hi).1
    have e := hY.2.2 i _ (List.getElem?_eq_getElem hlt)
    rw [hi] at e
    cases e
    rw [hY.1]
    exact cy _ (List.getElem_mem hlt)
  have cD : ∀ c ∈ (fixData raw).columns, ∃ l, c.cells = .number l ∧
      l.length = (fixData raw).rows ∧ none ∉ l := by
    intro c hc
    obtain ⟨l, e, _, h0⟩ := hdfc c hc
    have := hdf.lengths c hc
    rw [e] at this
    exact ⟨l, e, this, h0⟩
  have cL : ∀ c ∈ labels.columns, ∃ l, c.cells = .number l ∧ l.length = (fixData raw).rows ∧
      none ∉ l := by
    intro c hc
    rcases hl with rfl | rfl
    · obtain ⟨l, e, _, h0⟩ := hlfc c hc
      have := hlf.lengths c hc
      rw [e] at this
      have hr : (fixData rawLabels).rows = (fixData raw).rows := hrows
      exact ⟨l, e, by rw [← hr]; exact this, h0⟩
    · cases hc
  have call : ∀ c ∈ (⟨fixData raw, dfY, labels, g, cfg'⟩ : Drawing K NxGraph).columns,
      ∃ l, c.cells = .number l ∧ l.length = dfY.rows ∧ none ∉ l := by
    intro c hc
    simp only [Drawing.columns, List.mem_append] at hc
    rcases hc with (hc | hc) | hc
    · obtain ⟨l, e, h1, h2⟩ := cL c hc
      exact ⟨l, e, by rw [hrY]; exact h1, h2⟩
    · exact cY c hc
    · rw [hrY]; exact cD c hc
  refine C79_succeeds (ids := ids) P hP ⟨hpts, hdim, hseed, hE, fun n hn i hi => ?_, ?_, ?_, ?_⟩
  · have := hin n hn i hi
    rwa [ry', ← hY.1] at this
  · intro c hc
    obtain ⟨l, e, _⟩ := call c hc
    exact ⟨l, e⟩
  · simp [Drawing.columns, hne.2]
  · intro c hc n hn
    obtain ⟨l, e, h1, h2⟩ := call c hc
    obtain ⟨i, hi⟩ := List.exists_mem_of_ne_nil _ (hpts.nonempty n hn)
    refine ⟨i, hi, ?_⟩
    have hlt : i < l.length := by
      have := hin n hn i hi
      rw [ry', ← hY.1] at this
      omega
    simp only [Column.value, e, List.getElem?_eq_getElem hlt, Option.join_some]
    exact fun h0 => h2 (h0 ▸ List.getElem_mem hlt)

/-! ### Concrete cases -/

/-- The graph of `demoPlotGraph` with labels for three rows, one lens value, and data that
was loaded later and has two rows only. -/
def demoDrawing : Drawing ℚ NxGraph where
  df := ⟨2, [⟨"a", .number [some 7, some 9]⟩]⟩
  dfY := ⟨3, [⟨"PCA 0", .number [some 1, some 3, some 5]⟩]⟩
  labels := ⟨3, [⟨"target", .number [some 0, some 1, some 1]⟩]⟩
  graph := demoPlotGraph
  config := {}

theorem demoGraph_hasPoints : demoPlotGraph.HasPoints demoIds where
  graph := demoGraph_wellFormed
  attr := by
    intro n hn
    have : n = 0 ∨ n = 1 ∨ n = 2 := by
      simpa [NxGraph.IsNode, demoPlotGraph, PyDict.keys] using hn
    rcases this with rfl | rfl | rfl <;> rfl
  nonempty := by
    intro n _
    unfold demoIds
    split
    · simp
    · split <;> simp

/-- Without the data loaded later every node has values in every column. -/
theorem demoDrawing_drawable : Drawable demoEngines { demoDrawing with df := .none } demoIds where
  points := demoGraph_hasPoints
  dim := .inl rfl
  seed := by decide
  place := demoEngines_place (.inl rfl) _ _
  rows := by
    intro n _ i hi
    unfold demoIds at hi
    simp only [demoDrawing]
    split at hi
    · simp at hi; omega
    · split at hi <;> simp at hi <;> omega
  numbers := by
    intro c hc
    simp [Drawing.columns, demoDrawing, Frame.none] at hc
    rcases hc with rfl | rfl <;> exact ⟨_, rfl⟩
  colored := by simp [Drawing.columns, demoDrawing]
  present := by
    intro c hc n hn
    have : n = 0 ∨ n = 1 ∨ n = 2 := by
      simpa [NxGraph.IsNode, demoDrawing, demoPlotGraph, PyDict.keys] using hn
    simp [Drawing.columns, demoDrawing, Frame.none] at hc
    rcases this with rfl | rfl | rfl <;> rcases hc with rfl | rfl <;>
      simp [demoIds, Column.value]

/-- Non-vacuity of C79: the menu has the label and the lens value. -/
example : ∃ f bs, createMapperFigure demoEngines demoPalette { demoDrawing with df := .none } = .ok f ∧
    f.ui.colors = some bs ∧ bs.map Prod.fst = ["target", "PCA 0"] ∧ f.nodes.title = "target" ∧
    f.nodes.color = some [1 / 2, 1, 1] := by
  obtain ⟨f, hf⟩ := C79_succeeds demoPalette (fun name => ⟨_, rfl⟩) demoDrawing_drawable
  obtain ⟨bs, h1, h2, _⟩ := C79_color_menu demoPalette demoDrawing_drawable f hf (by decide)
  obtain ⟨c, h3, _, h4⟩ := C79_colors demoPalette demoDrawing_drawable f hf
  cases h3
  refine ⟨f, bs, hf, h1, h2, h4, ?_⟩
  have key : (createMapperFigure demoEngines demoPalette { demoDrawing with df := .none }).map
      (fun f => f.nodes.color) = .ok (some [1 / 2, 1, 1]) := by decide +kernel
  rw [hf] at key
  exact Except.ok.inj key

/-- Non-vacuity of `C79_layout`: the second marker is at 1, 0. -/
example (f : Fig ℚ)
    (hf : createMapperFigure demoEngines demoPalette { demoDrawing with df := .none } = .ok f) :
    f.nodes.x[1]? = some 1 ∧ f.nodes.y[1]? = some 0 := by
  obtain ⟨_, h, _⟩ := C79_layout demoPalette demoDrawing_drawable f hf _ (.inl ⟨rfl, rfl⟩)
  obtain ⟨m, hm⟩ := exists_maxSize (g := demoPlotGraph) (fun n => (demoIds n).length)
    (n := 0) (by simp [NxGraph.IsNode, demoPlotGraph, PyDict.keys])
  obtain ⟨pos, h1, h2, h3, _⟩ := h m hm 1 1 rfl
  have e : pos = [1, 0] := by
    have : (some pos) = some [((1 : ℕ) : ℚ), 0] := by rw [← h1]; rfl
    simpa using this
  subst e
  exact ⟨h2, h3⟩

/-- Libraries: the lens keeps the first columns, and Mapper puts all rows in one node. -/
def demoLibs : Libs ℚ NxGraph where
  pca := fun n _ X => .ok ⟨X.rows, X.cols.take n.toNat⟩
  umap := fun n _ X => .ok ⟨X.rows, X.cols.take n.toNat⟩
  scale := fun X => .ok X
  fitTransform := fun _ _ _ y => .ok (if y.rows = 0 then ⟨PyDict.empty, PyDict.empty⟩ else
    ⟨⟨[(0, ⟨some y.rows, some (List.range y.rows)⟩)]⟩, ⟨[(0, [])]⟩⟩)

theorem demoLibs_good : demoLibs.Good where
  pca := by
    intro n s X y hX h
    cases h
    exact ⟨rfl, fun c hc => hX c (List.mem_of_mem_take hc)⟩
  umap := by
    intro n s X y hX h
    cases h
    exact ⟨rfl, fun c hc => hX c (List.mem_of_mem_take hc)⟩
  scale := by
    intro X y hX h
    cases h
    exact ⟨rfl, hX⟩
  mapper := by
    intro cv cl X y g _ _ _ h
    simp only [demoLibs, Except.ok.injEq] at h
    subst h
    refine ⟨fun _ => List.range y.rows, ?_, ?_⟩
    · split
      · exact ⟨⟨by simp [PyDict.empty, PyDict.keys], rfl, by simp [PyDict.empty, PyDict.get?, PyDict.lookupList],
          by simp [NxGraph.Adj, PyDict.empty, PyDict.get?, PyDict.lookupList]⟩, by
          simp [NxGraph.IsNode, PyDict.empty, PyDict.keys], by
          simp [NxGraph.IsNode, PyDict.empty, PyDict.keys]⟩
      · rename_i h0
        refine ⟨⟨by simp [PyDict.keys], rfl, ?_, ?_⟩, ?_, ?_⟩
        · intro u nb h
          have := PyDict.mem_of_get?_eq_some h
          simp at this
          simp [this.2]
        · intro u v h
          obtain ⟨nb, h1, h2⟩ := h
          have := PyDict.mem_of_get?_eq_some h1
          simp at this
          simp [this.2] at h2
        · intro n hn
          have : n = 0 := by simpa [NxGraph.IsNode, PyDict.keys] using hn
          subst this
          simp [PyDict.get?, PyDict.lookupList]
        · intro n _
          simpa using h0
    · intro n _ i hi
      simpa using hi

/-- The table of `C56`, with one column of numbers that lacks a value, after a run with the
default settings and without labels. -/
example : ∃ g dfY f, runMapper demoLibs (some (fixData exTable)) {} = .ok (some (g, dfY)) ∧
    createMapperFigure demoEngines demoPalette ⟨fixData exTable, dfY, .none, g, {}⟩ = .ok f := by
  obtain ⟨⟨g, dfY⟩, h⟩ : ∃ r, runMapper demoLibs (some (fixData exTable)) {} = .ok (some r) := ⟨_, rfl⟩
  obtain ⟨f, hf⟩ := C79_run demoLibs demoLibs_good demoPalette (fun name => ⟨_, rfl⟩) exTable exTable
    .none exTable_wellFormed exTable_wellFormed rfl (.inr rfl) {} {} {} (by decide +kernel) (by decide)
    (demoEngines_place (.inl rfl) _ _) g dfY h
  exact ⟨g, dfY, f, h, hf⟩

/-- **C79 (negative seed).** The number field of the seed takes negative numbers, for which
no figure is drawn. -/
theorem C79_seed_violation (E : Engines K) (P : Palette K) :
    ∃ (w : Widgets) (cfg : MapperConfig), w.plotSeed = some (-1) ∧ getMapperConfig w = .ok cfg ∧
      ∀ d : Drawing K NxGraph, d.config = cfg → (∃ n, d.graph.IsNode n) →
        createMapperFigure E P d = .error .valueError := by
  refine ⟨{ plotSeed := some (-1) }, _, rfl, rfl, fun d hd ⟨n, hn⟩ => ?_⟩
  unfold createMapperFigure
  have hs : d.config.plotSeed = -1 := by rw [hd]; decide +kernel
  rw [hs, C53_negative_seed E d.graph _ _ (-1) n hn (by decide)]
  rfl

end Verif

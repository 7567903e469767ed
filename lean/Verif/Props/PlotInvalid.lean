import Verif.Proof.PlotInvalid

/-!
# C111: wrong arguments of plots are reported

What is wrong with arguments is in `Verif.Spec.PlotInvalid`.
-/

set_option autoImplicit false
set_option linter.unusedSectionVars false

namespace Verif

variable {K V : Type}

section
variable [Field K] [LinearOrder K] {p : MapperPlot K} {size : ℤ → ℕ} {ids : ℤ → List ℕ}
  {pos : ℤ → List K}

/-- **C111 (kinds of arguments).** `plot_plotly` raises `ValueError` for an argument of the wrong kind,
whatever the graph. -/
theorem C111_plot_kind_partial (P : Palette K) (p : MapperPlot K) (A : PlotArgs V K)
    (h : WrongKind A.colors.width (some A.colors) A.title A.cmap A.nodeSize ∨ A.nodeSize = none) :
    A.plot P p = .error .valueError := by
  obtain ⟨colors, ns, title, agg, cmap, w, ht⟩ := A
  simp only [PlotArgs.plot, plotPlotly] at h ⊢
  have hcm : ∀ e, toCmaps cmap = .error e → e = .valueError := by
    intro e he
    match cmap with
    | none => cases he
    | some (.one c) => cases he
    | some (.many l) => cases he
    | some .other => cases he; rfl
  have hti : ∀ n e, toTitles title n = .error e → e = .valueError := by
    intro n e he
    match title with
    | none => cases he
    | some (.one c) =>
      simp only [toTitles] at he
      split at he <;> cases he
    | some (.many l) =>
      simp only [toTitles] at he
      split at he <;> cases he
      rfl
    | some .other => cases he; rfl
  have hsz : ∀ e, toNodeSizes ns = .error e → e = .valueError := by
    intro e he
    match ns with
    | none => cases he; rfl
    | some (.one c) => cases he
    | some (.many l) => cases he
    | some .other => cases he; rfl
  cases h1 : toCmaps cmap with
  | error e => rw [hcm e h1]; rfl
  | ok cm =>
  simp only [ok_bind]
  cases h2 : toColors colors with
  | error e =>
    match colors with
    | .one l => cases h2
    | .two c => cases h2
    | .other => cases h2; rfl
  | ok c =>
  have hcol : colors.width = some c.cols := by
    match colors with
    | .one l => cases h2; rfl
    | .two c => cases h2; rfl
    | .other => cases h2
  simp only [ok_bind]
  cases h3 : toTitles title c.cols with
  | error e => rw [hti _ e h3]; rfl
  | ok titles =>
  simp only [ok_bind]
  cases h4 : toNodeSizes ns with
  | error e => rw [hsz e h4]; rfl
  | ok sizes =>
  exfalso
  rcases h with h | rfl
  · cases h with
    | colors h => cases h; cases hcol
    | title h => subst h; cases h3
    | titles h h' h'' =>
      subst h
      rw [hcol] at h'
      cases h'
      simp only [toTitles, if_neg h''] at h3
      cases h3
    | size h => subst h; cases h4
    | cmap h => subst h; cases h1
  · cases h4

/-- **C111 (kinds of arguments).** `plot_plotly_update` raises `ValueError` for an argument of the wrong
kind, and the figure is as before. Without colours there are no columns to give titles to. -/
theorem C111_update_kind_partial (P : Palette K) (p : MapperPlot K) (f : Fig K) (width height : Option ℤ)
    (nodeSize : Option (OneOrMany K)) (colors : Option (ColorsArg V)) (title : Option (OneOrMany String))
    (agg : Option (List V → Py K)) (cmap : Option (OneOrMany String))
    (h : WrongKind ((colors.map ColorsArg.width).getD (some 0)) colors title cmap nodeSize) :
    plotPlotlyUpdate P p f width height nodeSize colors title agg cmap = (.error .valueError, f) := by
  simp only [plotPlotlyUpdate]
  have hcm : ∀ e, convert (fun c => toCmaps (some c)) cmap = .error e → e = .valueError := by
    intro e he
    match cmap with
    | none => cases he
    | some (.one c) => cases he
    | some (.many l) => cases he
    | some .other => cases he; rfl
  have hti : ∀ n e, convert (fun t => toTitles (some t) n) title = .error e → e = .valueError := by
    intro n e he
    match title with
    | none => cases he
    | some (.one c) =>
      simp only [convert, toTitles] at he
      split at he <;> cases he
    | some (.many l) =>
      simp only [convert, toTitles] at he
      split at he <;> cases he
      rfl
    | some .other => cases he; rfl
  have hsz : ∀ e, convert (fun s => toNodeSizes (some s)) nodeSize = .error e → e = .valueError := by
    intro e he
    match nodeSize with
    | none => cases he
    | some (.one c) => cases he
    | some (.many l) => cases he
    | some .other => cases he; rfl
  cases h1 : convert (fun c => toCmaps (some c)) cmap with
  | error e => rw [hcm e h1]; rfl
  | ok cm =>
  simp only [ok_bind]
  cases h2 : convert toColors colors with
  | error e =>
    match colors with
    | none => cases h2
    | some (.one l) => cases h2
    | some (.two c) => cases h2
    | some .other => cases h2; rfl
  | ok c =>
  have hcol : (colors.map ColorsArg.width).getD (some 0) = some ((c.map Colors.cols).getD 0) := by
    match colors with
    | none => cases h2; rfl
    | some (.one l) => cases h2; rfl
    | some (.two c) => cases h2; rfl
    | some .other => cases h2
  simp only [ok_bind]
  cases h3 : convert (fun t => toTitles (some t) ((c.map Colors.cols).getD 0)) title with
  | error e => rw [hti _ e h3]; rfl
  | ok titles =>
  simp only [ok_bind]
  cases h4 : convert (fun s => toNodeSizes (some s)) nodeSize with
  | error e => rw [hsz e h4]; rfl
  | ok sizes =>
  exfalso
  cases h with
  | colors h => subst h; cases h2
  | title h => subst h; cases h3
  | titles h h' h'' =>
    subst h
    rw [hcol] at h'
    cases h'
    simp only [convert, toTitles, if_neg h''] at h3
    cases h3
  | size h => subst h; cases h4
  | cmap h => subst h; cases h1

/-- The drawing of a plot up to the colours. -/
theorem plot_to_colors {P : Palette K} {jet : Scale K} (hj : P.scale "Jet" = .ok jet)
    (hp : Plottable p size ids pos) (A : PlotArgs V K) {c : Colors V} {titles cmaps : List String}
    {sizes : List K} (h1 : toCmaps A.cmap = .ok cmaps) (h2 : toColors A.colors = .ok c)
    (h3 : toTitles A.title c.cols = .ok titles) (h4 : toNodeSizes A.nodeSize = .ok sizes) :
    ∃ f : Fig K, A.plot P p = ((setTitle titles f >>= fun f => setNodeSize sizes f >>=
        fun f => (setNodeColors p c A.agg f >>= setEdgeColors p c A.agg) >>= fun f =>
        setCmap P p cmaps f) >>=
      setUi P p (some cmaps) (some c) (some titles) (some A.agg) (some sizes)) := by
  obtain ⟨np, ep, jet', k1, k2, k3, k4, k5⟩ := canvas_ok hj hp
  obtain ⟨colors, ns, title, agg, cmap, w, h⟩ := A
  simp only at h1 h2 h3 h4
  simp only [PlotArgs.plot, plotPlotly, h1, h2, h3, h4, k1, k2, k3, k4, k5, ok_bind]
  rw [updateFigure_outcome]
  cases w <;> cases h <;>
    exact ⟨_, by simp only [outcome, ok_bind, ifGiven, setWidth, setHeight, ifBoth]; rfl⟩

/-- **C111 (rows).** If a node holds a point without a row of colours, `plot_plotly` raises `IndexError`. -/
theorem C111_plotly_rows_partial (P : Palette K) (hP : ∃ s, P.scale "Jet" = .ok s)
    (hp : Plottable p size ids pos) (A : PlotArgs V K) (c : Colors V)
    (hc : A.colors.IsArray c) (hcol : 0 < c.cols) (ha : ∀ l, ∃ v, A.agg l = .ok v)
    (ht : ∃ t, titleOf A.title c.cols 0 = some t) (hs : sizesOf A.nodeSize ≠ [])
    (hm : namesOf A.cmap ≠ []) (h : PointWithoutRow p.graph ids c.rows.length) :
    A.plot P p = .error .indexError := by
  obtain ⟨jet, hj⟩ := hP
  obtain ⟨hcc, hr⟩ := toColors_array hc
  obtain ⟨titles, htt⟩ := toTitles_ok ht
  obtain ⟨hlen, hget⟩ := toTitles_get htt
  obtain ⟨t, ht⟩ := ht
  have hsz : (sizesOf A.nodeSize).length / 2 < (sizesOf A.nodeSize).length := by
    have := List.length_pos_iff.mpr hs
    omega
  obtain ⟨f, hf⟩ := plot_to_colors hj hp A (toCmaps_ok hm) hcc htt (toNodeSizes_ok hs)
  obtain ⟨col, h1, h2, _⟩ := column_ok hr hcol
  rw [hf, setTitle, getItem_ok (by rw [hget, ht])]
  simp only [ok_bind, pure_eq_ok, setNodeSize, getItem_lt hsz, setNodeColors, h1,
    aggregate_error hp ha (by rw [h2]; exact h), error_bind]

/-- **C111 (rows).** The same for `plot_matplotlib` of a plot in the plane. -/
theorem C111_matplotlib_rows_partial (sqrt : K → K) (known : String → Bool) (hp : Plottable p size ids pos)
    (h2 : p.dim = 2) (width height : K) (title : Option String) (colors : List V) (nodeSize : K)
    (agg : List V → Py K) (ha : ∀ l, ∃ v, agg l = .ok v) (cmap : String)
    (h : PointWithoutRow p.graph ids colors.length) :
    plotMatplotlib sqrt known p width height title colors nodeSize agg cmap = .error .indexError := by
  obtain ⟨np, k1⟩ : ∃ np, nodePosArray p = .ok np := by
    refine mapPy_exists fun i hi => ?_
    refine mapPy_exists fun n hn => ?_
    have := hp.pos_dim n hn
    have hi := List.mem_range.mp hi
    exact ⟨_, by rw [coordinate, dictItem_ok (hp.placed n hn), ok_bind, getItem_lt (by omega)]⟩
  simp only [plotMatplotlib, mplEdges_ok hp h2, k1, ok_bind, aggregate_error hp ha h, error_bind]

/-- **C111 (empty lists).** Without a column of colours, a size or a colour scale, `plot_plotly` raises
`IndexError`. -/
theorem C111_empty_partial (P : Palette K) (hP : ∃ s, P.scale "Jet" = .ok s)
    (hp : Plottable p size ids pos) (A : PlotArgs V K) (c : Colors V) (hc : A.colors.IsArray c)
    (hids : ∀ n, p.graph.IsNode n → ∀ i ∈ ids n, i < c.rows.length) (ha : ∀ l, ∃ v, A.agg l = .ok v)
    (hk : ¬ WrongKind A.colors.width (some A.colors) A.title A.cmap A.nodeSize) (hn : A.nodeSize ≠ none)
    (h : c.cols = 0 ∨ A.nodeSize = some (.many []) ∨ A.cmap = some (.many [])) :
    A.plot P p = .error .indexError := by
  obtain ⟨jet, hj⟩ := hP
  obtain ⟨hcc, hr⟩ := toColors_array hc
  have hw : A.colors.width = some c.cols := by
    match hA : A.colors with
    | .one l => rw [hA] at hcc; cases hcc; rfl
    | .two c' => rw [hA] at hcc; cases hcc; rfl
    | .other => rw [hA] at hcc; cases hcc
  obtain ⟨cmaps, h1⟩ : ∃ cmaps, toCmaps A.cmap = .ok cmaps := by
    match hA : A.cmap with
    | none => exact ⟨_, rfl⟩
    | some (.one c) => exact ⟨_, rfl⟩
    | some (.many l) => exact ⟨_, rfl⟩
    | some .other => exact absurd (.cmap hA) hk
  obtain ⟨titles, h3, h3'⟩ : ∃ titles, toTitles A.title c.cols = .ok titles ∧ titles.length = c.cols := by
    match hA : A.title with
    | none => exact ⟨_, rfl, by simp⟩
    | some (.one t) =>
      simp only [toTitles]
      split
      · exact ⟨_, rfl, by simp [*]⟩
      · exact ⟨_, rfl, by simp⟩
    | some (.many l) =>
      by_cases hl : l.length = c.cols
      · exact ⟨l, by simp [toTitles, hl], hl⟩
      · exact absurd (.titles hA hw hl) hk
    | some .other => exact absurd (.title hA) hk
  obtain ⟨sizes, h4⟩ : ∃ sizes, toNodeSizes A.nodeSize = .ok sizes := by
    match hA : A.nodeSize with
    | none => exact absurd hA hn
    | some (.one c) => exact ⟨_, rfl⟩
    | some (.many l) => exact ⟨_, rfl⟩
    | some .other => exact absurd (.size hA) hk
  obtain ⟨f, hf⟩ := plot_to_colors hj hp A h1 hcc h3 h4
  rw [hf]
  match titles, h3' with
  | [], _ => rfl
  | t :: ts, h3' =>
  simp only [setTitle, getItem, List.getElem?_cons_zero, ok_bind, pure_eq_ok]
  match sizes with
  | [] => rfl
  | s :: ss =>
  have hsz : (s :: ss).length / 2 < (s :: ss).length := by simp only [List.length_cons]; omega
  simp only [setNodeSize, getItem_lt hsz, ok_bind, pure_eq_ok]
  have hc0 : 0 < c.cols := by rw [← h3']; simp
  have hcm : cmaps = [] := by
    rcases h with h | h | h
    · omega
    · rw [h] at h4; cases h4
    · rw [h] at h1; cases h1; rfl
  choose v hv using ha
  have hpaint := paintOf_ok hp hr hc0 hids (fun n _ => hv (c.valuesAt 0 (ids n)))
  have := (setColors_chain (f := { f with
    nodes := { f.nodes with title := t, sizeref := sizerefOf (s :: ss)[(s :: ss).length / 2] } })).mpr
      ⟨_, hpaint, rfl⟩
  rw [this, hcm]
  rfl

/-- **C111 (scales).** A colour scale that Plotly does not know is reported with Plotly's error. -/
theorem C111_scale_partial (P : Palette K) (hP : ∃ s, P.scale "Jet" = .ok s) (hp : Plottable p size ids pos)
    (A : PlotArgs V K) (c : Colors V) (hc : A.colors.IsArray c) (hcol : 0 < c.cols)
    (hids : ∀ n, p.graph.IsNode n → ∀ i ∈ ids n, i < c.rows.length) (ha : ∀ l, ∃ v, A.agg l = .ok v)
    (ht : ∃ t, titleOf A.title c.cols 0 = some t) (hs : sizesOf A.nodeSize ≠ []) {name : String}
    {rest : List String} (hm : namesOf A.cmap = name :: rest) {e : PyErr} (he : P.scale name = .error e) :
    A.plot P p = .error e := by
  obtain ⟨jet, hj⟩ := hP
  obtain ⟨hcc, hr⟩ := toColors_array hc
  obtain ⟨titles, htt⟩ := toTitles_ok ht
  obtain ⟨hlen, hget⟩ := toTitles_get htt
  obtain ⟨t, ht⟩ := ht
  have hsz : (sizesOf A.nodeSize).length / 2 < (sizesOf A.nodeSize).length := by
    have := List.length_pos_iff.mpr hs
    omega
  obtain ⟨f, hf⟩ := plot_to_colors hj hp A (toCmaps_ok (by rw [hm]; simp)) hcc htt (toNodeSizes_ok hs)
  rw [hf, setTitle, getItem_ok (by rw [hget, ht])]
  simp only [ok_bind, pure_eq_ok, setNodeSize, getItem_lt hsz]
  choose v hv using ha
  have hpaint := paintOf_ok hp hr hcol hids (fun n _ => hv (c.valuesAt 0 (ids n)))
  rw [setColors_chain.mpr ⟨_, hpaint, rfl⟩]
  simp only [ok_bind, setCmap, hm, getItem, List.getElem?_cons_zero, he, error_bind]

/-- **C111 (scales).** `plot_matplotlib` raises `ValueError` for a colour scale that Matplotlib does not know. -/
theorem C111_matplotlib_scale_partial (sqrt : K → K) (known : String → Bool) (hp : Plottable p size ids pos)
    (h2 : p.dim = 2) (width height : K) (title : Option String) (colors : List V) (nodeSize : K)
    (agg : List V → Py K) (val : ℤ → K) (hc : Colorable p ids colors agg val) (cmap : String)
    (hk : known cmap = false) :
    plotMatplotlib sqrt known p width height title colors nodeSize agg cmap = .error .valueError := by
  have h := plotMatplotlib_ok sqrt (known := fun _ => true) (cmap := cmap) hp hc nodeSize width height title rfl
    (.inl h2)
  simp only [plotMatplotlib] at h ⊢
  obtain ⟨x1, h1, h⟩ := bind_eq_ok.mp h
  obtain ⟨x2, h2, h⟩ := bind_eq_ok.mp h
  obtain ⟨x3, h3, h⟩ := bind_eq_ok.mp h
  obtain ⟨x4, h4, h⟩ := bind_eq_ok.mp h
  obtain ⟨x5, h5, h⟩ := bind_eq_ok.mp h
  obtain ⟨x6, h6, h⟩ := bind_eq_ok.mp h
  obtain ⟨x7, h7, h⟩ := bind_eq_ok.mp h
  simp [h1, h2, h3, h4, h5, h6, h7, ok_bind, hk]

/-- **C111 (refuted for rows too many).** Rows of colours after those of the points of the nodes are not
reported: `plot_plotly` does what it does without them. So an array that does not belong to the data is
accepted when it is too long. -/
theorem C111_extra_violation (P : Palette K) (hp : Plottable p size ids pos) (A : PlotArgs V K)
    (more : ColorsArg V) (c c' : Colors V) (hc : A.colors.IsArray c) (hc' : more.IsArray c')
    (hids : ∀ n, p.graph.IsNode n → ∀ i ∈ ids n, i < c.rows.length) (h : A.colors.MoreRows more) :
    ({ A with colors := more } : PlotArgs V K).plot P p = A.plot P p := by
  obtain ⟨h1, hr⟩ := toColors_array hc
  obtain ⟨h1', hr'⟩ := toColors_array hc'
  obtain ⟨hcols, E, hE⟩ : c'.cols = c.cols ∧ ∃ E, c'.rows = c.rows ++ E := by
    match hA : A.colors, more, h with
    | .one l, .one l', ⟨e, h⟩ =>
      rw [hA] at h1
      cases h1; cases h1'
      exact ⟨rfl, e.map fun x => [x], by rw [h]; simp⟩
    | .two d, .two d', ⟨k1, e, k2⟩ =>
      rw [hA] at h1
      cases h1; cases h1'
      exact ⟨k1, e, k2⟩
  obtain ⟨rows', cols'⟩ := c'
  simp only at hcols hE hr'
  subst hcols hE
  have key : ∀ {β : Type} (k : ℕ) (F : PyDict ℤ K → Py β),
      ((⟨c.rows ++ E, c.cols⟩ : Colors V).column k >>= fun col => aggregateGraph col p.graph A.agg >>= F) =
        (c.column k >>= fun col => aggregateGraph col p.graph A.agg >>= F) := by
    intro β k F
    by_cases hk : k < c.cols
    · obtain ⟨col, ecol, k1, k2, k3⟩ := column_append hr' hk
      rw [k1, k3, ok_bind, ok_bind, aggregateGraph_append (fun n hn => ⟨_, hp.attr n hn⟩)
        (fun n hn i hi => by rw [k2]; exact hids n hn i hi)]
    · simp only [Colors.column, if_neg hk, error_bind]
  have k1 : setNodeColors p (⟨c.rows ++ E, c.cols⟩ : Colors V) A.agg = setNodeColors p c A.agg := by
    funext f
    exact key 0 _
  have k2 : setEdgeColors p (⟨c.rows ++ E, c.cols⟩ : Colors V) A.agg = setEdgeColors p c A.agg := by
    funext f
    by_cases h3 : p.dim = 3
    · simp only [setEdgeColors, if_pos h3]
      exact key 0 _
    · simp only [setEdgeColors, if_neg h3]
  have k3 : ∀ titles, menuColor p (⟨c.rows ++ E, c.cols⟩ : Colors V) titles A.agg =
      menuColor p c titles A.agg := by
    intro titles
    have : ∀ i, updateColors p (⟨c.rows ++ E, c.cols⟩ : Colors V) titles A.agg i =
        updateColors p c titles A.agg i := fun i => key i _
    unfold menuColor
    simp only [this]
  have k4 : ∀ c'' : Colors V, ifBoth (some c'') (some A.agg) (setEdgeColors p) = setEdgeColors p c'' A.agg :=
    fun _ => rfl
  simp only [PlotArgs.plot, plotPlotly, h1, h1', ok_bind, updateFigure_outcome, k4, ifBoth, k1, k2, setUi,
    newMenuColor, k3]

/-- **C111 (refuted for rows too many).** The same for `plot_matplotlib`. -/
theorem C111_matplotlib_extra_violation (sqrt : K → K) (known : String → Bool)
    (hp : Plottable p size ids pos) (width height : K) (title : Option String) (colors extra : List V)
    (nodeSize : K) (agg : List V → Py K) (cmap : String)
    (hids : ∀ n, p.graph.IsNode n → ∀ i ∈ ids n, i < colors.length) :
    plotMatplotlib sqrt known p width height title (colors ++ extra) nodeSize agg cmap =
      plotMatplotlib sqrt known p width height title colors nodeSize agg cmap := by
  simp only [plotMatplotlib, aggregateGraph_append (fun n hn => ⟨_, hp.attr n hn⟩) hids]

end

section
variable [Field K] [LinearOrder K] [FloorRing K] {p : MapperPlot K} {size : ℤ → ℕ} {ids : ℤ → List ℕ}
  {pos : ℤ → List K}

/-- **C111 (rows).** If a node holds a point without a row of colours, `plot_pyvis` raises `IndexError` and
writes nothing. -/
theorem C111_pyvis_rows_partial (sqrt : K → K) (scale : String → Py (K → String)) (writable : String → Bool)
    (hp : Plottable p size ids pos) (out : String) (colors : List V) (nodeSize : K) (agg : List V → Py K)
    (ha : ∀ l, ∃ v, agg l = .ok v) (title : Option String) (width height : K) (cmap : String)
    (files : PyDict String (PvPage K)) {sample : K → String} (hs : scale cmap = .ok sample)
    (h : PointWithoutRow p.graph ids colors.length) :
    plotPyvis sqrt scale writable p out colors nodeSize agg title width height cmap files =
      (.error .indexError, files) := by
  have h1 : mapPy (nodeSizeOf p.graph) p.graph.nodes.keys = .ok (p.graph.nodes.keys.map size) :=
    mapPy_ok fun n hn => by simp only [nodeSizeOf, PyDict.getItem, hp.attr n hn, ok_bind, pure_eq_ok]
  simp only [plotPyvis, computeNet, hs, h1, ok_bind, aggregate_error hp ha h, error_bind]

/-- **C111 (scales).** `plot_pyvis` reports an unknown colour scale with Plotly's error, and writes nothing. -/
theorem C111_pyvis_scale_partial (sqrt : K → K) (scale : String → Py (K → String)) (writable : String → Bool)
    (p : MapperPlot K) (out : String) (colors : List V) (nodeSize : K) (agg : List V → Py K)
    (title : Option String) (width height : K) (cmap : String) (files : PyDict String (PvPage K))
    {e : PyErr} (hs : scale cmap = .error e) :
    plotPyvis sqrt scale writable p out colors nodeSize agg title width height cmap files =
      (.error e, files) := by
  simp only [plotPyvis, computeNet, hs, error_bind]

/-- **C111 (refuted for rows too many).** The same for `plot_pyvis`. -/
theorem C111_pyvis_extra_violation (sqrt : K → K) (scale : String → Py (K → String))
    (writable : String → Bool) (hp : Plottable p size ids pos) (out : String) (colors extra : List V)
    (nodeSize : K) (agg : List V → Py K) (title : Option String) (width height : K) (cmap : String)
    (files : PyDict String (PvPage K))
    (hids : ∀ n, p.graph.IsNode n → ∀ i ∈ ids n, i < colors.length) :
    plotPyvis sqrt scale writable p out (colors ++ extra) nodeSize agg title width height cmap files =
      plotPyvis sqrt scale writable p out colors nodeSize agg title width height cmap files := by
  simp only [plotPyvis, computeNet, aggregateGraph_append (fun n hn => ⟨_, hp.attr n hn⟩) hids]

end

/-! ### Concrete cases -/

/-- The sum of the values. -/
def demoSum (l : List ℚ) : Py ℚ := .ok l.sum

/-- Two titles for one column. -/
example : ({ demoPlotArgs with colors := .one [1, 2, 3] } : PlotArgs ℚ ℚ).plot demoPalette demoPlot =
    .error .valueError :=
  C111_plot_kind_partial _ _ _ (.inl (.titles (l := ["a", "b"]) (n := 1) rfl rfl (by decide)))

/-- A title that is neither text nor a list, in an update. -/
example : plotPlotlyUpdate (V := ℚ) demoPalette demoPlot demoFig none none none none (some .other) none
    none = (.error .valueError, demoFig) :=
  C111_update_kind_partial _ _ _ _ _ _ _ _ _ _ (.title rfl)

/-- New titles without colours, in an update. -/
example : plotPlotlyUpdate (V := ℚ) demoPalette demoPlot demoFig none none none none
    (some (.many ["a", "b"])) none none = (.error .valueError, demoFig) :=
  C111_update_kind_partial _ _ _ _ _ _ _ _ _ _ (.titles (l := ["a", "b"]) (n := 0) rfl rfl (by decide))

theorem demo_withoutRow : PointWithoutRow demoPlot.graph demoIds 2 := ⟨2, by
  simp [NxGraph.IsNode, demoPlot, demoPlotGraph, PyDict.keys], 2, by decide, le_rfl⟩

/-- Two colours for three points. -/
example : ({ demoPlotArgs with agg := demoSum, colors := .two ⟨[[1, 10], [3, 10]], 2⟩ } :
    PlotArgs ℚ ℚ).plot demoPalette demoPlot = .error .indexError :=
  C111_plotly_rows_partial demoPalette ⟨_, rfl⟩ demo_plottable _ ⟨[[1, 10], [3, 10]], 2⟩ ⟨rfl, by decide⟩ (by decide)
    (fun _ => ⟨_, rfl⟩) ⟨"a", rfl⟩ (by decide) (by decide) demo_withoutRow

example : plotMatplotlib ratSqrt (fun _ => true) demoPlot 100 100 none ([1, 3] : List ℚ) 2 demoSum "jet" =
    .error .indexError :=
  C111_matplotlib_rows_partial _ _ demo_plottable rfl _ _ _ _ _ _ (fun _ => ⟨_, rfl⟩) _ demo_withoutRow

example : plotPyvis ratSqrt demoScale (fun _ => true) demoPlot "out.html" ([1, 3] : List ℚ) 2 demoSum
    none 100 100 "jet" PyDict.empty = (.error .indexError, PyDict.empty) :=
  C111_pyvis_rows_partial _ _ _ demo_plottable _ _ _ _ (fun _ => ⟨_, rfl⟩) _ _ _ _ _ (sample := _) rfl demo_withoutRow

theorem demo_inRange : ∀ n, demoPlot.graph.IsNode n → ∀ i ∈ demoIds n, i < demoColors.rows.length := by
  intro n _ i hi
  have h3 : demoColors.rows.length = 3 := rfl
  unfold demoIds at hi
  split at hi
  · simp at hi; omega
  · split at hi <;> simp at hi <;> omega

/-- No sizes. -/
example : ({ demoPlotArgs with agg := demoSum, nodeSize := some (.many []) } : PlotArgs ℚ ℚ).plot demoPalette
    demoPlot = .error .indexError :=
  C111_empty_partial demoPalette ⟨_, rfl⟩ demo_plottable _ demoColors ⟨rfl, by decide⟩ demo_inRange
    (fun _ => ⟨_, rfl⟩) (by rintro (h | h | ⟨h, h', h''⟩ | h | h) <;> cases h; cases h'; exact h'' rfl)
    (by decide) (.inr (.inl rfl))

/-- A palette without the scale `Nope`. -/
def partPalette : Palette ℚ where
  scale name := if name = "Nope" then .error .valueError else .ok [(0, name), (1, name)]
  known name := if name = "Nope" then none else some name

/-- An unknown scale. -/
example : ({ demoPlotArgs with agg := demoSum, cmap := some (.one "Nope") } : PlotArgs ℚ ℚ).plot partPalette
    demoPlot = .error .valueError :=
  C111_scale_partial (A := { demoPlotArgs with agg := demoSum, cmap := some (.one "Nope") }) (P := partPalette)
    ⟨_, rfl⟩ demo_plottable demoColors ⟨rfl, by decide⟩ (by decide) demo_inRange
    (fun _ => ⟨_, rfl⟩) ⟨"a", rfl⟩ (by decide) (name := "Nope") (rest := []) rfl rfl

/-- Six colours for three points: a plot as with the first three. -/
example : ({ demoPlotArgs with colors := .two ⟨[[1, 10], [3, 10], [5, 40], [7, 7], [8, 8], [9, 9]], 2⟩ } :
    PlotArgs ℚ ℚ).plot demoPalette demoPlot = .ok demoFig :=
  (C111_extra_violation demoPalette demo_plottable demoPlotArgs
    (.two ⟨[[1, 10], [3, 10], [5, 40], [7, 7], [8, 8], [9, 9]], 2⟩) demoColors
    ⟨[[1, 10], [3, 10], [5, 40], [7, 7], [8, 8], [9, 9]], 2⟩ ⟨rfl, by decide⟩ ⟨rfl, by decide⟩ demo_inRange ⟨rfl, [[7, 7], [8, 8], [9, 9]], rfl⟩).trans demoFig_eq

end Verif

import Verif.Spec.AppFigure
import Verif.Proof.Frame
import Verif.Props.Plot

/-!
# Lemmas on the figure of the web app
-/

set_option autoImplicit false

namespace Verif
variable {K : Type}

theorem at_pad {c : Cells K} {l : List (Option K)} (h : c = .number l) (rows i : ℕ) :
    (c.pad rows).at i = match (l[i]?).join with | some x => Cell.num x | none => .nan := by
  subst h
  simp only [Cells.pad, Cells.at]
  by_cases hi : i < l.length
  · rw [List.getElem?_append_left hi]
    cases h : l[i]? with
    | none => rfl
    | some o => cases o <;> rfl
  · rw [List.getElem?_append_right (by omega), List.getElem?_eq_none (by omega : l.length ≤ i)]
    have : ∀ j m : ℕ, (List.replicate m (none : Option K))[j]? = none ∨
        (List.replicate m (none : Option K))[j]? = some none := by
      intro j m
      rw [List.getElem?_replicate]
      split <;> simp
    rcases this (i - l.length) (rows - l.length) with h | h <;> rw [h] <;> rfl

theorem at_pad_value {c : Column K} (h : ∃ l, c.cells = .number l) (rows i : ℕ) :
    ((c.cells.pad rows).at i).toNumber = c.value i ∧ ((c.cells.pad rows).at i).isText = false := by
  obtain ⟨l, h⟩ := h
  rw [at_pad h]
  simp only [Column.value, h]
  cases (l[i]?).join <;> exact ⟨rfl, rfl⟩

theorem concat_columns (d : Drawing K NxGraph) :
    (concatFrames [d.labels, d.dfY, d.df]).columns = d.columns.map fun c =>
      ⟨c.name, c.cells.pad (concatFrames [d.labels, d.dfY, d.df]).rows⟩ := by
  simp [concatFrames, Drawing.columns]

theorem concat_rows (d : Drawing K NxGraph) :
    d.dfY.rows ≤ (concatFrames [d.labels, d.dfY, d.df]).rows := by
  simp [concatFrames]

theorem concat_names (d : Drawing K NxGraph) :
    (concatFrames [d.labels, d.dfY, d.df]).columns.map Column.name = d.columns.map Column.name := by
  rw [concat_columns, List.map_map]; rfl

/-- The arguments of `plot_plotly` in `create_mapper_figure`. -/
def figureArgs [Field K] (d : Drawing K NxGraph) : PlotArgs (Cell K) K where
  colors := .two (concatFrames [d.labels, d.dfY, d.df]).toColors
  nodeSize := some (.many appNodeSizes)
  title := some (.many (d.columns.map Column.name))
  agg := nanMean
  cmap := some (.many appCmaps)
  width := none
  height := some 800

theorem exists_maxSize {g : NxGraph} (size : ℤ → ℕ) {n : ℤ} (hn : g.IsNode n) :
    ∃ m, IsMaxSize g size m := by
  have key : ∀ l : List ℤ, l ≠ [] → ∃ m, (∀ n ∈ l, size n ≤ m) ∧ ∃ n ∈ l, size n = m := by
    intro l
    induction l with
    | nil => simp
    | cons a l ih =>
      intro _
      by_cases hl : l = []
      · subst hl; exact ⟨size a, by simp, a, by simp, rfl⟩
      · obtain ⟨m, h1, b, h2, h3⟩ := ih hl
        rcases Nat.le_total (size a) m with h | h
        · exact ⟨m, by simpa using ⟨h, h1⟩, b, List.mem_cons_of_mem _ h2, h3⟩
        · refine ⟨size a, ?_, a, List.mem_cons_self .., rfl⟩
          intro x hx
          rcases List.mem_cons.mp hx with rfl | hx
          · exact Nat.le_refl _
          · exact (h1 x hx).trans h
  exact key g.nodes.keys (List.ne_nil_of_mem hn)

section
variable [Field K]

theorem figure_eq_ok [LinearOrder K] {E : Engines K} {P : Palette K} {d : Drawing K NxGraph} {f : Fig K} :
    createMapperFigure E P d = .ok f ↔ ∃ p g, newPlot E d.graph d.config.plotDimensions.toNat
      d.config.plotIterations (some d.config.plotSeed) "igraph" = .ok p ∧
      (figureArgs d).plot P p = .ok g ∧ f = { g with width := none, height := none } := by
  unfold createMapperFigure
  simp only [bind_eq_ok, pure_eq_ok, PlotArgs.plot, figureArgs, concat_names]
  constructor
  · rintro ⟨p, h1, g, h2, h3⟩
    exact ⟨p, g, h1, h2, (Except.ok.inj h3).symm⟩
  · rintro ⟨p, g, h1, h2, rfl⟩
    exact ⟨p, h1, g, h2, rfl⟩

theorem nanMean_ok [CharZero K] {c : Column K} (h : ∃ l, c.cells = .number l) (rows : ℕ) {is : List ℕ}
    (hp : ∃ i ∈ is, c.value i ≠ none) :
    ∃ m, nanMean (is.map fun i => (c.cells.pad rows).at i) = .ok m ∧ IsMean m (is.map c.value) := by
  have e : (is.map fun i => (c.cells.pad rows).at i).map Cell.toNumber = is.map c.value := by
    rw [List.map_map]
    exact List.map_congr_left fun i _ => (at_pad_value h rows i).1
  have t : (is.map fun i => (c.cells.pad rows).at i).any Cell.isText = false := by
    rw [List.any_map, List.any_eq_false]
    intro i _
    simp [(at_pad_value h rows i).2]
  obtain ⟨i, hi, hv⟩ := hp
  obtain ⟨x, hx⟩ := Option.ne_none_iff_exists'.mp hv
  obtain ⟨m, h1, h2⟩ := mean_isMean (l := is.map c.value) ⟨x, by
    rw [List.mem_map]; exact ⟨i, hi, hx⟩⟩
  refine ⟨m, ?_, h2⟩
  rw [nanMean, t, e, h1]
  rfl

end

theorem valuesAt_concat {d : Drawing K NxGraph} {k : ℕ} {c : Column K} (hc : d.columns[k]? = some c)
    {is : List ℕ} (hi : ∀ i ∈ is, i < d.dfY.rows) :
    (concatFrames [d.labels, d.dfY, d.df]).toColors.valuesAt k is =
      is.map fun i => (c.cells.pad (concatFrames [d.labels, d.dfY, d.df]).rows).at i := by
  have hr := concat_rows d
  rw [Colors.valuesAt, pointsOf, List.filterMap_filterMap, ← List.filterMap_eq_map]
  refine List.filterMap_congr fun i hm => ?_
  have := hi i hm
  simp only [Frame.toColors, Function.comp_apply]
  rw [List.getElem?_map, List.getElem?_range (by omega)]
  simp [concat_columns, hc]

/-- A placed graph of the app. -/
theorem drawable_plot {E : Engines K} {d : Drawing K NxGraph} {ids : ℤ → List ℕ}
    (h : Drawable E d ids) : ∃ p pos, newPlot E d.graph d.config.plotDimensions.toNat
      d.config.plotIterations (some d.config.plotSeed) "igraph" = .ok p ∧ p.graph = d.graph ∧
      p.dim = d.config.plotDimensions.toNat ∧ Plottable p (fun n => (ids n).length) ids pos ∧
      ∀ layout, E.Layout d.graph d.config.plotDimensions d.config.plotIterations d.config.plotSeed layout →
        ∀ (i : ℕ) n, d.graph.nodes.keys[i]? = some n → layout[i]? = some (pos n) := by
  obtain ⟨layout, hl1, hl2, hl3⟩ := h.place d.graph
  obtain ⟨p, hp, h1, h2, h3, h4⟩ := C53_positions E d.graph h.points.graph.nodup _ _ _
    (fun s hs => by cases hs; exact h.seed) layout hl1 hl2 hl3
  have hlen : d.graph.nodes.len = d.graph.nodes.keys.length := by simp [PyDict.len, PyDict.keys]
  have hpos : ∀ n, d.graph.IsNode n → ∃ row, p.positions.get? n = some row ∧
      row.length = d.config.plotDimensions.toNat := by
    intro n hn
    obtain ⟨i, hi⟩ := List.mem_iff_getElem?.mp hn
    have hlt : i < layout.length := by
      have := (List.getElem?_eq_some_iff.mp hi).1
      omega
    exact ⟨layout[i], by rw [h4 i n hi, List.getElem?_eq_getElem hlt], hl3 _ (List.getElem_mem hlt)⟩
  refine ⟨p, fun n => (p.positions.get? n).getD [], hp, h1, h2, ?_, fun layout' hl' i n hi => ?_⟩
  swap
  · have e : layout' = layout := by
      rcases hl' with ⟨e, hl'⟩ | ⟨e, hl'⟩ <;> rw [e] at hl1 <;>
        rcases hl1 with ⟨e', hl1⟩ | ⟨e', hl1⟩ <;> first | exact absurd e' (by decide) | skip
      · rw [hl'] at hl1; cases hl1; rfl
      · rw [hl'] at hl1; cases hl1; rfl
    obtain ⟨row, k1, _⟩ := hpos n (List.mem_of_getElem? hi)
    simp [e, ← h4 i n hi, k1]
  refine ⟨h1 ▸ h.points.graph, ?_, h1 ▸ h.points.attr, ?_, ?_, ?_⟩
  · rw [h2]
    rcases h.dim with e | e <;> rw [e] <;> simp
  · rw [h1]
    exact fun n hn => List.length_pos_iff.mpr (h.points.nonempty n hn)
  · rw [h1]
    intro n hn
    obtain ⟨row, k1, _⟩ := hpos n hn
    rw [k1]; rfl
  · rw [h1]
    intro n hn
    obtain ⟨row, k1, k2⟩ := hpos n hn
    rw [k1, h2]; exact k2

end Verif

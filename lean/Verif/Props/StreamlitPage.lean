import Verif.Proof.StreamlitPage
import Verif.Props.StreamlitData

/-!
# C115: the Streamlit app shows what its controls say
-/

set_option autoImplicit false
set_option linter.unusedSectionVars false

namespace Verif
variable {K F : Type} [Field K] [LinearOrder K] [DecidableEq F]

theorem rawData_iff (L : StLibs K F) (s : StSource F) (hs : OnMenu s) (X y : Frame K) :
    rawData L s = .ok (X, y) ↔ SourceData L s X y := by
  constructor
  · intro h
    cases s with
    | «example» name =>
      rcases hs with rfl | rfl
      · have e : L.digits = (X, y) := Except.ok.inj h
        have := SourceData.digits (L := L)
        rw [e] at this
        exact this
      · have e : L.iris = (X, y) := Except.ok.inj h
        have := SourceData.iris (L := L)
        rw [e] at this
        exact this
    | openml name => exact .openml name X y h
    | csv f =>
      cases f with
      | none => cases h
      | some f =>
        obtain ⟨X', h1, h⟩ := bind_eq_ok.mp h
        cases h
        exact .csv f X h1
  · rintro (_ | _ | ⟨_, _, _, h⟩ | ⟨_, _, h⟩)
    · rfl
    · rfl
    · exact h
    · simp only [rawData]; rw [h]; rfl

/-- **C115 (the data).** Whatever pages were shown before, a page shows the dataset that the menus
say: the digits or the iris example, what OpenML has under the name, or the uploaded file. -/
theorem C115_data (L : StLibs K F) (ht : TextFaithful L) (h : List (StControls F))
    (c : StControls F) (hc : OnMenu c.source) (v : StView K)
    (hv : (stMain L c (stAfter L {} h)).1 = .ok (some v)) :
    ∃ X y, SourceData L c.source X y ∧ v.dfX = fixData X ∧ v.dfY = fixData y := by
  obtain ⟨hl, _, _⟩ := (C96_graph L ht h c).1 v hv
  unfold loadSource at hl
  obtain ⟨⟨X, y⟩, h1, hl⟩ := bind_eq_ok.mp hl
  obtain ⟨_, _, hl⟩ := bind_eq_ok.mp hl
  obtain ⟨hX, hy⟩ := Prod.mk.inj (Except.ok.inj hl)
  exact ⟨X, y, (rawData_iff L _ hc X y).mp h1, hX.symm, hy.symm⟩

/-- **C115 (no data).** The page is replaced by a message if no file has been uploaded, or the file or
OpenML raise `ValueError`. -/
theorem C115_message (L : StLibs K F) (ht : TextFaithful L) (h : List (StControls F))
    (c : StControls F) (hc : c.source = .csv none ∨
      (∃ f, c.source = .csv (some f) ∧ L.readCsv f = .error .valueError) ∨
      ∃ name, c.source = .openml name ∧ L.openml name = .error .valueError) :
    (stMain L c (stAfter L {} h)).1 = .ok none := by
  apply (C96_graph L ht h c).2.1.mp
  unfold loadSource
  rcases hc with hc | ⟨f, hc, he⟩ | ⟨name, hc, he⟩ <;> rw [hc]
  · rfl
  · simp only [rawData]; rw [he]; rfl
  · simp only [rawData]; rw [he]; rfl

/-- **C115 (the graph).** The graph of a page is that of the chosen estimator for the data shown and
their lens, each scaled if its box is ticked: the box of the clustering scales the data and the box
of the cover scales the lens. -/
theorem C115_graph (L : StLibs K F) (ht : TextFaithful L) (h : List (StControls F))
    (c : StControls F) (v : StView K) (hv : (stMain L c (stAfter L {} h)).1 = .ok (some v)) :
    ∃ y X' y', LensOf L v.dfX.toNumpy c.lens y ∧ ScaledIf L c.scaleClustering v.dfX.toNumpy X' ∧
      ScaledIf L c.scaleCover y y' ∧ L.fitTransform c.cover c.clustering X' y' = .ok v.graph := by
  obtain ⟨hl, hg, _⟩ := (C96_graph L ht h c).1 v hv
  unfold pageGraph at hg
  rw [hl, ok_bind] at hg
  obtain ⟨y, h1, hg⟩ := bind_eq_ok.mp hg
  obtain ⟨X', y', h2, h3, hg⟩ := computeMapper_ok hg
  refine ⟨y, X', y', ?_, h2, h3, hg⟩
  cases hc : c.lens with
    | identity => rw [hc] at h1; cases h1; exact .identity
    | pca n seed =>
      rw [hc] at h1
      simp only [stLens] at h1
      split at h1
      · rename_i hn; cases h1; exact .fewPca n seed hn
      · rename_i hn; exact .pca n seed y (not_lt.mp hn) h1
    | umap n seed =>
      rw [hc] at h1
      simp only [stLens] at h1
      split at h1
      · rename_i hn; cases h1; exact .fewUmap n seed hn
      · rename_i hn; exact .umap n seed y (not_lt.mp hn) h1

/-- **C115 (the figure).** The figure of a page has a slider with the node sizes 0, 0.25, 0.5, … and 2,
which is on 1, the size that is shown. It has the name of the first column of the targets, or of the
features without targets, and the colour scale Jet. -/
theorem C115_controls [CharZero K] (L : StLibs K F) (ht : TextFaithful L) (h : List (StControls F))
    (c : StControls F) (v : StView K) (hv : (stMain L c (stAfter L {} h)).1 = .ok (some v)) :
    v.fig.width = none ∧ v.fig.height = some 600 ∧ v.fig.nodes.sizeref = 1 ∧
    (∃ steps, v.fig.ui.sizes = some (steps, 4) ∧
      steps.map (fun e => 4 * e.1) = [0, 1, 2, 3, 4, 5, 6, 7, 8]) ∧
    L.palette.scale "Jet" = .ok v.fig.nodes.scale ∧
    ((v.dfY.columns ++ v.dfX.columns).map Column.name)[0]? = some v.fig.nodes.title := by
  obtain ⟨c', _, g', p', _, _, _, _, _, _, c'', _, p'', f, _, _, hf, he⟩ := C96_figure L ht h c v hv
  have hA : PlotArgs.plot L.palette p'' ⟨.two (concatFrames [v.dfY, v.dfX]).toColors,
    some (.many stNodeSizes), some (.many ((concatFrames [v.dfY, v.dfX]).columns.map Column.name)),
    stAgg L c.agg, some (.many ["Jet", "Viridis", "Cividis"]), some 600, some 600⟩ = .ok f := hf
  have harr : (ColorsArg.two (concatFrames [v.dfY, v.dfX]).toColors).IsArray
      (concatFrames [v.dfY, v.dfX]).toColors := ⟨rfl, by simp [Frame.toColors]⟩
  obtain ⟨_, h1, h2, ⟨name, hn, hsc⟩, s, hs, hs1, _⟩ := C51_parameters L.palette _ _ harr f hA
  rw [he]
  have h4 : (4 : K) ≠ 0 := by exact_mod_cast (by norm_num : (4 : ℕ) ≠ 0)
  have hsizes : (stNodeSizes : List K).map (fun s => 4 * s) = [0, 1, 2, 3, 4, 5, 6, 7, 8] := by
    simp [stNodeSizes, List.range_succ, h4]
  refine ⟨rfl, h1, ?_, ?_, ?_, ?_⟩
  · have e : s = 1 := by
      have : sizesOf (some (OneOrMany.many (stNodeSizes : List K))) = stNodeSizes := rfl
      rw [this] at hs
      have hlen : (stNodeSizes : List K).length = 9 := by simp [stNodeSizes]
      have := congrArg (fun l => l[4]?) hsizes
      simp only [List.getElem?_map] at this
      rw [hlen] at hs
      rw [hs] at this
      simpa [h4] using this
    subst e
    simpa using hs1 one_ne_zero
  · obtain ⟨cmaps, c, titles, sizes, n0, e0, t0, s', pc, sc, mc, mo, _, _, _, a4, _, _, rfl⟩ :=
      plot_eq_ok.mp hA
    have hs' := toNodeSizes_sizes a4
    subst hs'
    refine ⟨_, Option.some_inj.mpr (Prod.ext rfl ?_), ?_⟩
    · simp [sliderSize, sizesOf, stNodeSizes]
    · rw [← hsizes]
      simp [sliderSize, sizesOf]
  · cases hn; exact hsc
  · rw [← h2]
    simp [titleOf, Frame.toColors, concatFrames, Function.comp_def]

/-- **C115 (the layout stays).** If two pages have graphs with the same nodes and edges, listed in
whatever order, and the same settings of the layout, then the later page draws the nodes where the
earlier one does, whatever pages come before and between. -/
theorem C115_layout (L : StLibs K F) (ht : TextFaithful L)
    (hL : ∀ a b X y g, L.fitTransform a b X y = .ok g → g.nodes.keys.Nodup)
    (h h' : List (StControls F)) (c c' : StControls F) (v v' : StView K)
    (hv : (stMain L c (stAfter L {} h)).1 = .ok (some v))
    (hv' : (stMain L c' (stAfter L {} (h ++ c :: h'))).1 = .ok (some v'))
    (hg : Relisted v.graph v'.graph) (hdim : c'.threeD = c.threeD) (hseed : c'.seed = c.seed)
    (hit : c'.iterations = c.iterations) :
    ∃ pos, MarkersAt v.fig pos ∧ MarkersAt v'.fig pos := by
  have H := (stAfter_ok ht h [] {} (CachesOK.empty L)).mono (h' := h ++ [c]) (by simp_all)
  obtain ⟨p, p1, f1, k1, ⟨c1, _, hp1, e1⟩, hf1, hv1⟩ := stMain_draws ht H c (by simp) v hv
  have hk : keptPlot (stAfter L {} (h ++ c :: h')) v'.graph c' =
      some ((encodeGraph v.graph, stDim c.threeD, c.seed, c.iterations), p) := by
    rw [stAfter_append]
    have := stAfter_keeps L v.graph c _ h' _ k1
    unfold keptPlot at this ⊢
    rw [← encodeGraph_eq hg, hdim, hseed, hit]
    exact this
  have H' := (stAfter_ok ht (h ++ c :: h') [] {} (CachesOK.empty L)).mono
    (h' := (h ++ c :: h') ++ [c']) (by intro a ha; simp at ha ⊢; tauto)
  obtain ⟨p2, f2, ⟨c2, _, hp2, e2⟩, hf2, hv2⟩ := stMain_redraws ht H' c' (by simp) v' hv' hk
  have keys : ∀ c p, pagePlot L c = .ok p →
      p.positions.keys.Nodup ∧ p.positions.keys = p.graph.nodes.keys := by
    intro c p hp
    unfold pagePlot at hp
    obtain ⟨g, hg, hp⟩ := bind_eq_ok.mp hp
    unfold computeMapperPlot at hp
    obtain ⟨_, _, hp⟩ := bind_eq_ok.mp hp
    have hn : g.nodes.keys.Nodup := by
      unfold pageGraph at hg
      obtain ⟨d, _, hg⟩ := bind_eq_ok.mp hg
      obtain ⟨y, _, hg⟩ := bind_eq_ok.mp hg
      obtain ⟨X', y', _, _, hg⟩ := computeMapper_ok hg
      exact hL _ _ _ _ _ hg
    obtain ⟨a, b⟩ := newPlot_keys hn (by split <;> simp) hp
    rw [a, b]
    exact ⟨hn, rfl⟩
  refine ⟨p.positions, ?_, ?_⟩
  · have := placedAt (keys c1 p1 hp1).1 (keys c1 p1 hp1).2 hf1
    rw [hv1, ← e1]
    exact this
  · have := placedAt (keys c2 p2 hp2).1 (keys c2 p2 hp2).2 hf2
    rw [hv2, ← e2]
    exact this

/-! ### A concrete server -/

theorem stColors_shown {r : Py (Option (StView ℚ)) × StCaches ℚ Bool} {l : List ℚ}
    (h : stColors r = .ok (some l)) : ∃ v, r.1 = .ok (some v) := by
  unfold stColors at h
  split at h
  · cases h
  · cases h
  · rename_i v hv; exact ⟨v, hv⟩

/-- Non-vacuity: an uploaded file, with the reduction of its only column to two columns. -/
example : ∃ v, (stMain stLibs { stPage true with lens := .pca 2 42 } (stAfter stLibs {}
      [stPage false])).1 = .ok (some v) ∧ v.dfX = fixData (stFile true) ∧
    LensOf stLibs v.dfX.toNumpy (.pca 2 42) v.dfX.toNumpy := by
  obtain ⟨v, hr⟩ := stColors_shown (r := stMain stLibs { stPage true with lens := .pca 2 42 }
    (stAfter stLibs {} [stPage false])) (l := [3 / 2]) (by decide +kernel)
  obtain ⟨X, y, h1, h2, _⟩ := C115_data stLibs stLibs_text _ _
    (show OnMenu (StSource.csv (some true)) from trivial) v hr
  cases h1 with
  | csv f X h =>
    cases h
    exact ⟨v, hr, h2, .fewPca 2 42 (by rw [h2]; decide +kernel)⟩

/-- Without an upload there is a message. -/
example : (stMain stLibs { stPage true with source := .csv none } (stAfter stLibs {}
    [stPage false])).1 = .ok none :=
  C115_message stLibs stLibs_text _ _ (.inl rfl)

/-- The same nodes and edges, listed in other orders. -/
example : Relisted ⟨⟨[(0, ⟨some 1, some [0]⟩), (1, ⟨some 1, some [1]⟩), (2, ⟨some 1, some [2]⟩)]⟩,
      ⟨[(0, [1]), (1, [0, 2]), (2, [1])]⟩⟩
    ⟨⟨[(2, ⟨some 3, some [7, 8, 9]⟩), (0, ⟨some 1, some [4]⟩), (1, ⟨some 1, some [6]⟩)]⟩,
      ⟨[(2, [1]), (0, [1]), (1, [2, 0])]⟩⟩ :=
  ⟨by decide, [(0, 1), (2, 1)], by decide, by
    refine .cons (.inl rfl) (.cons (.inr rfl) .nil)⟩

/-- Non-vacuity: the mean and then the mode of the same graph. -/
example : ∃ v v', (stMain stLibs (stPage true) {}).1 = .ok (some v) ∧
    (stMain stLibs { stPage true with agg := .mode } (stAfter stLibs {}
      [stPage true, stPage false])).1 = .ok (some v') ∧
    ∃ pos, MarkersAt v.fig pos ∧ MarkersAt v'.fig pos := by
  obtain ⟨v, hv⟩ := stColors_shown (r := stMain stLibs (stPage true) {}) (l := [3]) (by decide +kernel)
  obtain ⟨v', hv'⟩ := stColors_shown (r := stMain stLibs { stPage true with agg := .mode }
    (stAfter stLibs {} [stPage true, stPage false])) (l := [1]) (by decide +kernel)
  refine ⟨v, v', hv, hv', C115_layout stLibs stLibs_text ?_ [] [stPage false] (stPage true)
    { stPage true with agg := .mode } v v' hv hv' ?_ rfl rfl rfl⟩
  · intro a b X y g hg
    exact mapperGraph_nodup hg
  · have e1 := ((C96_graph stLibs stLibs_text [] (stPage true)).1 v hv).2.1
    have e2 := ((C96_graph stLibs stLibs_text [stPage true, stPage false]
      { stPage true with agg := .mode }).1 v' hv').2.1
    change pageGraph stLibs (stPage true) = _ at e2
    rw [e1] at e2
    rw [Except.ok.inj e2]
    exact ⟨.refl _, _, .refl _, List.forall₂_same.mpr fun _ _ => .inl rfl⟩

end Verif

import Verif.Proof.Streamlit
import Verif.Props.Plot

/-!
# C96, C97: the Streamlit app

The caches of the Streamlit app, over all histories of pages shown by the server; and its smaller
functions.
-/

set_option autoImplicit false
set_option linter.unusedSectionVars false

namespace Verif
variable {K F : Type} [Field K] [LinearOrder K] [DecidableEq F]

/-- **C96 (a new server).** The first page of a server shows what is computed anew. -/
theorem C96_first (L : StLibs K F) (c : StControls F) : (stMain L c {}).1 = pageView L c := by
  unfold stMain pageView dataSection cacheData
  simp only [List.find?_nil]
  cases hl : loadSource L c.source with
  | error e => cases e <;> rfl
  | ok d =>
    obtain ⟨dfX, dfY⟩ := d
    simp only
    unfold pagePlot graphSection pageGraph cacheData
    rw [hl, ok_bind]
    simp only [List.find?_nil]
    cases stLens L dfX.toNumpy c.lens with
    | error e => rfl
    | ok y =>
      simp only [ok_bind]
      cases computeMapper L c.cover c.clustering dfX.toNumpy y c.scaleClustering c.scaleCover with
      | error e => rfl
      | ok g =>
        simp only [ok_bind]
        unfold plotSection cacheData
        simp only [List.find?_nil]
        unfold stDim
        cases computeMapperPlot L g (if c.threeD then 3 else 2) c.seed c.iterations with
        | error e => rfl
        | ok p =>
          simp only [ok_bind]
          unfold figSection cacheData
          simp only [List.find?_nil]
          cases computeMapperFig L p (concatFrames [dfY, dfX]) c.agg with
          | error e => rfl
          | ok f => rfl

/-- **C96 (data, graph and statistics).** Whatever pages were shown before, a page has the data, the
graph and the statistics computed anew for its controls, provided that estimators with the same
text compute the same graphs; and failures to load the data or to compute the graph are those of a
computation anew. -/
theorem C96_graph (L : StLibs K F) (ht : TextFaithful L) (h : List (StControls F))
    (c : StControls F) :
    (∀ v, (stMain L c (stAfter L {} h)).1 = .ok (some v) →
      loadSource L c.source = .ok (v.dfX, v.dfY) ∧ pageGraph L c = .ok v.graph ∧
      v.stats = [v.dfX.rows, v.dfX.columns.length, v.dfY.columns.length, v.graph.nodes.len,
        v.graph.edges.length, L.components v.graph]) ∧
    (loadSource L c.source = .error .valueError ↔
      (stMain L c (stAfter L {} h)).1 = .ok none) ∧
    ∀ e, e ≠ .valueError ∨ (∃ d, loadSource L c.source = .ok d) → pageGraph L c = .error e →
      (stMain L c (stAfter L {} h)).1 = .error e := by
  have H := (stAfter_ok ht h [] {} (CachesOK.empty L)).mono (h' := h ++ [c]) (by simp_all)
  obtain ⟨_, m1, m2, m3⟩ := stMain_ok ht H c (by simp)
  cases hl : loadSource L c.source with
  | error e =>
    have hg : pageGraph L c = .error e := by unfold pageGraph; rw [hl]; rfl
    by_cases he : e = .valueError
    · subst he
      rw [m1 hl]
      refine ⟨by simp, by simp, fun e' h' hg' => ?_⟩
      rw [hg] at hg'; cases hg'
      rcases h' with h' | ⟨d, h'⟩
      · exact absurd rfl h'
      · cases h'
    · rw [m2 e hl he]
      refine ⟨by simp, by simp [he], fun e' _ hg' => ?_⟩
      rw [hg] at hg'; cases hg'; rfl
  | ok d =>
    obtain ⟨dfX, dfY⟩ := d
    obtain ⟨m4, m5⟩ := m3 dfX dfY hl
    cases hg : pageGraph L c with
    | error e =>
      rw [m4 e hg]
      exact ⟨by simp, by simp, fun e' _ h' => by cases h'; rfl⟩
    | ok g =>
      rcases m5 g hg with ⟨e, _, h2⟩ | ⟨c', _, g', p', _, _, _, _, _, _, c'', _, p'', _, _, h2⟩
      · rw [h2]
        exact ⟨by simp, by simp, by simp⟩
      · rw [h2]
        cases computeMapperFig L p'' (concatFrames [dfY, dfX]) c.agg with
        | error e => exact ⟨by simp [Except.map], by simp [Except.map], by simp⟩
        | ok f =>
          refine ⟨fun v hv => ?_, by simp [Except.map], by simp⟩
          simp only [Except.map, Except.ok.injEq, Option.some.injEq] at hv
          subst hv
          exact ⟨rfl, rfl, rfl⟩

/-- **C96 (the figure).** The figure of a page is drawn with the colours of its data, but from the
plot of a page shown before, or of this one: a plot with the positions of a graph that has the
same nodes and edges as the graph of this page. -/
theorem C96_figure (L : StLibs K F) (ht : TextFaithful L) (h : List (StControls F))
    (c : StControls F) (v : StView K) (hv : (stMain L c (stAfter L {} h)).1 = .ok (some v)) :
    ∃ c' ∈ h ++ [c], ∃ g' p', pageGraph L c' = .ok g' ∧ pagePlot L c' = .ok p' ∧
      SameShape g' v.graph ∧ c'.threeD = c.threeD ∧ c'.seed = c.seed ∧
      c'.iterations = c.iterations ∧
      ∃ c'' ∈ h ++ [c], ∃ p'' f, pagePlot L c'' = .ok p'' ∧ p''.positions = p'.positions ∧
        computeMapperFig L p'' (concatFrames [v.dfY, v.dfX]) c.agg = .ok f ∧
        v.fig = { f with width := none } := by
  have H := (stAfter_ok ht h [] {} (CachesOK.empty L)).mono (h' := h ++ [c]) (by simp_all)
  obtain ⟨_, m1, m2, m3⟩ := stMain_ok ht H c (by simp)
  obtain ⟨hl, hg, _⟩ := (C96_graph L ht h c).1 v hv
  obtain ⟨m4, m5⟩ := m3 _ _ hl
  rcases m5 _ hg with ⟨e, _, h2⟩ | ⟨c', a1, g', p', a2, a3, a4, a5, a6, a7, c'', b1, p'', b2, b3, h2⟩
  · rw [hv] at h2; cases h2
  · rw [hv] at h2
    cases hf : computeMapperFig L p'' (concatFrames [v.dfY, v.dfX]) c.agg with
    | error e => rw [hf] at h2; cases h2
    | ok f =>
      rw [hf] at h2
      simp only [Except.map, Except.ok.injEq, Option.some.injEq] at h2
      refine ⟨c', a1, g', p', a2, a3, a4, a5, a6, a7, c'', b1, p'', f, b2, b3, hf, ?_⟩
      rw [h2]

/-- **C96 (part that holds).** A page is the page of a new server if estimators with the same text
compute the same graphs, no page shown before had a different graph with the same nodes and edges
for the same dimension, seed and iterations, and none had a different plot with the same positions.
Missing: pages shown before with such graphs, see `C96_colors_violation` and
`C96_raises_violation`. -/
theorem C96_page_partial (L : StLibs K F) (ht : TextFaithful L) (h : List (StControls F))
    (c : StControls F)
    (hg : ∀ c' ∈ h, ∀ g g', pageGraph L c' = .ok g' → pageGraph L c = .ok g → SameShape g' g →
      c'.threeD = c.threeD → c'.seed = c.seed → c'.iterations = c.iterations → g' = g)
    (hp : ∀ c' ∈ h, ∀ p p', pagePlot L c' = .ok p' → pagePlot L c = .ok p →
      p'.positions = p.positions → p' = p) :
    (stMain L c (stAfter L {} h)).1 = (stMain L c {}).1 := by
  have H := (stAfter_ok ht h [] {} (CachesOK.empty L)).mono (h' := h ++ [c]) (by simp_all)
  obtain ⟨_, m1, m2, m3⟩ := stMain_ok ht H c (by simp)
  rw [C96_first]
  unfold pageView
  cases hl : loadSource L c.source with
  | error e =>
    by_cases he : e = .valueError
    · subst he; exact m1 hl
    · rw [m2 e hl he]
      cases e <;> first | rfl | exact absurd rfl he
  | ok d =>
    obtain ⟨dfX, dfY⟩ := d
    obtain ⟨m4, m5⟩ := m3 dfX dfY hl
    simp only
    cases hgr : pageGraph L c with
    | error e => rw [m4 e hgr]; rfl
    | ok g =>
      have hpc : pagePlot L c = computeMapperPlot L g (stDim c.threeD) c.seed c.iterations := by
        unfold pagePlot; rw [hgr, ok_bind]; rfl
      rw [ok_bind]
      rcases m5 g hgr with ⟨e, h1, h2⟩ | ⟨c', a1, g', p', a2, a3, a4, a5, a6, a7, c'', b1, p'', b2, b3, h2⟩
      · rw [h2, h1]; rfl
      · have hgg : g' = g := by
          rcases List.mem_append.mp a1 with h1 | h1
          · exact hg c' h1 g g' a2 hgr a4 a5 a6 a7
          · rw [List.mem_singleton.mp h1, hgr] at a2; cases a2; rfl
        have hpp : pagePlot L c = .ok p' := by
          rw [hpc, ← hgg, ← a3]
          unfold pagePlot
          rw [a2, ok_bind, a5, a6, a7]; rfl
        have hqq : p'' = p' := by
          rcases List.mem_append.mp b1 with h1 | h1
          · exact hp c'' h1 p' p'' b2 hpp b3
          · rw [List.mem_singleton.mp h1, hpp] at b2; cases b2; rfl
        rw [h2, hpp, hqq, ok_bind]
        cases computeMapperFig L p' (concatFrames [dfY, dfX]) c.agg <;> rfl

/-! ### A concrete server -/

/-- Two files, of three and of two rows. -/
def stFile (b : Bool) : Frame ℚ :=
  if b then ⟨3, [⟨"a", .number [some 1, some 2, some 6]⟩]⟩
  else ⟨2, [⟨"a", .number [some 5, some 7]⟩]⟩

/-- A server. The estimator with the trivial cover and clustering is Mapper with one chart, every
other one is taken to have a chart for each row. -/
def stLibs : StLibs ℚ Bool where
  digits := (.none, .none)
  iris := (.none, .none)
  openml _ := .error .valueError
  readCsv b := .ok (stFile b)
  pca _ _ X := .ok X
  umap _ _ X := .ok X
  scale X := .ok X
  text a _ := if a = .trivial then "MapperAlgorithm()" else "MapperAlgorithm(cover=KNNCover())"
  fitTransform a _ X y := mapperGraph (List.range X.rows) (List.range y.rows)
    (if a = .trivial then trivialCover else fun l => .ok ((List.range l.length).map fun i => [i]))
    fun _ => trivialClustering
  components g := g.nodes.len
  std _ := .ok 0
  quantile _ _ := .ok 0
  engines := ⟨fun g _ _ => .ok (g.nodes.keys.map fun _ => [0, 0]),
    fun g _ _ => .ok (g.nodes.keys.map fun n => [n, 0, 0]), fun _ _ _ _ => .ok .empty⟩
  palette := demoPalette
  limits := none

theorem stLibs_text : TextFaithful stLibs := by
  intro a b a' b' h
  simp only [stLibs] at h ⊢
  by_cases h1 : a = .trivial <;> by_cases h2 : a' = .trivial <;> simp [h1, h2] at h ⊢

/-- The page of a file with the identity as the lens and the trivial cover. -/
def stPage (b : Bool) : StControls Bool :=
  { source := .csv (some b), lens := .identity, cover := .trivial }

/-- The colours of the nodes in the figure of a page. -/
def stColors (r : Py (Option (StView ℚ)) × StCaches ℚ Bool) : Py (Option (List ℚ)) :=
  match r.1 with
  | .error e => .error e
  | .ok none => .ok none
  | .ok (some v) => .ok v.fig.nodes.color

/-- **C96 (violation).** After the page of another file the colours can be wrong: the node holds
all three rows, with mean 3, but is coloured by the mean of the first two, since the plot is the one
kept for the other file. -/
theorem C96_colors_violation : ∃ (L : StLibs ℚ Bool) (c c' : StControls Bool), TextFaithful L ∧
    stColors (stMain L c {}) = .ok (some [3]) ∧
    stColors (stMain L c (stAfter L {} [c'])) = .ok (some [3 / 2]) :=
  ⟨stLibs, stPage true, stPage false, stLibs_text, by decide +kernel, by decide +kernel⟩

/-- **C96 (violation).** A page can fail after the page of another file, although on a new server it
does not: the plot kept for the larger file refers to rows that do not exist. -/
theorem C96_raises_violation : ∃ (L : StLibs ℚ Bool) (c c' : StControls Bool), TextFaithful L ∧
    stColors (stMain L c {}) = .ok (some [6]) ∧
    stColors (stMain L c (stAfter L {} [c'])) = .error .indexError :=
  ⟨stLibs, stPage false, stPage true, stLibs_text, by decide +kernel, by decide +kernel⟩

/-- Non-vacuity: the same file before with another aggregation, and with another cover. -/
example : (stMain stLibs (stPage true) (stAfter stLibs {} [{ stPage true with agg := .mode },
    { stPage true with cover := .knn 1 }])).1 = (stMain stLibs (stPage true) {}).1 := by
  refine C96_page_partial stLibs stLibs_text _ _ ?_ ?_
  · intro c' hc' g g' h1 h2 hs _ _ _
    simp only [List.mem_cons, List.not_mem_nil, or_false] at hc'
    rcases hc' with rfl | rfl
    · change pageGraph stLibs (stPage true) = _ at h1
      rw [h2] at h1; cases h1; rfl
    · have e1 : pageGraph stLibs { stPage true with cover := .knn 1 } =
        .ok ⟨⟨[(0, ⟨some 1, some [0]⟩), (1, ⟨some 1, some [1]⟩), (2, ⟨some 1, some [2]⟩)]⟩,
          ⟨[(0, []), (1, []), (2, [])]⟩⟩ := rfl
      have e2 : pageGraph stLibs (stPage true) = .ok ⟨⟨[(0, ⟨some 3, some [0, 1, 2]⟩)]⟩,
          ⟨[(0, [])]⟩⟩ := rfl
      rw [e1] at h1; rw [e2] at h2; cases h1; cases h2
      exact absurd ((hs.1 1).mp (by decide)) (by decide)
  · intro c' hc' p p' h1 h2 hs
    simp only [List.mem_cons, List.not_mem_nil, or_false] at hc'
    rcases hc' with rfl | rfl
    · change pagePlot stLibs (stPage true) = _ at h1
      rw [h2] at h1; cases h1; rfl
    · have e1 : (pagePlot stLibs { stPage true with cover := .knn 1 }).map MapperPlot.positions =
        .ok ⟨[(0, [0, 0, 0]), (1, [1, 0, 0]), (2, [2, 0, 0])]⟩ := by decide +kernel
      have e2 : (pagePlot stLibs (stPage true)).map MapperPlot.positions = .ok ⟨[(0, [0, 0, 0])]⟩ := by
        decide +kernel
      rw [h1] at e1; rw [h2] at e2
      simp only [Except.map, Except.ok.injEq] at e1 e2
      rw [e1, e2] at hs
      exact absurd hs (by decide)

end Verif

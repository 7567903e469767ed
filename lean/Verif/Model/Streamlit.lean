import Verif.Model.AppFigure
import Mathlib.Data.List.Sort

/-!
# Model of `app/streamlit_app.py`

The page of the older web app: a script that is run from the top whenever a control is changed
(`main`), with functions whose results are kept by `st.cache_data` for the whole server.

The layout of the page, texts, spinners and logging are left out. The module as committed only shows
a notice (`redirect`); `main` is modelled as it would run. scikit-learn, UMAP, OpenML, the aggregations
`np.nanstd` and `np.nanquantile`, and `MapperAlgorithm.fit_transform` (modelled in `Verif.Model.Learn`)
are arbitrary functions that may raise. They are taken to be deterministic.
-/

set_option autoImplicit false

namespace Verif

/-! ### `st.cache_data` -/

section cache
variable {A V : Type} [DecidableEq A]

/-- A function under `@st.cache_data(max_entries=…)` called with arguments of key `k`, if its body
would return or raise `body`. Results are kept by key; exceptions are not kept. The result is a
copy, so that changes to it do not reach the cache. The keys stand for Streamlit's hashes: equal
hashes of different keys, and its sampling of very large arrays, are left out. -/
def cacheData (maxEntries : Option ℕ) (k : A) (body : Py V) (m : List (A × V)) :
    Py V × List (A × V) :=
  match m.find? fun e => e.1 = k with
  | some e => (.ok e.2, m)
  | none =>
    match body with
    | .error e => (.error e, m)
    | .ok v => (.ok v, match maxEntries with
      | none => (k, v) :: m
      | some n => ((k, v) :: m).take n)

end cache

/-! ### The controls -/

/-- streamlit_app.py:309-328 `data_input_section`: what is to be loaded. A file has a name or
content of type `F`; `none` is no file. -/
inductive StSource (F : Type) where
  | example (name : String)
  | openml (name : String)
  | csv (file : Option F)
  deriving DecidableEq

/-- streamlit_app.py:331-380 `mapper_lens_input_section`. -/
inductive StLens where
  | identity
  | pca (n seed : ℤ)
  | umap (n seed : ℤ)
  deriving DecidableEq

/-- streamlit_app.py:383-432 `mapper_cover_input_section`, 435-499 `mapper_clustering_cover`. -/
inductive StCover where
  | trivial
  | ball (radius : ℚ) (metric : String)
  | cubical (nIntervals : ℤ) (overlapFrac : Option ℚ)
  | knn (neighbors : ℤ)
  deriving DecidableEq

/-- streamlit_app.py:502-630: the clusterings. -/
inductive StClustering where
  | trivial
  | cover (c : StCover)
  | kmeans (nClusters : ℤ)
  | agglomerative (nClusters : ℤ) (linkage metric : String)
  | dbscan (eps : ℚ) (minSamples : ℤ) (metric : String)
  | hdbscan (minClusterSize : ℤ) (metric : String)
  | affinity (damping : ℚ) (maxIter : ℤ)
  deriving DecidableEq

/-- streamlit_app.py:663-693 `plot_agg_input_section`. The slider has steps of 0.01; the rank is
given in percent, and is determined by the text `agg_name`. -/
inductive StAgg where
  | mean
  | std
  | mode
  | quantile (percent : ℕ)
  deriving DecidableEq

/-- The values of all the controls. -/
structure StControls (F : Type) where
  source : StSource F
  lens : StLens := .pca 2 42
  scaleCover : Bool := false
  cover : StCover := .cubical 10 none
  scaleClustering : Bool := false
  clustering : StClustering := .trivial
  threeD : Bool := true
  seed : ℤ := 42
  iterations : ℤ := 50
  agg : StAgg := .mean
  deriving DecidableEq

/-- streamlit_app.py:33-41: the limits, `none` if they are not enabled. -/
structure StLimits where
  samples : ℕ := 10000
  features : ℕ := 1000
  nodes : ℕ := 2000
  edges : ℕ := 3000

/-- The libraries. `text` is `MapperAlgorithm.__repr__`. -/
structure StLibs (K F : Type) where
  digits : Frame K × Frame K
  iris : Frame K × Frame K
  openml : String → Py (Frame K × Frame K)
  readCsv : F → Py (Frame K)
  pca : ℤ → ℤ → Array2 K → Py (Array2 K)
  umap : ℤ → ℤ → Array2 K → Py (Array2 K)
  scale : Array2 K → Py (Array2 K)
  text : StCover → StClustering → String
  fitTransform : StCover → StClustering → Array2 K → Array2 K → Py NxGraph
  components : NxGraph → ℕ
  std : List (Cell K) → Py K
  quantile : ℕ → List (Cell K) → Py K
  engines : Engines K
  palette : Palette K
  limits : Option StLimits

section functions
variable {K F : Type}

/-! ### Data -/

/-- streamlit_app.py:190-205 `_check_limits_dataset`. -/
def checkLimitsDataset (lim : Option StLimits) (dfX dfY : Frame K) : Py Unit :=
  match lim with
  | none => .ok ()
  | some l =>
    if dfX.rows > l.samples then .error .valueError
    else if dfX.columns.length + dfY.columns.length > l.features then .error .valueError
    else .ok ()

/-- streamlit_app.py:285-304: the dataset as loaded. Unknown examples give empty tables. -/
def rawData (L : StLibs K F) : StSource F → Py (Frame K × Frame K)
  | .example name =>
    if name = "Digits" then .ok L.digits
    else if name = "Iris" then .ok L.iris
    else .ok (.none, .none)
  | .openml name => L.openml name
  | .csv none => .error .valueError
  | .csv (some f) => do
    let X ← L.readCsv f
    return (X, .none)

/-- streamlit_app.py:283-306 `load_data`, without the cache. `_fix_data` (208-213) is the function
`fix_data` of the other app. -/
def loadSource [Field K] (L : StLibs K F) (s : StSource F) : Py (Frame K × Frame K) := do
  let (X, y) ← rawData L s
  let dfX := fixData X
  let dfY := fixData y
  checkLimitsDataset L.limits dfX dfY
  return (dfX, dfY)

/-- streamlit_app.py:331-380: the lens. -/
def stLens (L : StLibs K F) (X : Array2 K) : StLens → Py (Array2 K)
  | .identity => .ok X
  | .pca n seed => if n > X.cols.length then .ok X else L.pca n seed X
  | .umap n seed => if n > X.cols.length then .ok X else L.umap n seed X

/-! ### The graph -/

/-- streamlit_app.py:633-644 `compute_mapper`, without the cache. -/
def computeMapper (L : StLibs K F) (cover : StCover) (clustering : StClustering) (X y : Array2 K)
    (scaleClustering scaleCover : Bool) : Py NxGraph := do
  let X ← if scaleClustering then L.scale X else .ok X
  let y ← if scaleCover then L.scale y else .ok y
  L.fitTransform cover clustering X y

/-- streamlit_app.py:172-187 `_check_limits_mapper_graph`. -/
def checkLimitsGraph (lim : Option StLimits) (g : NxGraph) : Py Unit :=
  match lim with
  | none => .ok ()
  | some l =>
    if g.nodes.len > l.nodes then .error .valueError
    else if g.edges.length > l.edges then .error .valueError
    else .ok ()

/-- `tuple(sorted(e))` of an edge. -/
def sortPair (e : ℤ × ℤ) : ℤ × ℤ := if e.1 ≤ e.2 then e else (e.2, e.1)

/-- The order of pairs in Python. -/
def pairLe (a b : ℤ × ℤ) : Bool := a.1 < b.1 || (a.1 == b.1 && a.2 ≤ b.2)

/-- streamlit_app.py:216-226 `_get_graph_no_attribs` and `_encode_graph`: the sorted nodes and the
sorted edges. -/
def encodeGraph (g : NxGraph) : List ℤ × List (ℤ × ℤ) :=
  (g.nodes.keys.insertionSort (· ≤ ·),
    (g.edges.map sortPair).insertionSort fun a b => pairLe a b = true)

/-- streamlit_app.py:700-713 `compute_mapper_plot`, without the cache. -/
def computeMapperPlot (L : StLibs K F) (g : NxGraph) (dim : ℕ) (seed iterations : ℤ) :
    Py (MapperPlot K) := do
  checkLimitsGraph L.limits g
  newPlot L.engines g dim iterations (some seed) "igraph"

/-! ### The figure -/

/-- The first of the values with the greatest number of occurrences in `l`: `np.argmax`. -/
def argmaxCount [DecidableEq K] (l : List K) : List K → Option K
  | [] => none
  | x :: rest =>
    match argmaxCount l rest with
    | none => some x
    | some y => if l.count y > l.count x then some y else some x

/-- streamlit_app.py:246-249 `mode` of numbers: `np.unique` gives the distinct values in ascending
order with their numbers of occurrences. `np.argmax` of no values raises. -/
def modeOf [LinearOrder K] (l : List K) : Py K :=
  match argmaxCount l (l.dedup.insertionSort (· ≤ ·)) with
  | some x => .ok x
  | none => .error .valueError

/-- streamlit_app.py:246-249 `mode` of an array. Texts among numbers raise `TypeError`. NaN as the
answer has no counterpart in the model and `valueError` stands for it, as in `nanMean`: NaN comes
last and is chosen if it is more frequent than every number. -/
def modeCells [LinearOrder K] (l : List (Cell K)) : Py K :=
  if l.any Cell.isText then .error .typeError
  else do
    let nums := l.filterMap Cell.toNumber
    let m ← modeOf nums
    if l.length - nums.length > nums.count m then .error .valueError else .ok m

/-- streamlit_app.py:663-693: the aggregation. -/
def stAgg [Field K] [LinearOrder K] (L : StLibs K F) : StAgg → List (Cell K) → Py K
  | .mean => nanMean
  | .std => L.std
  | .mode => modeCells
  | .quantile q => L.quantile q

/-- streamlit_app.py:753 `[0.25 * i for i in range(9)]`. -/
def stNodeSizes [Field K] : List K := (List.range 9).map fun i : ℕ => (1 / 4) * (i : K)

/-- streamlit_app.py:745-761 `compute_mapper_fig`, without the cache. -/
def computeMapperFig [Field K] [LinearOrder K] (L : StLibs K F) (p : MapperPlot K)
    (colors : Frame K) (agg : StAgg) : Py (Fig K) :=
  plotPlotly L.palette p (.two colors.toColors) (some (.many stNodeSizes))
    (some (.many (colors.columns.map Column.name))) (stAgg L agg)
    (some (.many ["Jet", "Viridis", "Cividis"])) (some 600) (some 600)

end functions

/-! ### The page -/

section page
variable {K F : Type}

/-- The key of `compute_mapper`: the text of the estimator, the arrays and the flags. -/
abbrev MapperKey (K : Type) := String × Array2 K × Array2 K × Bool × Bool

/-- The key of `compute_mapper_plot`: the nodes and edges of the graph, dimension, seed and
iterations. -/
abbrev PlotKey := (List ℤ × List (ℤ × ℤ)) × ℕ × ℤ × ℤ

/-- The key of `compute_mapper_fig`: the positions of the plot, the colours, and the name of the
aggregation. The aggregation itself is left out (its parameter is named `_agg`). -/
abbrev FigKey (K : Type) := PyDict ℤ (List K) × Frame K × StAgg

/-- What the server keeps between runs of the script. -/
structure StCaches (K F : Type) where
  data : List (StSource F × (Frame K × Frame K)) := []
  mapper : List (MapperKey K × NxGraph) := []
  plot : List (PlotKey × MapperPlot K) := []
  fig : List (FigKey K × Fig K) := []

/-- What the page shows: the data, the graph (which can be downloaded), the figure, and the table of
statistics. -/
structure StView (K : Type) where
  dfX : Frame K
  dfY : Frame K
  graph : NxGraph
  fig : Fig K
  stats : List ℕ

/-- streamlit_app.py:838-857: samples, features, targets, nodes, edges, components. -/
def stStats (L : StLibs K F) (dfX dfY : Frame K) (g : NxGraph) : List ℕ :=
  [dfX.rows, dfX.columns.length, dfY.columns.length, g.nodes.len, g.edges.length, L.components g]

/-- streamlit_app.py:716-722: the dimension of the layout. -/
def stDim (threeD : Bool) : ℕ := if threeD then 3 else 2

variable [Field K] [LinearOrder K] [DecidableEq F]

/-- streamlit_app.py:764-786, 811-834: the figure of a plot, with the changes of the layout that the
model records. -/
def figSection (L : StLibs K F) (p : MapperPlot K) (dfX dfY : Frame K) (agg : StAgg)
    (s : StCaches K F) : Py (Fig K) × StCaches K F :=
  let colors := concatFrames [dfY, dfX]
  match cacheData none (p.positions, colors, agg) (computeMapperFig L p colors agg) s.fig with
  | (.error e, m) => (.error e, { s with fig := m })
  | (.ok f, m) => (.ok { f with width := none }, { s with fig := m })

/-- streamlit_app.py:647-660 `mapper_input_section`: the graph. -/
def graphSection (L : StLibs K F) (c : StControls F) (X : Array2 K) (s : StCaches K F) :
    Py NxGraph × StCaches K F :=
  match stLens L X c.lens with
  | .error e => (.error e, s)
  | .ok y =>
    match cacheData none (L.text c.cover c.clustering, X, y, c.scaleClustering, c.scaleCover)
      (computeMapper L c.cover c.clustering X y c.scaleClustering c.scaleCover) s.mapper with
    | (r, m) => (r, { s with mapper := m })

/-- streamlit_app.py:716-738 `mapper_plot_section`: the plot. -/
def plotSection (L : StLibs K F) (c : StControls F) (g : NxGraph) (s : StCaches K F) :
    Py (MapperPlot K) × StCaches K F :=
  match cacheData none (encodeGraph g, stDim c.threeD, c.seed, c.iterations)
    (computeMapperPlot L g (stDim c.threeD) c.seed c.iterations) s.plot with
  | (r, m) => (r, { s with plot := m })

/-- streamlit_app.py:283-306 `load_data`: the result for the last source is kept. -/
def dataSection (L : StLibs K F) (c : StControls F) (s : StCaches K F) :
    Py (Frame K × Frame K) × StCaches K F :=
  match cacheData (some 1) c.source (loadSource L c.source) s.data with
  | (r, m) => (r, { s with data := m })

/-- streamlit_app.py:934-959 `main`. `none` is the message shown when loading raises `ValueError`;
other exceptions are shown by Streamlit. -/
def stMain (L : StLibs K F) (c : StControls F) (s : StCaches K F) :
    Py (Option (StView K)) × StCaches K F :=
  match dataSection L c s with
  | (.error .valueError, s) => (.ok none, s)
  | (.error e, s) => (.error e, s)
  | (.ok (dfX, dfY), s) =>
    match graphSection L c dfX.toNumpy s with
    | (.error e, s) => (.error e, s)
    | (.ok g, s) =>
      match plotSection L c g s with
      | (.error e, s) => (.error e, s)
      | (.ok p, s) =>
        match figSection L p dfX dfY c.agg s with
        | (.error e, s) => (.error e, s)
        | (.ok f, s) => (.ok (some ⟨dfX, dfY, g, f, stStats L dfX dfY g⟩), s)

/-- The caches after runs of the script with the given controls, by any users. -/
def stAfter (L : StLibs K F) (s : StCaches K F) : List (StControls F) → StCaches K F
  | [] => s
  | c :: rest => stAfter L (stMain L c s).2 rest

end page

/-! ### Downloads -/

section download
variable {K : Type}

/-- streamlit_app.py:891 `pd.concat([df_X, df_y])`: the rows of the first table, then those of the
second; the columns of both, with missing values where a table lacks the column. Tables are assumed
to have no column in common, as then pandas merges them. -/
def stackFrames (f g : Frame K) : Frame K :=
  let below : Cells K → Cells K
    | .number l => .number (l ++ List.replicate g.rows none)
    | .other l => .other (l ++ List.replicate g.rows none)
  let above : Cells K → Cells K
    | .number l => .number (List.replicate f.rows none ++ l)
    | .other l => .other (List.replicate f.rows none ++ l)
  ⟨f.rows + g.rows, f.columns.map (fun c => ⟨c.name, below c.cells⟩) ++
    g.columns.map (fun c => ⟨c.name, above c.cells⟩)⟩

/-- streamlit_app.py:890-912 `data_download_button`: the table that is downloaded. -/
def downloadData (dfX dfY : Frame K) : Frame K := stackFrames dfX dfY

end download

end Verif

import Mathlib.Data.Rat.Floor
import Verif.Model.Frame

/-!
# Model of the web app

`app.py` without its layout: the configuration read from the widgets, `run_mapper`,
and the handlers of the buttons as a machine with asynchronous tasks.

Numbers entered in widgets are exact rationals. scikit-learn, UMAP and
`MapperAlgorithm.fit_transform` (modelled in `Verif.Model.Learn`) appear as arbitrary
functions that may raise.
-/

set_option autoImplicit false

namespace Verif

/-- app.py:94-141 `MapperConfig` with its defaults (app.py:56-91). -/
structure MapperConfig where
  excludedColumns : List String := []
  lensType : String := "PCA"
  coverScaleData : Bool := false
  coverType : String := "Cubical Cover"
  clusteringScaleData : Bool := false
  clusteringType : String := "Skip"
  lensPcaNComponents : ℤ := 2
  lensUmapNComponents : ℤ := 2
  coverCubicalNIntervals : ℤ := 10
  coverCubicalOverlapFrac : ℚ := 1 / 4
  coverBallRadius : ℚ := 100
  coverKnnNeighbors : ℤ := 10
  clusteringKmeansNClusters : ℤ := 2
  clusteringDbscanEps : ℚ := 1 / 2
  clusteringDbscanMinSamples : ℤ := 5
  clusteringAgglomerativeNClusters : ℤ := 2
  plotDimensions : ℤ := 2
  plotIterations : ℤ := 100
  plotSeed : ℤ := 42
  deriving DecidableEq

/-- The values of the widgets (app.py:493-710), `none` for `None`. The initial values
are those of a new page. -/
structure Widgets where
  loadType : String := "Example"
  loadExample : String := "Digits"
  excludedOptions : List String := []
  excludedColumns : Option (List String) := none
  lensType : Option String := some "PCA"
  coverScale : Bool := false
  coverType : Option String := some "Cubical Cover"
  clusteringScale : Bool := false
  clusteringType : Option String := some "Skip"
  lensPcaNComponents : Option ℚ := some 2
  lensUmapNComponents : Option ℚ := some 2
  coverCubicalNIntervals : Option ℚ := some 10
  coverCubicalOverlapFrac : Option ℚ := some (1 / 4)
  coverBallRadius : Option ℚ := some 100
  coverKnnNeighbors : Option ℚ := some 10
  clusteringKmeansNClusters : Option ℚ := some 2
  clusteringDbscanEps : Option ℚ := some (1 / 2)
  clusteringDbscanMinSamples : Option ℚ := some 5
  clusteringAgglomerativeNClusters : Option ℚ := some 2
  plotDimensions : Option ℚ := some 2
  plotIterations : Option ℚ := some 100
  plotSeed : Option ℚ := some 42
  deriving DecidableEq

/-- `int(q)`: rounding towards zero. -/
def pyInt (q : ℚ) : ℤ := if 0 ≤ q then ⌊q⌋ else ⌈q⌉

/-- `int(v) if v else default`. -/
def intOr (v : Option ℚ) (default : ℤ) : ℤ :=
  match v with
  | some q => if q = 0 then default else pyInt q
  | none => default

/-- `float(v) if v else default`. -/
def floatOr (v : Option ℚ) (default : ℚ) : ℚ :=
  match v with
  | some q => if q = 0 then default else q
  | none => default

/-- `str(v) if v else default`. -/
def strOr (v : Option String) (default : String) : String :=
  match v with
  | some s => if s = "" then default else s
  | none => default

/-- `v if v else []`. -/
def listOr (v : Option (List String)) : List String :=
  match v with
  | some l => l
  | none => []

/-- app.py:735-821 `get_mapper_config`. `int(None)` raises `TypeError`. -/
def getMapperConfig (w : Widgets) : Py MapperConfig :=
  match w.plotDimensions with
  | none => .error .typeError
  | some q =>
    let plotDim := pyInt q
    let plotDimensions := if plotDim = 2 then 2 else if plotDim = 3 then 3 else 2
    .ok {
      excludedColumns := listOr w.excludedColumns
      lensType := strOr w.lensType "PCA"
      coverType := strOr w.coverType "Cubical Cover"
      clusteringType := strOr w.clusteringType "Skip"
      lensPcaNComponents := intOr w.lensPcaNComponents 2
      lensUmapNComponents := intOr w.lensUmapNComponents 2
      coverCubicalNIntervals := intOr w.coverCubicalNIntervals 10
      coverCubicalOverlapFrac := floatOr w.coverCubicalOverlapFrac (1 / 4)
      coverBallRadius := floatOr w.coverBallRadius 100
      coverKnnNeighbors := intOr w.coverKnnNeighbors 10
      clusteringKmeansNClusters := intOr w.clusteringKmeansNClusters 2
      clusteringDbscanEps := floatOr w.clusteringDbscanEps (1 / 2)
      clusteringDbscanMinSamples := intOr w.clusteringDbscanMinSamples 5
      clusteringAgglomerativeNClusters := intOr w.clusteringAgglomerativeNClusters 2
      plotDimensions := plotDimensions
      plotIterations := intOr w.plotIterations 100
      plotSeed := intOr w.plotSeed 42 }

/-- A two-dimensional array, by columns. -/
structure Array2 (K : Type) where
  rows : ℕ
  cols : List (Cells K)
  deriving DecidableEq

/-- The cover constructed by `run_mapper`, with its arguments. -/
inductive CoverChoice where
  | cubical (nIntervals : ℤ) (overlapFrac : ℚ)
  | ball (radius : ℚ)
  | knn (neighbors : ℤ)
  deriving DecidableEq

/-- The clustering constructed by `run_mapper`, with its arguments. -/
inductive ClusteringChoice where
  | trivial
  | kmeans (nClusters : ℤ) (randomState : ℤ)
  | dbscan (eps : ℚ) (minSamples : ℤ)
  | agglomerative (nClusters : ℤ)
  deriving DecidableEq

/-- The libraries: `PCA(n_components, random_state).fit_transform`, the same of
`UMAP`, `StandardScaler().fit_transform`, and
`MapperAlgorithm(cover, clustering).fit_transform(X, y)` with graphs of type `G`. -/
structure Libs (K G : Type) where
  pca : ℤ → ℤ → Array2 K → Py (Array2 K)
  umap : ℤ → ℤ → Array2 K → Py (Array2 K)
  scale : Array2 K → Py (Array2 K)
  fitTransform : CoverChoice → ClusteringChoice → Array2 K → Array2 K → Py G

variable {K G : Type}

/-- `df.to_numpy()`. -/
def Frame.toNumpy (f : Frame K) : Array2 K := ⟨f.rows, f.columns.map Column.cells⟩

/-- `df.drop(columns=names, errors="ignore")`. -/
def Frame.drop (f : Frame K) (names : List String) : Frame K :=
  { f with columns := f.columns.filter fun c => !names.contains c.name }

/-- app.py:160-203, 246-252: the lens. -/
def lensFn (L : Libs K G) (cfg : MapperConfig) (X : Array2 K) : Py (Array2 K) :=
  if cfg.lensType = "Identity" then .ok X
  else if cfg.lensType = "PCA" then L.pca cfg.lensPcaNComponents 42 X
  else if cfg.lensType = "UMAP" then L.umap cfg.lensUmapNComponents 42 X
  else L.pca 2 42 X

/-- app.py:254-266: the cover. -/
def chooseCover (cfg : MapperConfig) : Option CoverChoice :=
  if cfg.coverType = "Cubical Cover" then
    some (.cubical cfg.coverCubicalNIntervals cfg.coverCubicalOverlapFrac)
  else if cfg.coverType = "Ball Cover" then some (.ball cfg.coverBallRadius)
  else if cfg.coverType = "KNN Cover" then some (.knn cfg.coverKnnNeighbors)
  else none

/-- app.py:268-287: the clustering. -/
def chooseClustering (cfg : MapperConfig) : Option ClusteringChoice :=
  if cfg.clusteringType = "Skip" then some .trivial
  else if cfg.clusteringType = "KMeans" then some (.kmeans cfg.clusteringKmeansNClusters 42)
  else if cfg.clusteringType = "DBSCAN" then
    some (.dbscan cfg.clusteringDbscanEps cfg.clusteringDbscanMinSamples)
  else if cfg.clusteringType = "Agglomerative Clustering" then
    some (.agglomerative cfg.clusteringAgglomerativeNClusters)
  else none

/-- app.py:296 `pd.DataFrame(y, columns=[f"{lens_type} {i}" for i in range(y.shape[1])])`. -/
def lensFrame (lensType : String) (y : Array2 K) : Frame K :=
  ⟨y.rows, y.cols.mapIdx fun i c => ⟨lensType ++ " " ++ toString i, c⟩⟩

/-- `StandardScaler().fit_transform(a)` if the flag is set. -/
def scaleIf (L : Libs K G) (flag : Bool) (a : Array2 K) : Py (Array2 K) :=
  if flag then L.scale a else .ok a

/-- app.py:206-303 `run_mapper`; `none` is `None`. Logging is left out. -/
def runMapper (L : Libs K G) (df : Option (Frame K)) (cfg : MapperConfig) :
    Py (Option (G × Frame K)) :=
  match df with
  | none => .ok none
  | some df =>
    if df.empty then .ok none
    else
      match chooseCover cfg with
      | none => .ok none
      | some cover =>
        match chooseClustering cfg with
        | none => .ok none
        | some clustering => do
          let X := if cfg.excludedColumns.isEmpty then df.toNumpy
            else (df.drop cfg.excludedColumns).toNumpy
          let y ← lensFn L cfg X
          let dfY := lensFrame cfg.lensType y
          let y ← scaleIf L cfg.coverScaleData y
          let X ← scaleIf L cfg.clusteringScaleData X
          let g ← L.fitTransform cover clustering X y
          return some (g, dfY)

/-! ### The page -/

/-- `self.storage`; `none` for a missing key. -/
structure Storage (K G : Type) where
  df : Option (Frame K) := none
  labels : Option (Frame K) := none
  dfY : Option (Frame K) := none
  graph : Option G := none
  deriving DecidableEq

/-- What `create_mapper_figure` is called with (app.py:306-312); the figure is a
function of it. -/
structure Drawing (K G : Type) where
  df : Frame K
  dfY : Frame K
  labels : Frame K
  graph : G
  config : MapperConfig
  deriving DecidableEq

/-- A handler that waits for a computation in another process: `run_mapper` of the
given data, or the drawing of a figure. -/
inductive Task (K G : Type) where
  | run (df : Frame K) (config : MapperConfig)
  | draw (d : Drawing K G)
  deriving DecidableEq

/-- The page: storage, widgets, waiting handlers and the figure shown. -/
structure Page (K G : Type) where
  storage : Storage K G := {}
  widgets : Widgets := {}
  tasks : List (Task K G) := []
  shown : Option (Drawing K G) := none
  deriving DecidableEq

/-- The outside of the page: the libraries, the two example datasets (data and
labels), and whether `create_mapper_figure` succeeds. -/
structure Outside (K G : Type) where
  libs : Libs K G
  digits : Frame K × Frame K
  iris : Frame K × Frame K
  draws : Drawing K G → Bool

/-- What can happen: a file is uploaded (`none` is no file, an error is one of
`read_csv`), a button is pressed, a widget is changed, or the computation that the
`i`-th waiting handler waits for ends. -/
inductive Event (K : Type) where
  | upload (file : Option (Py (Frame K)))
  | load
  | change (w : Widgets)
  | clickRun
  | clickRedraw
  | finish (i : ℕ)

/-- app.py:823-841 `upload_file`. -/
def uploadFile [Field K] (file : Option (Py (Frame K))) (s : Storage K G) : Storage K G :=
  match file with
  | some (.ok df) => { s with df := some (fixData df), labels := some .none }
  | _ => s

/-- app.py:855-866: the example datasets, `none` if the name is unknown. -/
def exampleData (O : Outside K G) (name : String) : Option (Frame K × Frame K) :=
  if name = "Digits" then some O.digits
  else if name = "Iris" then some O.iris
  else none

/-- app.py:879-887: the end of `load_data`. -/
def loadColumns (p : Page K G) : Page K G :=
  let df := p.storage.df.getD .none
  if df.empty then p
  else { p with widgets := { p.widgets with
    excludedOptions := df.columns.map Column.name, excludedColumns := some [] } }

/-- app.py:843-887 `load_data`. -/
def loadData [Field K] (O : Outside K G) (p : Page K G) : Page K G :=
  if p.widgets.loadType = "Example" then
    match exampleData O p.widgets.loadExample with
    | none => p
    | some (df, labels) => loadColumns { p with storage :=
        { p.storage with df := some (fixData df), labels := some (fixData labels) } }
  else if p.widgets.loadType = "CSV" then
    if (p.storage.df.getD .none).empty then p else loadColumns p
  else p

/-- app.py:970-995: `async_draw_mapper` up to its `await`. -/
def startDraw (p : Page K G) : Page K G :=
  match getMapperConfig p.widgets with
  | .error _ => p
  | .ok cfg =>
    let df := p.storage.df.getD .none
    match p.storage.graph with
    | none => p
    | some g =>
      if df.empty then p
      else { p with tasks := p.tasks ++
        [.draw ⟨df, p.storage.dfY.getD .none, p.storage.labels.getD .none, g, cfg⟩] }

/-- app.py:930-940: `async_run_mapper` up to its `await`. -/
def startRun (p : Page K G) : Page K G :=
  let df := p.storage.df.getD .none
  if df.empty then p
  else
    match getMapperConfig p.widgets with
    | .error _ => p
    | .ok cfg => { p with tasks := p.tasks ++ [.run df cfg] }

/-- app.py:940-958: `async_run_mapper` after its `await`. An exception of `run_mapper`
is reported to the user. -/
def finishRun (O : Outside K G) (df : Frame K) (cfg : MapperConfig) (p : Page K G) : Page K G :=
  match runMapper O.libs (some df) cfg with
  | .error _ => p
  | .ok none => p
  | .ok (some (g, dfY)) =>
    startDraw { p with storage := { p.storage with graph := some g, dfY := some dfY } }

/-- app.py:996-1010: `async_draw_mapper` after its `await`. -/
def finishDraw (O : Outside K G) (d : Drawing K G) (p : Page K G) : Page K G :=
  if O.draws d then { p with shown := some d } else p

/-- One event. Handlers are not interrupted except where they wait. -/
def Page.next [Field K] (O : Outside K G) (p : Page K G) : Event K → Page K G
  | .upload file => { p with storage := uploadFile file p.storage }
  | .load => loadData O p
  | .change w => { p with widgets := w }
  | .clickRun => startRun p
  | .clickRedraw => startDraw p
  | .finish i =>
    match p.tasks[i]? with
    | none => p
    | some (.run df cfg) => finishRun O df cfg { p with tasks := p.tasks.eraseIdx i }
    | some (.draw d) => finishDraw O d { p with tasks := p.tasks.eraseIdx i }

/-- A history of events. -/
def Page.after [Field K] (O : Outside K G) (p : Page K G) (es : List (Event K)) : Page K G :=
  es.foldl (Page.next O) p

end Verif

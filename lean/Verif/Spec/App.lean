import Verif.Model.App
import Verif.Spec.Frame

/-!
# Specification of the web app
-/

set_option autoImplicit false

namespace Verif
variable {K G : Type}

/-- `n` is `q` without its fractional part. -/
def TruncatesTo (q : ℚ) (n : ℤ) : Prop := |(n : ℚ)| ≤ |q| ∧ |q - n| < 1 ∧ 0 ≤ q * n

/-- A whole number in the configuration: the default if nothing is entered, and the
number entered if it is not zero. -/
def IntSetting (entered : Option ℚ) (default r : ℤ) : Prop :=
  (entered = none → r = default) ∧ ∀ q, entered = some q → q ≠ 0 → TruncatesTo q r

/-- The same for any number. -/
def NumSetting (entered : Option ℚ) (default r : ℚ) : Prop :=
  (entered = none → r = default) ∧ ∀ q, entered = some q → q ≠ 0 → r = q

/-- A choice in the configuration: the default if nothing is selected. -/
def TextSetting (selected : Option String) (default r : String) : Prop :=
  (selected = none → r = default) ∧ ∀ s, selected = some s → s ≠ "" → r = s

/-- The configuration has the settings entered by the user, except for zeros and the
two scaling switches. -/
structure Honours (w : Widgets) (c : MapperConfig) : Prop where
  excluded : c.excludedColumns = w.excludedColumns.getD []
  lens : TextSetting w.lensType "PCA" c.lensType
  cover : TextSetting w.coverType "Cubical Cover" c.coverType
  clustering : TextSetting w.clusteringType "Skip" c.clusteringType
  pca : IntSetting w.lensPcaNComponents 2 c.lensPcaNComponents
  umap : IntSetting w.lensUmapNComponents 2 c.lensUmapNComponents
  intervals : IntSetting w.coverCubicalNIntervals 10 c.coverCubicalNIntervals
  overlap : NumSetting w.coverCubicalOverlapFrac (1 / 4) c.coverCubicalOverlapFrac
  radius : NumSetting w.coverBallRadius 100 c.coverBallRadius
  neighbors : IntSetting w.coverKnnNeighbors 10 c.coverKnnNeighbors
  kmeans : IntSetting w.clusteringKmeansNClusters 2 c.clusteringKmeansNClusters
  eps : NumSetting w.clusteringDbscanEps (1 / 2) c.clusteringDbscanEps
  minSamples : IntSetting w.clusteringDbscanMinSamples 5 c.clusteringDbscanMinSamples
  agglomerative : IntSetting w.clusteringAgglomerativeNClusters 2 c.clusteringAgglomerativeNClusters
  dim2 : w.plotDimensions = some 2 → c.plotDimensions = 2
  dim3 : w.plotDimensions = some 3 → c.plotDimensions = 3
  iterations : IntSetting w.plotIterations 100 c.plotIterations
  seed : IntSetting w.plotSeed 42 c.plotSeed

/-- The cover that a configuration asks for. -/
inductive CoverFor (c : MapperConfig) : CoverChoice → Prop
  | cubical : c.coverType = "Cubical Cover" →
      CoverFor c (.cubical c.coverCubicalNIntervals c.coverCubicalOverlapFrac)
  | ball : c.coverType = "Ball Cover" → CoverFor c (.ball c.coverBallRadius)
  | knn : c.coverType = "KNN Cover" → CoverFor c (.knn c.coverKnnNeighbors)

/-- The clustering that a configuration asks for. -/
inductive ClusteringFor (c : MapperConfig) : ClusteringChoice → Prop
  | trivial : c.clusteringType = "Skip" → ClusteringFor c .trivial
  | kmeans : c.clusteringType = "KMeans" →
      ClusteringFor c (.kmeans c.clusteringKmeansNClusters 42)
  | dbscan : c.clusteringType = "DBSCAN" →
      ClusteringFor c (.dbscan c.clusteringDbscanEps c.clusteringDbscanMinSamples)
  | agglomerative : c.clusteringType = "Agglomerative Clustering" →
      ClusteringFor c (.agglomerative c.clusteringAgglomerativeNClusters)

/-- The lens values that a configuration asks for; a PCA with two components if the
lens is unknown. -/
inductive LensFor (L : Libs K G) (c : MapperConfig) (X : Array2 K) : Py (Array2 K) → Prop
  | identity : c.lensType = "Identity" → LensFor L c X (.ok X)
  | pca : c.lensType = "PCA" → LensFor L c X (L.pca c.lensPcaNComponents 42 X)
  | umap : c.lensType = "UMAP" → LensFor L c X (L.umap c.lensUmapNComponents 42 X)
  | unknown : c.lensType ≠ "Identity" → c.lensType ≠ "PCA" → c.lensType ≠ "UMAP" →
      LensFor L c X (L.pca 2 42 X)

/-- `X` has the columns of the table that are not excluded, in order. -/
def SelectedColumns (df : Frame K) (excluded : List String) (X : Array2 K) : Prop :=
  X.rows = df.rows ∧
  X.cols = (df.columns.filter fun c => decide (c.name ∉ excluded)).map Column.cells

/-- `a` scaled if asked for. -/
def Scaled (L : Libs K G) (flag : Bool) (a b : Array2 K) : Prop :=
  (flag = true → L.scale a = .ok b) ∧ (flag = false → b = a)

/-- The table has the columns of `y`, named after the lens and numbered. -/
def NamesLens (lensType : String) (y : Array2 K) (f : Frame K) : Prop :=
  f.rows = y.rows ∧ f.columns.length = y.cols.length ∧
  ∀ (i : ℕ) (c : Cells K), y.cols[i]? = some c →
    f.columns[i]? = some ⟨s!"{lensType} {i}", c⟩

/-- The page when it is opened. -/
def Page.new : Page K G := {}

/-- At some time of the history the page held the data and the settings. -/
def HeldBefore [Field K] (O : Outside K G) (es : List (Event K)) (df : Frame K)
    (cfg : MapperConfig) : Prop :=
  ∃ pre, pre <+: es ∧ (Page.new.after O pre).storage.df = some df ∧
    getMapperConfig (Page.new.after O pre).widgets = .ok cfg

/-- The graph is the result of Mapper on this data, for some settings. -/
def ComputedFrom (L : Libs K G) (g : G) (df : Frame K) : Prop :=
  ∃ cfg y, runMapper L (some df) cfg = .ok (some (g, y))

/-- The event may change the data. -/
def Event.changesData : Event K → Prop
  | .upload _ => True
  | .load => True
  | _ => False

end Verif

import Verif.Model.AppFigure
import Verif.Spec.App
import Verif.Spec.Plot

/-!
# Specification of the figure of the web app
-/

set_option autoImplicit false

namespace Verif
variable {K : Type}

/-- The number in row `i` of the column, `none` if there is no such row or no value. -/
def Column.value (c : Column K) (i : ℕ) : Option K :=
  match c.cells with
  | .number l => (l[i]?).join
  | .other _ => none

/-- The columns that colour the graph: labels, lens values, data. -/
def Drawing.columns {G : Type} (d : Drawing K G) : List (Column K) :=
  d.labels.columns ++ d.dfY.columns ++ d.df.columns

/-- The graph has the given points at its nodes. -/
structure NxGraph.HasPoints (g : NxGraph) (ids : ℤ → List ℕ) : Prop where
  graph : g.WellFormed
  attr : ∀ n, g.IsNode n → g.nodes.get? n = some ⟨some (ids n).length, some (ids n)⟩
  nonempty : ∀ n, g.IsNode n → ids n ≠ []

/-- What the app draws: two or three dimensions; columns of numbers, at
least one; a graph on rows of the table of lens values; and for every node and
every column some value. -/
structure Drawable (E : Engines K) (d : Drawing K NxGraph) (ids : ℤ → List ℕ) : Prop where
  points : d.graph.HasPoints ids
  dim : d.config.plotDimensions = 2 ∨ d.config.plotDimensions = 3
  seed : 0 ≤ d.config.plotSeed
  place : E.Place d.config.plotDimensions.toNat d.config.plotIterations (some d.config.plotSeed)
  rows : ∀ n, d.graph.IsNode n → ∀ i ∈ ids n, i < d.dfY.rows
  numbers : ∀ c ∈ d.columns, ∃ l, c.cells = .number l
  colored : d.columns ≠ []
  present : ∀ c ∈ d.columns, ∀ n, d.graph.IsNode n → ∃ i ∈ ids n, c.value i ≠ none

/-- The layout by igraph of the graph in two or three dimensions, with the iterations and
the seed given. -/
def Engines.Layout (E : Engines K) (g : NxGraph) (dim iterations seed : ℤ) (layout : List (List K)) :
    Prop :=
  dim = 2 ∧ E.fr2 g iterations (some seed) = .ok layout ∨
    dim = 3 ∧ E.fr3 g iterations (some seed) = .ok layout

/-- In the traces the marker of each node has for colour the mean of the column over the
points of the node, as far as they have a value. -/
def ColoredBy [Field K] (g : NxGraph) (ids : ℤ → List ℕ) (c : Column K) (t : NodesTrace K) : Prop :=
  ∃ colors, t.color = some colors ∧ colors.length = g.nodes.len ∧
    ∀ (i : ℕ) n, g.nodes.keys[i]? = some n →
      ∃ m, colors[i]? = some m ∧ IsMean m ((ids n).map c.value)

/-- Every column has a number in every row. -/
def Array2.Complete (a : Array2 K) : Prop :=
  ∀ c ∈ a.cols, ∃ l, c = .number l ∧ l.length = a.rows ∧ none ∉ l

/-- What the app expects of the libraries: lenses give numbers for every row, scaling keeps
the rows, and a Mapper graph has rows of the lens values at its nodes. -/
structure Libs.Good (L : Libs K NxGraph) : Prop where
  pca : ∀ n s X y, X.Complete → L.pca n s X = .ok y → y.rows = X.rows ∧ y.Complete
  umap : ∀ n s X y, X.Complete → L.umap n s X = .ok y → y.rows = X.rows ∧ y.Complete
  scale : ∀ X y, X.Complete → L.scale X = .ok y → y.rows = X.rows ∧ y.Complete
  mapper : ∀ cv cl X y g, X.Complete → y.Complete → X.rows = y.rows →
    L.fitTransform cv cl X y = .ok g →
    ∃ ids, g.HasPoints ids ∧ ∀ n, g.IsNode n → ∀ i ∈ ids n, i < y.rows

end Verif

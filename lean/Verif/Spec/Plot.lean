import Verif.Model.Plot
import Verif.Spec.Core

/-!
# Specifications for plots
-/

set_option autoImplicit false

namespace Verif

/-- An undirected graph as networkx keeps it: every node has a repetition-free list of
neighbours, and adjacency is symmetric. -/
structure NxGraph.WellFormed (g : NxGraph) : Prop where
  nodup : g.nodes.keys.Nodup
  adjKeys : g.adj.keys = g.nodes.keys
  nbrs : ∀ u nb, g.adj.get? u = some nb → nb.Nodup
  symm : ∀ u v, g.Adj u v → g.Adj v u

/-- A list of the edges of a graph, each once, in one of its two directions. -/
structure NxGraph.IsEdgeList (g : NxGraph) (es : List (ℤ × ℤ)) : Prop where
  nodup : es.Nodup
  sound : ∀ u v, (u, v) ∈ es → g.Adj u v
  complete : ∀ u v, g.Adj u v → (u, v) ∈ es ∨ (v, u) ∈ es
  once : ∀ u v, u ≠ v → (u, v) ∈ es → (v, u) ∉ es

variable {K V : Type}

/-- A plot that can be drawn: a graph in two or three dimensions whose nodes have sizes,
points and positions. -/
structure Plottable (p : MapperPlot K) (size : ℤ → ℕ) (ids : ℤ → List ℕ) (pos : ℤ → List K) :
    Prop where
  graph : p.graph.WellFormed
  dim : p.dim = 2 ∨ p.dim = 3
  attr : ∀ n, p.graph.IsNode n → p.graph.nodes.get? n = some ⟨some (size n), some (ids n)⟩
  size_pos : ∀ n, p.graph.IsNode n → 0 < size n
  placed : ∀ n, p.graph.IsNode n → p.positions.get? n = some (pos n)
  pos_dim : ∀ n, p.graph.IsNode n → (pos n).length = p.dim

/-- igraph succeeds for every graph, giving each vertex as many coordinates as there are
dimensions. -/
def Engines.Place (E : Engines K) (dim : ℕ) (iterations : ℤ) (seed : Option ℤ) : Prop :=
  ∀ g, ∃ layout, (dim = 2 ∧ E.fr2 g iterations seed = .ok layout ∨
      dim = 3 ∧ E.fr3 g iterations seed = .ok layout) ∧
    layout.length = g.nodes.len ∧ ∀ row ∈ layout, row.length = dim

/-- The largest size of a node. -/
def IsMaxSize (g : NxGraph) (size : ℤ → ℕ) (m : ℕ) : Prop :=
  (∀ n, g.IsNode n → size n ≤ m) ∧ ∃ n, g.IsNode n ∧ size n = m

/-- The value of the argument `colors`: an array with rows and columns. -/
def ColorsArg.IsArray : ColorsArg V → Colors V → Prop
  | .one l, c => c.cols = 1 ∧ c.rows = l.map fun x => [x]
  | .two c', c => c = c' ∧ ∀ row ∈ c.rows, row.length = c.cols
  | .other, _ => False

/-- The values of the given points in column `k`. -/
def Colors.valuesAt (c : Colors V) (k : ℕ) (ids : List ℕ) : List V :=
  (pointsOf c.rows ids).filterMap fun row => row[k]?

/-- The title of column `i` of `n`. -/
def titleOf (title : Option (OneOrMany String)) (n i : ℕ) : Option String :=
  match title with
  | none => if i < n then some (toString i) else none
  | some (.one t) =>
    if i < n then some (if n = 1 then t else t ++ " [" ++ toString i ++ "]") else none
  | some (.many l) => if l.length = n then l[i]? else none
  | some .other => none

/-- The colour scales named by the argument `cmap`. -/
def namesOf : Option (OneOrMany String) → List String
  | none => ["Jet"]
  | some (.one c) => [c]
  | some (.many l) => l
  | some .other => []

/-- The sizes given by the argument `node_size`. -/
def sizesOf : Option (OneOrMany K) → List K
  | some (.one s) => [s]
  | some (.many l) => l
  | _ => []

/-- Two figures show the same: the same traces. -/
def SameTraces (f g : Fig K) : Prop := f.nodes = g.nodes ∧ f.edges = g.edges

/-- The arguments of `plot_plotly`. -/
structure PlotArgs (V K : Type) where
  colors : ColorsArg V
  nodeSize : Option (OneOrMany K)
  title : Option (OneOrMany String)
  agg : List V → Py K
  cmap : Option (OneOrMany String)
  width : Option ℤ
  height : Option ℤ

/-- `mapper_plot.plot_plotly(**args)`. -/
def PlotArgs.plot [Field K] [LinearOrder K] (P : Palette K) (p : MapperPlot K) (a : PlotArgs V K) :
    Py (Fig K) :=
  plotPlotly P p a.colors a.nodeSize a.title a.agg a.cmap a.width a.height

/-- The arguments of `plot_plotly_update`, where colours, aggregation and title are
given together or not at all. -/
structure UpdateArgs (V K : Type) where
  colors : Option (ColorsArg V × (List V → Py K) × OneOrMany String)
  nodeSize : Option (OneOrMany K)
  cmap : Option (OneOrMany String)
  width : Option ℤ
  height : Option ℤ

/-- `mapper_plot.plot_plotly_update(fig, **args)`. -/
def UpdateArgs.apply [Field K] [LinearOrder K] (P : Palette K) (p : MapperPlot K)
    (b : UpdateArgs V K) (f : Fig K) : Py Unit × Fig K :=
  plotPlotlyUpdate P p f b.width b.height b.nodeSize (b.colors.map fun x => x.1)
    (b.colors.map fun x => x.2.2) (b.colors.map fun x => x.2.1) b.cmap

/-- The arguments that are given replace those of the plot. -/
def PlotArgs.override (a : PlotArgs V K) (b : UpdateArgs V K) : PlotArgs V K where
  colors := (b.colors.map fun x => x.1).getD a.colors
  agg := (b.colors.map fun x => x.2.1).getD a.agg
  title := (b.colors.map fun x => some x.2.2).getD a.title
  nodeSize := if b.nodeSize.isSome then b.nodeSize else a.nodeSize
  cmap := if b.cmap.isSome then b.cmap else a.cmap
  width := if b.width.isSome then b.width else a.width
  height := if b.height.isSome then b.height else a.height

end Verif

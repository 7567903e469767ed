import Verif.Model.Streamlit

/-!
# Specification: a page without caches
-/

set_option autoImplicit false

namespace Verif
variable {K F : Type}

/-- The two graphs have the same nodes and the same edges, and as many of them, whatever their order
and direction, and whatever is stored at the nodes. -/
def SameShape (g g' : NxGraph) : Prop :=
  (∀ u, u ∈ g.nodes.keys ↔ u ∈ g'.nodes.keys) ∧
  (∀ u v, ((u, v) ∈ g.edges ∨ (v, u) ∈ g.edges) ↔ ((u, v) ∈ g'.edges ∨ (v, u) ∈ g'.edges)) ∧
  g.nodes.len = g'.nodes.len ∧ g.edges.length = g'.edges.length

/-- The most frequent element of the list, the least one if there are several. -/
def IsMode [LinearOrder K] (l : List K) (x : K) : Prop :=
  x ∈ l ∧ (∀ y ∈ l, l.count y ≤ l.count x) ∧ ∀ y ∈ l, l.count y = l.count x → x ≤ y

/-- Data and graph within the limits. -/
def WithinLimits (l : StLimits) (v : StView K) : Prop :=
  v.dfX.rows ≤ l.samples ∧ v.dfX.columns.length + v.dfY.columns.length ≤ l.features ∧
  v.graph.nodes.len ≤ l.nodes ∧ v.graph.edges.length ≤ l.edges

/-- Estimators with the same text compute the same graphs. -/
def TextFaithful (L : StLibs K F) : Prop :=
  ∀ a b a' b', L.text a b = L.text a' b' → L.fitTransform a b = L.fitTransform a' b'

variable [Field K]

/-- The graph of the data and the estimator chosen, computed anew. -/
def pageGraph (L : StLibs K F) (c : StControls F) : Py NxGraph := do
  let (dfX, _) ← loadSource L c.source
  let y ← stLens L dfX.toNumpy c.lens
  computeMapper L c.cover c.clustering dfX.toNumpy y c.scaleClustering c.scaleCover

/-- Its layout, computed anew. -/
def pagePlot (L : StLibs K F) (c : StControls F) : Py (MapperPlot K) := do
  let g ← pageGraph L c
  computeMapperPlot L g (if c.threeD then 3 else 2) c.seed c.iterations

/-- The colours: the targets and the features side by side. -/
def pageColors (L : StLibs K F) (c : StControls F) : Py (Frame K) := do
  let (dfX, dfY) ← loadSource L c.source
  return concatFrames [dfY, dfX]

/-- The table of a page: the numbers of rows, of columns of the features and of the targets, of nodes,
of edges and of connected components. -/
def pageStats (L : StLibs K F) (dfX dfY : Frame K) (g : NxGraph) : List ℕ :=
  [dfX.rows, dfX.columns.length, dfY.columns.length, g.nodes.len, g.edges.length, L.components g]

/-- The page, with everything computed anew. -/
def pageView [LinearOrder K] (L : StLibs K F) (c : StControls F) : Py (Option (StView K)) :=
  match loadSource L c.source with
  | .error .valueError => .ok none
  | .error e => .error e
  | .ok (dfX, dfY) => do
    let g ← pageGraph L c
    let p ← pagePlot L c
    let f ← computeMapperFig L p (concatFrames [dfY, dfX]) c.agg
    return some ⟨dfX, dfY, g, { f with width := none }, pageStats L dfX dfY g⟩

end Verif

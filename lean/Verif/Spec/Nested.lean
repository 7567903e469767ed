import Verif.Model.Learn
import Verif.Spec.Library

/-!
# Specification: a `MapperClustering` as the clustering of another estimator
-/

set_option autoImplicit false

namespace Verif

/-- What the user gets who calls `fit(X)` on the `MapperClustering` at `r`, where `X` is a list of
points, and then reads `labels_`. -/
def fittedLabels (W : World) (fuel : ℕ) (h : Heap) (r : ℕ) (X : List RealArray) : Py (List ℤ) :=
  match mapperClusteringFit W fuel r (stackRows X) none h with
  | (.error e, _) => .error e
  | (.ok _, h') =>
    match attrAt h' r "labels_" with
    | some (.labels l) => .ok l
    | _ => .error .attributeError

/-- The Mapper graph of validated data, for the charts of the parameter `cover` and the
clustering `f` of their points. -/
def graphWith (W : World) (h : Heap) (cover : Val) (f : List RealArray → Py (List ℤ)) (X : Input)
    (y : Option Input) : Py NxGraph := do
  let (aX, ay) ← validateXy X (y.getD X)
  let rX ← rowsOf aX
  let ry ← rowsOf ay
  let g ← mapperGraph rX ry (coverParam W h cover) (fun _ => f)
  let _ ← nFeatures aX
  return g

/-- `g` is a graph of clusters: chart number `c < m` contains the points `i` with `mem c i`, and
splits into clusters by the equivalence `same c`. The cluster of `i` in the chart `c` is the node
`node c i`; there are no other nodes, and different clusters have different nodes. The `ids` of a node
are the points of the cluster, in increasing order. Two different nodes are adjacent
exactly if some point is in both clusters. -/
structure IsClusterGraph (g : NxGraph) (mem : ℕ → ℕ → Prop) (same : ℕ → ℕ → ℕ → Prop)
    (node : ℕ → ℕ → ℤ) : Prop where
  nodes : ∀ u, g.IsNode u ↔ ∃ c i, mem c i ∧ u = node c i
  distinct : ∀ c i c' i', mem c i → mem c' i' → (node c i = node c' i' ↔ c = c' ∧ same c i i')
  attr : ∀ c i, mem c i → ∃ ids, g.nodes.get? (node c i) = some ⟨some ids.length, some ids⟩ ∧
    ids.Pairwise (· < ·) ∧ ∀ j, j ∈ ids ↔ mem c j ∧ same c i j
  adj : ∀ c i c' i', mem c i → mem c' i' → (g.Adj (node c i) (node c' i') ↔
    ¬ (c = c' ∧ same c i i') ∧ ∃ j, (mem c j ∧ same c i j) ∧ mem c' j ∧ same c' i' j)

end Verif

import Verif.Model.Core
import Mathlib.Logic.Relation
import Mathlib.Data.Int.Notation
import Mathlib.Data.Nat.Notation
import Mathlib.Data.List.Nodup

/-!
# Specification: covers, local labels, graphs
-/

set_option autoImplicit false

namespace Verif

/-- A cover's answer for `n` points: charts of valid indices, without repetition. -/
def GoodCharts (n : ℕ) (charts : List (List ℕ)) : Prop :=
  ∀ ids ∈ charts, ids.Nodup ∧ ∀ i ∈ ids, i < n

/-- The points with the given indices. -/
def pointsOf {S : Type} (X : List S) (ids : List ℕ) : List S :=
  ids.filterMap fun i => X[i]?

/-- Clustering the points of chart number `c` gives the labels `lbls`. -/
def ChartLabels {S : Type} (X : List S) (charts : List (List ℕ)) (clust : ClustFn S)
    (c : ℕ) (ids : List ℕ) (lbls : List ℤ) : Prop :=
  charts[c]? = some ids ∧ clust c (pointsOf X ids) = .ok lbls

/-- The clustering succeeds on every chart. -/
def ClusteringSucceeds {S : Type} (X : List S) (charts : List (List ℕ)) (clust : ClustFn S) :
    Prop :=
  ∀ c ids, charts[c]? = some ids → ∃ lbls, ChartLabels X charts clust c ids lbls

/-- Chart number `c` contains point `i`, and the clustering of that chart gives
it the label `l` (negative: noise). -/
def LocalLabel {S : Type} (X : List S) (charts : List (List ℕ)) (clust : ClustFn S)
    (c i : ℕ) (l : ℤ) : Prop :=
  ∃ (ids : List ℕ) (lbls : List ℤ) (k : ℕ),
    ChartLabels X charts clust c ids lbls ∧ ids[k]? = some i ∧ lbls[k]? = some l

/-- Point `n` carries the label `L`. -/
def Carries (itm : List (List ℤ)) (n : ℕ) (L : ℤ) : Prop :=
  ∃ lbls, itm[n]? = some lbls ∧ L ∈ lbls

namespace NxGraph

/-- `u in graph`. -/
def IsNode (g : NxGraph) (u : ℤ) : Prop := u ∈ g.nodes.keys

/-- `v in graph[u]`. -/
def Adj (g : NxGraph) (u v : ℤ) : Prop := ∃ nb, g.adj.get? u = some nb ∧ v ∈ nb

/-- There is a path from `u` to `v`. -/
def Reachable (g : NxGraph) : ℤ → ℤ → Prop := Relation.ReflTransGen g.Adj

end NxGraph

end Verif

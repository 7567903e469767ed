import Verif.Spec.Core

/-!
# Specification: nerve of a cover, chains of points
-/

set_option autoImplicit false

namespace Verif

/-- `g` is the graph of the nerve of `charts`: one node per chart, numbered in order, whose
`ids` are the points of the chart in increasing order and whose `size` is their number; two
different nodes are adjacent exactly if their charts have a point in common, and only nodes are
adjacent. -/
structure IsNerve (g : NxGraph) (charts : List (List ℕ)) : Prop where
  node : ∀ u, g.IsNode u ↔ ∃ c : ℕ, c < charts.length ∧ u = c
  attr : ∀ (c : ℕ) ids, charts[c]? = some ids → ∃ l,
    g.nodes.get? c = some ⟨some ids.length, some l⟩ ∧ l.Pairwise (· < ·) ∧ l.Perm ids
  adj : ∀ (c c' : ℕ) ids ids', charts[c]? = some ids → charts[c']? = some ids' →
    (g.Adj c c' ↔ c ≠ c' ∧ ∃ i, i ∈ ids ∧ i ∈ ids')
  ends : ∀ u v, g.Adj u v → g.IsNode u ∧ g.IsNode v

/-- Two points are in one cluster: some chart contains both and gives them the same label,
which is not noise. -/
def Clustered {S : Type} (X : List S) (charts : List (List ℕ)) (clust : ClustFn S) (i j : ℕ) :
    Prop :=
  ∃ c l, 0 ≤ l ∧ LocalLabel X charts clust c i l ∧ LocalLabel X charts clust c j l

/-- Two points are in one chart. -/
def InOneChart (charts : List (List ℕ)) (i j : ℕ) : Prop := ∃ chart ∈ charts, i ∈ chart ∧ j ∈ chart

/-- A chain of points each of which is related to the next. -/
def Linked (r : ℕ → ℕ → Prop) : ℕ → ℕ → Prop := Relation.ReflTransGen r

end Verif

import Verif.Spec.Core
import Mathlib.Algebra.Group.Defs

/-!
# Specification: rows of nodes, walks, and how far apart the rows of near nodes are
-/

set_option autoImplicit false

namespace Verif

namespace NxGraph

/-- Row `i` of the dataset is in the attribute `ids` of the node `u`. -/
def HasRow (g : NxGraph) (u : ℤ) (i : ℕ) : Prop :=
  ∃ size ids, g.nodes.get? u = some ⟨size, some ids⟩ ∧ i ∈ ids

/-- One can go from node `u` to node `v` along `n` edges. -/
inductive Walk (g : NxGraph) : ℕ → ℤ → ℤ → Prop
  | nil (u : ℤ) : Walk g 0 u u
  | cons {n : ℕ} {u v t : ℤ} : g.Adj u v → Walk g n v t → Walk g (n + 1) u t

end NxGraph

/-- `n` edges away from a row one is less than `n + 1` times `w` away from it, in the sense of `δ`: a
row of a node and a row of a node reached from it along `n` edges have values `y[i]`, `y[j]` with
`δ y[i] y[j] < (n + 1) w`. With `n = 0`, this bounds the size of each node. -/
def StepsBounded {T R : Type} [AddMonoid R] [LT R] (g : NxGraph) (y : List T) (δ : T → T → R)
    (w : R) : Prop :=
  ∀ (n : ℕ) (u v : ℤ), g.Walk n u v → ∀ (i j : ℕ) (yi yj : T), g.HasRow u i → g.HasRow v j →
    y[i]? = some yi → y[j]? = some yj → δ yi yj < (n + 1) • w

/-- The rows `i` and `j` are in the same nodes. -/
def SameNodes (g : NxGraph) (i j : ℕ) : Prop := ∀ u, g.HasRow u i ↔ g.HasRow u j

end Verif

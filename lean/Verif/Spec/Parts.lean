import Verif.Spec.Local

/-!
# Specification: a part of the data on its own
-/

set_option autoImplicit false

namespace Verif

/-- `part` consists of the rows `τ 0 < τ 1 < …` of `whole`, in order. -/
structure PartOf {α : Type} (τ : ℕ → ℕ) (part whole : List α) : Prop where
  order : ∀ i j, i < j → j < part.length → τ i < τ j
  entry : ∀ i, i < part.length → whole[τ i]? = part[i]?

/-- Row `j` of the whole is not one of the `n` rows of the part. -/
def NotOfPart (τ : ℕ → ℕ) (n j : ℕ) : Prop := ∀ i, i < n → τ i ≠ j

/-- The graph of the part is what the graph of the whole is on the rows of the part: up to the numbers of nodes
(`f`) and rows (`τ`) they have the same nodes and edges there. No node of the whole has rows of the part and
others, and no edge leads from the nodes of the part to other nodes. -/
structure PartGraph (τ : ℕ → ℕ) (n : ℕ) (f : ℤ → ℤ) (part whole : NxGraph) : Prop where
  nodes : ∀ u, part.IsNode u → whole.IsNode (f u)
  inj : ∀ u v, part.IsNode u → part.IsNode v → f u = f v → u = v
  rows : ∀ u, part.IsNode u → ∃ size ids ids', part.nodes.get? u = some ⟨some size, some ids⟩ ∧
    whole.nodes.get? (f u) = some ⟨some size, some ids'⟩ ∧ ids'.Perm (ids.map τ)
  all : ∀ u i, i < n → whole.HasRow u (τ i) → ∃ v, part.IsNode v ∧ f v = u
  edges : ∀ u v, part.IsNode u → part.IsNode v → (whole.Adj (f u) (f v) ↔ part.Adj u v)
  closed : ∀ u v, part.IsNode u → whole.Adj (f u) v → ∃ w, part.IsNode w ∧ f w = v

/-- The labels of connected components say the same about the `n` rows of the part as about the whole, and no
row of the part is in the component of another row (`-1` is the label of rows in no node). -/
def PartComponents (τ : ℕ → ℕ) (n : ℕ) (part whole : List ℤ) : Prop :=
  part.length = n ∧ (∀ i, i < n → (part[i]? = some (-1) ↔ whole[τ i]? = some (-1))) ∧
  (∀ i j, i < n → j < n → (part[i]? = part[j]? ↔ whole[τ i]? = whole[τ j]?)) ∧
  ∀ i j, i < n → j < whole.length → NotOfPart τ n j → whole[τ i]? = whole[j]? → whole[j]? = some (-1)

end Verif

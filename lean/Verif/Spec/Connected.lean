import Mathlib.Logic.Relation

/-!
# Specification: connectivity generated by pairs
-/

namespace Verif

/-- The least equivalence relation containing the given pairs. -/
def Connected {α : Type} (pairs : List (α × α)) : α → α → Prop :=
  Relation.EqvGen (fun a b => (a, b) ∈ pairs)

end Verif

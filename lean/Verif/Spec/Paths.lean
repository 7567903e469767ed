import Verif.Spec.Levels
import Mathlib.Data.Fin.Basic

/-!
# Specification: graphs made of paths
-/

set_option autoImplicit false

namespace Verif

/-- The nodes of `g` can be lined up such that the graph consists of pieces of that line: nodes have
different levels, and edges lead to the next level, up or down. -/
structure IsPaths (g : NxGraph) (level : ℤ → ℤ) : Prop where
  ends : ∀ u v, g.Adj u v → g.IsNode u ∧ g.IsNode v
  one : ∀ u v, g.IsNode u → g.IsNode v → level u = level v → u = v
  next : NextLevels g level

/-- There are no three or more different nodes each of which is joined to the next, and the last to the
first (`i + 1` is the number after `i` going round). -/
def NoCycle (g : NxGraph) : Prop :=
  ∀ (n : ℕ) (c : Fin (n + 3) → ℤ), Function.Injective c → ∃ i, ¬ g.Adj (c i) (c (i + 1))

end Verif

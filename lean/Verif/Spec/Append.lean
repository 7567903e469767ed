import Verif.Spec.Core

/-!
# Specification: what a longer dataset keeps of a shorter one
-/

set_option autoImplicit false

namespace Verif

/-- Chart `κ c` of `charts'` holds, of the first `n` points, exactly those of chart `c` of
`charts`; different charts correspond to different ones. -/
structure ChartsExtend (n : ℕ) (κ : ℕ → ℕ) (charts charts' : List (List ℕ)) : Prop where
  chart : ∀ (c : ℕ) ids, charts[c]? = some ids → ∃ ids', charts'[κ c]? = some ids' ∧
    ∀ i, i < n → (i ∈ ids' ↔ i ∈ ids)
  inj : ∀ c c', c < charts.length → c' < charts.length → κ c = κ c' → c = c'

/-- The graph `g'` contains `g`: node `c` of `g` is node `κ c` of `g'`, whose points among the
first `n` are those of `c`; edges remain edges. -/
structure GraphExtends (n : ℕ) (κ : ℕ → ℕ) (g g' : NxGraph) : Prop where
  node : ∀ c : ℕ, g.IsNode c → g'.IsNode (κ c)
  inj : ∀ c c' : ℕ, g.IsNode c → g.IsNode c' → κ c = κ c' → c = c'
  ids : ∀ (c : ℕ), g.IsNode c → ∃ l l', g.nodes.get? c = some ⟨some l.length, some l⟩ ∧
    g'.nodes.get? (κ c) = some ⟨some l'.length, some l'⟩ ∧ l = l'.filter (fun i => i < n)
  adj : ∀ c c' : ℕ, g.IsNode c → g.IsNode c' → g.Adj c c' → g'.Adj (κ c) (κ c')

/-- Points of the first `n` in one component stay in one component. -/
def ComponentsExtend (n : ℕ) (out out' : List ℤ) : Prop :=
  ∀ i j, i < n → j < n → out[i]? = out[j]? → out'[i]? = out'[j]?

end Verif

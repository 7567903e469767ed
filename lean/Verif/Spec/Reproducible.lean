import Verif.Spec.Core

/-!
# Specification: the same result up to names
-/

set_option autoImplicit false

namespace Verif

/-- The same charts in the same order, each with its indices in any order. -/
def SameCharts (a b : List (List ℕ)) : Prop := List.Forall₂ List.Perm a b

/-- `l'` holds the entries of `l` in another order: position `m` of `l'` holds what is at
position `π m` of `l`. -/
structure Shuffled {α : Type} (π : ℕ → ℕ) (l l' : List α) : Prop where
  length : l'.length = l.length
  entry : ∀ m, m < l.length → π m < l.length ∧ l'[m]? = l[π m]?
  inj : ∀ m m', m < l.length → m' < l.length → π m = π m' → m = m'

/-- The labels `lbls'` describe the same clusters and the same noise as `lbls`, when
position `m` of the former stands for position `π m` of the latter. The numbers given to the
clusters may differ. -/
def SameClusters (π : ℕ → ℕ) (lbls lbls' : List ℤ) : Prop :=
  lbls'.length = lbls.length ∧ ∀ m m' l k l' k', lbls[π m]? = some l → lbls[π m']? = some k →
    lbls'[m]? = some l' → lbls'[m']? = some k' →
    (0 ≤ l ↔ 0 ≤ l') ∧ (0 ≤ l → 0 ≤ k → (l = k ↔ l' = k'))

/-- The clustering gives one label per point, and finds the same clusters in whatever
order it is given the points. -/
def OrderInsensitive {S : Type} (clust : ClustFn S) : Prop :=
  ∀ c xs lbls, clust c xs = .ok lbls → lbls.length = xs.length ∧
    ∀ π xs', Shuffled π xs xs' → ∃ lbls', clust c xs' = .ok lbls' ∧ SameClusters π lbls lbls'

/-- `g'` is `g` with nodes renamed by `f` and points renamed by `τ`. -/
structure RenamedGraph (τ : ℕ → ℕ) (f : ℤ → ℤ) (g g' : NxGraph) : Prop where
  nodes : ∀ L', g'.IsNode L' ↔ ∃ L, g.IsNode L ∧ f L = L'
  inj : ∀ L K, g.IsNode L → g.IsNode K → f L = f K → L = K
  attr : ∀ L, g.IsNode L → ∃ size ids ids', g.nodes.get? L = some ⟨some size, some ids⟩ ∧
    g'.nodes.get? (f L) = some ⟨some size, some ids'⟩ ∧ ids'.Perm (ids.map τ)
  adj : ∀ L K, g.IsNode L → g.IsNode K → (g'.Adj (f L) (f K) ↔ g.Adj L K)

/-- The labels of `n` points describe the same noise and the same components, when point
`τ i` of the second list is point `i` of the first. -/
def SameComponents (τ : ℕ → ℕ) (n : ℕ) (out out' : List ℤ) : Prop :=
  out.length = n ∧ out'.length = n ∧
  (∀ i, i < n → (out[i]? = some (-1) ↔ out'[τ i]? = some (-1))) ∧
  ∀ i j, i < n → j < n → (out[i]? = out[j]? ↔ out'[τ i]? = out'[τ j]?)

end Verif

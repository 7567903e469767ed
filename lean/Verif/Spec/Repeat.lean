import Verif.Spec.Reproducible

/-!
# Specification: rows that are repeated
-/

set_option autoImplicit false

namespace Verif

/-- `l'` holds the entries of `l`, each at least once: position `j` of `l'` holds what is at
position `π j` of `l`. -/
structure Repeats {α : Type} (π : ℕ → ℕ) (l l' : List α) : Prop where
  entry : ∀ j, j < l'.length → π j < l.length ∧ l'[j]? = l[π j]?
  every : ∀ i, i < l.length → ∃ j, j < l'.length ∧ π j = i

/-- The entries of a list of `n` appear for the first time in their order: before any copy of
entry `π j` there is a copy of every entry that precedes it. -/
def FirstInOrder (π : ℕ → ℕ) (n : ℕ) : Prop :=
  ∀ j, j < n → ∀ i, i < π j → ∃ j', j' < j ∧ π j' = i

/-- The clustering gives one label per point, and finds the same clusters however often it is
given each point, and in whatever order. The numbers given to the clusters may differ. -/
def RepeatInsensitive {S : Type} (clust : ClustFn S) : Prop :=
  ∀ c xs lbls, clust c xs = .ok lbls → lbls.length = xs.length ∧
    ∀ π xs', Repeats π xs xs' → ∃ lbls', clust c xs' = .ok lbls' ∧ lbls'.length = xs'.length ∧
      ∀ m m' l k l' k', lbls[π m]? = some l → lbls[π m']? = some k →
        lbls'[m]? = some l' → lbls'[m']? = some k' →
        (0 ≤ l ↔ 0 ≤ l') ∧ (0 ≤ l → 0 ≤ k → (l = k ↔ l' = k'))

/-- `ids'` lists, without repetition, the positions below `n` of all copies of the rows
in `ids`. -/
def CopiesOf (π : ℕ → ℕ) (n : ℕ) (ids ids' : List ℕ) : Prop :=
  ids'.Nodup ∧ ∀ j, j ∈ ids' ↔ j < n ∧ π j ∈ ids

/-- The same charts in the same order, each with all the copies of its rows. -/
def SameChartsWithCopies (π : ℕ → ℕ) (n : ℕ) (charts charts' : List (List ℕ)) : Prop :=
  List.Forall₂ (CopiesOf π n) charts charts'

/-- `g'` is `g` up to the names of the nodes, which `f` translates back, with all the copies of
the points of each node; `n` is the number of points of `g'`. -/
structure GraphWithCopies (π : ℕ → ℕ) (n : ℕ) (f : ℤ → ℤ) (g g' : NxGraph) : Prop where
  nodes : ∀ L, g.IsNode L ↔ ∃ L', g'.IsNode L' ∧ f L' = L
  inj : ∀ L' K', g'.IsNode L' → g'.IsNode K' → f L' = f K' → L' = K'
  attr : ∀ L', g'.IsNode L' → ∃ ids ids',
    g.nodes.get? (f L') = some ⟨some ids.length, some ids⟩ ∧
    g'.nodes.get? L' = some ⟨some ids'.length, some ids'⟩ ∧ CopiesOf π n ids ids'
  adj : ∀ L' K', g'.IsNode L' → g'.IsNode K' → (g.Adj (f L') (f K') ↔ g'.Adj L' K')

/-- The labels `out'` of the copies describe the same noise and the same components as those of the
points. -/
def ComponentsWithCopies (π : ℕ → ℕ) (n n' : ℕ) (out out' : List ℤ) : Prop :=
  out.length = n ∧ out'.length = n' ∧
  (∀ j, j < n' → (out'[j]? = some (-1) ↔ out[π j]? = some (-1))) ∧
  ∀ j k, j < n' → k < n' → (out'[j]? = out'[k]? ↔ out[π j]? = out[π k]?)

end Verif

import Verif.Spec.Refine

/-!
# Specification: coarser clusterings
-/

set_option autoImplicit false

namespace Verif

variable {S R : Type}

/-- The points of `xs` are among those of `xs'`: the one at position `m` is there at position
`π m`, different positions of the one going to different positions of the other. -/
structure Among (π : ℕ → ℕ) (xs xs' : List S) : Prop where
  entry : ∀ m, m < xs.length → π m < xs'.length ∧ xs'[π m]? = xs[m]?
  inj : ∀ m m', m < xs.length → m' < xs.length → π m = π m' → m = m'

/-- Points that `clust` puts in one cluster are put in one cluster by `clust'`, also if more
points are given to it. (With `m = m'`: points in a cluster do not become noise.) -/
def CoarserClustering (clust clust' : ClustFn S) : Prop :=
  ∀ k k' xs xs' lbls lbls' π, Among π xs xs' → clust k xs = .ok lbls → clust' k' xs' = .ok lbls' →
    ∀ (m m' : ℕ) (l : ℤ), m < xs.length → m' < xs.length →
      lbls[m]? = some l → lbls[m']? = some l → 0 ≤ l →
      ∃ l', lbls'[π m]? = some l' ∧ lbls'[π m']? = some l' ∧ 0 ≤ l'

/-- The same for two clusterings of the same points, job by job. -/
def CoarserInPlace (clust clust' : ClustFn S) : Prop :=
  ∀ k xs lbls lbls', clust k xs = .ok lbls → clust' k xs = .ok lbls' →
    ∀ (m m' : ℕ) (l : ℤ), m < xs.length → m' < xs.length →
      lbls[m]? = some l → lbls[m']? = some l → 0 ≤ l →
      ∃ l', lbls'[m]? = some l' ∧ lbls'[m']? = some l' ∧ 0 ≤ l'

/-- Points that are together in `out` are together in `out'`, and points that are noise in `out'`
are noise in `out`. -/
structure CoarserComponents (n : ℕ) (out out' : List ℤ) : Prop where
  noise : ∀ i, i < n → out'[i]? = some (-1) → out[i]? = some (-1)
  together : ∀ i j, i < n → j < n → out[i]? = out[j]? → out[i]? ≠ some (-1) → out'[i]? = out'[j]?

/-- The points at two positions are at distance at most `r`. -/
def CloseBy [LE R] (d : S → S → R) (r : R) (xs : List S) (a b : ℕ) : Prop :=
  ∃ x y, xs[a]? = some x ∧ xs[b]? = some y ∧ d x y ≤ r

/-- Single linkage with a threshold: no noise, and two points are in one cluster if and only if
they are linked by a chain of points with steps of at most `r`. -/
def SingleLinkage [LE R] (d : S → S → R) (r : R) (clust : ClustFn S) : Prop :=
  ∀ k xs lbls, clust k xs = .ok lbls → lbls.length = xs.length ∧ (∀ l ∈ lbls, 0 ≤ l) ∧
    ∀ (m m' : ℕ) (l l' : ℤ), lbls[m]? = some l → lbls[m']? = some l' →
      (l = l' ↔ Relation.EqvGen (CloseBy d r xs) m m')

end Verif

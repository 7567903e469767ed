import Verif.Spec.Reproducible

/-!
# Specification: the same clusters under other numbers
-/

set_option autoImplicit false

namespace Verif

/-- Two clusterings find the same clusters and the same noise in whatever they are given, or raise the
same exception. The numbers of the clusters may differ, and so may the negative numbers that
mark noise. -/
def SameUpToNumbers {S : Type} (clust clust' : ClustFn S) : Prop :=
  ∀ k xs, (∃ lbls lbls', clust k xs = .ok lbls ∧ clust' k xs = .ok lbls' ∧
      SameClusters id lbls lbls') ∨
    ∃ e, clust k xs = .error e ∧ clust' k xs = .error e

end Verif

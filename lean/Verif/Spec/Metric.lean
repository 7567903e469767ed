import Mathlib.Algebra.Order.Group.Defs
import Mathlib.Data.List.Perm.Basic

/-!
# Specification: pseudo-metrics, balls and nearest neighbours
-/

namespace Verif

variable {T R : Type}

/-- A pseudo-metric with values in an ordered commutative group: distinct points
may be at distance zero. (Non-negativity follows.) -/
structure PseudoMetric [AddCommGroup R] [LinearOrder R] (d : T → T → R) : Prop where
  self : ∀ x, d x x = 0
  symm : ∀ x y, d x y = d y x
  triangle : ∀ x y z, d x z ≤ d x y + d y z

/-- Membership in the closed (`inclusive`) or open ball of radius `eps` at `q`. -/
def InBall [LE R] [LT R] (d : T → T → R) (q : T) (eps : R) (inclusive : Bool) (x : T) : Prop :=
  if inclusive then d q x ≤ eps else d q x < eps

instance [LE R] [LT R] [DecidableLE R] [DecidableLT R] (d : T → T → R) (q : T) (eps : R) (b : Bool) :
    DecidablePred (InBall d q eps b) := fun x => by
  unfold InBall; infer_instance

/-- `out` lists every entry of `X` in the ball, as many times as `X` does, and
nothing else. -/
def IsBallAnswer [LinearOrder R] (d : T → T → R) (q : T) (eps : R) (inclusive : Bool)
    (X out : List T) : Prop :=
  out.Perm (X.filter (fun x => decide (InBall d q eps inclusive x)))

/-- `out` consists of `min k |X|` entries of `X`, none of them farther from `q`
than an entry left out. -/
def IsKnnAnswer [LE R] (d : T → T → R) (q : T) (k : ℕ) (X out : List T) : Prop :=
  out.length = min k X.length ∧
    ∃ left, (out ++ left).Perm X ∧ ∀ x ∈ out, ∀ y ∈ left, d q x ≤ d q y

end Verif

import Verif.Model.Cover
import Verif.Spec.Units

/-!
# Specification: the same distances, in the same or another unit
-/

set_option autoImplicit false

namespace Verif

variable {T T' R R' : Type}

/-- A change of the unit of distances: `ψ` keeps the order, zero, negatives and differences. In an
ordered field, multiplication by a positive number; with floating-point numbers,
multiplication by a power of two without overflow and underflow; or no change at all. -/
structure UnitChange [LE R] [LT R] [Zero R] [Neg R] [Sub R] [LE R'] [LT R'] [Zero R'] [Neg R']
    [Sub R'] (ψ : R → R') : Prop where
  inj : Function.Injective ψ
  le : ∀ x y, ψ x ≤ ψ y ↔ x ≤ y
  lt : ∀ x y, ψ x < ψ y ↔ x < y
  zero : ψ 0 = 0
  neg : ∀ x, ψ (-x) = -ψ x
  sub : ∀ x y, ψ (x - y) = ψ x - ψ y

/-- Two `BallCover`s have the same parameters, except for the metric, and the lengths are in other
units. -/
structure BallTwins (ψ : R → R') (c : BallParams T R) (c' : BallParams T' R') : Prop where
  radius : c'.radius = ψ c.radius
  kind : c'.kind = c.kind
  leafCapacity : c'.leafCapacity = c.leafCapacity
  leafRadius : c'.leafRadius = c.leafRadius.map ψ
  pivoting : c'.pivoting = c.pivoting

/-- Two `KNNCover`s have the same parameters, except for the metric, and the leaf radius is in
other units. -/
structure KnnTwins (ψ : R → R') (c : KnnParams T R) (c' : KnnParams T' R') : Prop where
  neighbors : c'.neighbors = c.neighbors
  kind : c'.kind = c.kind
  leafCapacity : c'.leafCapacity = c.leafCapacity
  leafRadius : c'.leafRadius = ψ c.leafRadius
  pivoting : c'.pivoting = c.pivoting

/-- The parameters of two trees are the same, the leaf radius in other units. -/
def VPParams.inUnit (ψ : R → R') (p : VPParams R) : VPParams R' :=
  ⟨p.leafCapacity, ψ p.leafRadius, p.pivoting⟩

end Verif

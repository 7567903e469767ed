import Verif.Spec.Metric
import Mathlib.Algebra.Order.Group.Unbundled.Abs
import Mathlib.Data.List.Perm.Subperm

/-!
# Specification: rounded numbers, and distances computed with an error
-/

set_option autoImplicit false

namespace Verif

variable {T R K : Type}

/-- `R` is a type of machine numbers: `val` is the exact value of a machine number, zero and
negation are exact, and a difference is rounded to a neighbour, that is, rounding never
passes over a machine number. All IEEE 754 rounding modes are of this kind, as long as no
NaN or infinity arises. -/
structure Rounded [LinearOrder R] [Zero R] [Neg R] [Sub R] [AddCommGroup K] [LinearOrder K]
    (val : R → K) : Prop where
  le : ∀ x y, val x ≤ val y ↔ x ≤ y
  zero : val 0 = 0
  neg : ∀ x, val (-x) = -val x
  sub_le : ∀ x y z, val x - val y ≤ val z → x - y ≤ z
  le_sub : ∀ x y z, val z ≤ val x - val y → z ≤ x - y

/-- Differences of machine numbers are rounded by at most `η`. -/
def RoundedBy [Sub R] [AddCommGroup K] [LinearOrder K] (val : R → K) (η : K) : Prop :=
  ∀ x y, |val (x - y) - (val x - val y)| ≤ η

/-- A symmetric distance for which the triangle inequality may fail by `δ`. -/
structure MetricUpTo [AddCommGroup K] [LinearOrder K] (val : R → K) (δ : K) (d : T → T → R) :
    Prop where
  symm : ∀ x y, d x y = d y x
  triangle : ∀ x y z, val (d x z) ≤ val (d x y) + val (d y z) + δ

/-- `d` computes the distance `D`, symmetrically, with an error of at most `u`. -/
structure Computes [AddCommGroup K] [LinearOrder K] (val : R → K) (u : K) (D : T → T → K)
    (d : T → T → R) : Prop where
  symm : ∀ x y, d x y = d y x
  error : ∀ x y, |val (d x y) - D x y| ≤ u

/-- `x` is in the ball of radius `eps` by a margin of `δ`. -/
def WellInBall [AddCommGroup K] [LinearOrder K] (D : T → T → K) (q : T) (eps : K)
    (inclusive : Bool) (δ : K) (x : T) : Prop :=
  InBall (fun a b => D a b + δ) q eps inclusive x

instance [AddCommGroup K] [LinearOrder K] (D : T → T → K) (q : T) (eps : K) (b : Bool) (δ : K) :
    DecidablePred (WellInBall D q eps b δ) := fun x => by
  unfold WellInBall; infer_instance

/-- `out` contains the entries of `X` satisfying `S`, and only entries satisfying `P`; entries
count as often as they occur. -/
def AnswerBetween (S P : T → Prop) [DecidablePred S] [DecidablePred P] (X out : List T) : Prop :=
  (X.filter (fun x => decide (S x))).Subperm out ∧ out.Subperm (X.filter (fun x => decide (P x)))

/-- `out` consists of `min k |X|` entries of `X`, none of them farther from `q` by more than
`δ` than an entry left out. -/
def KnnAnswerUpTo [AddCommGroup K] [LinearOrder K] (D : T → T → K) (q : T) (k : ℕ) (δ : K)
    (X out : List T) : Prop :=
  out.length = min k X.length ∧
    ∃ left, (out ++ left).Perm X ∧ ∀ x ∈ out, ∀ y ∈ left, D q x ≤ D q y + δ

end Verif

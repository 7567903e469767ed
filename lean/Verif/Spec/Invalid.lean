import Verif.Spec.Construct

/-!
# Specification: calls of constructors with illegal values

The arguments have the right types, but `kind`, `metric`, `algorithm`, `radius` and `overlap_frac` are
anything.
-/

set_option autoImplicit false

namespace Verif

/-- The arguments of `BallCover(...)` stand for the distance `d`, the radius `r`, the kind of tree `s` and
the leaf capacity `c`. -/
structure BallTyped (I : Interp) {k : ℕ} (a : Args) (d : RVec k → RVec k → ℝ) (r : ℝ) (s : String)
    (c : ℕ) : Prop where
  fit : a.Fit ballParams
  plain : a.Plain
  metric : IsMetricParam I (a.value ballParams "metric" (.str "euclidean"))
    (a.value ballParams "metric_params" .none) d
  radius : IsNum I (a.value ballParams "radius" (.int 1)) r
  kind : a.value ballParams "kind" (.str "flat") = .str s
  capacity : a.value ballParams "leaf_capacity" (.int 1) = .int c
  leafRadius : IsNumOrNone I (a.value ballParams "leaf_radius" .none)

/-- The arguments of `KNNCover(...)` stand for the distance `d`, `n` neighbours and the kind of tree `s`. -/
structure KnnTyped (I : Interp) {k : ℕ} (a : Args) (d : RVec k → RVec k → ℝ) (n : ℕ) (s : String) :
    Prop where
  fit : a.Fit knnParams
  plain : a.Plain
  metric : IsMetricParam I (a.value knnParams "metric" (.str "euclidean"))
    (a.value knnParams "metric_params" .none) d
  neighbors : a.value knnParams "neighbors" (.int 1) = .int n
  kind : a.value knnParams "kind" (.str "flat") = .str s
  capacity : a.value knnParams "leaf_capacity" .none = .none ∨
    ∃ c : ℕ, a.value knnParams "leaf_capacity" .none = .int c
  leafRadius : ∃ x, IsNum I (a.value knnParams "leaf_radius" (.int 0)) x

/-- The arguments of a cubical cover with these parameters stand for `n` intervals, in
dimension `k` the overlap fraction `p`, the kind of tree `s` and the leaf capacity `c`. -/
structure CubTyped (I : Interp) (k : ℕ) (params : List String) (a : Args) (n : ℕ) (p : ℝ) (s : String)
    (c : ℕ) : Prop where
  fit : a.Fit params
  plain : a.Plain
  intervals : a.value params "n_intervals" (.int 1) = .int n
  overlap : (a.value params "overlap_frac" .none = .none ∧ p = defaultOverlap k) ∨
    IsNum I (a.value params "overlap_frac" .none) p
  kind : a.value params "kind" (.str "flat") = .str s
  capacity : a.value params "leaf_capacity" (.int 1) = .int c
  leafRadius : IsNumOrNone I (a.value params "leaf_radius" .none)

/-- The call `cls(a)` makes a cubical cover, of either kind, with these parameters. -/
inductive CubTypedCall (I : Interp) (k : ℕ) : String → Args → ℕ → ℝ → String → ℕ → Prop
  | standard {a : Args} {n : ℕ} {p : ℝ} {s : String} {c : ℕ} : CubTyped I k baseCubicalParams a n p s c →
      CubTypedCall I k "StandardCubicalCover" a n p s c
  | proximity {a : Args} {n : ℕ} {p : ℝ} {s : String} {c : ℕ} : CubTyped I k baseCubicalParams a n p s c →
      CubTypedCall I k "ProximityCubicalCover" a n p s c
  | cubical {a : Args} {n : ℕ} {p : ℝ} {s : String} {c : ℕ} {alg : String} :
      CubTyped I k cubicalParams a n p s c →
      a.value cubicalParams "algorithm" (.str "proximity") = .str alg → alg = "standard" ∨ alg = "proximity" →
      CubTypedCall I k "CubicalCover" a n p s c

/-- The names of the metrics in the documentation. -/
def documentedMetrics : List String := ["euclidean", "manhattan", "minkowski", "chebyshev", "cosine"]

end Verif
